import Verif.Props.NodeCovariance
import Mathlib.Algebra.QuadraticDiscriminant

/-! # C185: bounds of the published covariance -/

set_option linter.unusedSectionVars false

namespace Mcl3dl
namespace Node

variable {C : Type}

/-! ## weighted sums -/

section
variable {α : Type} {l : List (ℝ × α)}

theorem wsum_nonneg (hw : ∀ a ∈ l, 0 ≤ a.1) {f : α → ℝ} (hf : ∀ a ∈ l, 0 ≤ f a.2) : 0 ≤ (l.map fun a => a.1 * f a.2).sum :=
  List.sum_nonneg fun x hx => by
    obtain ⟨a, ha, rfl⟩ := List.mem_map.1 hx
    exact mul_nonneg (hw a ha) (hf a ha)

theorem wsum_mono (hw : ∀ a ∈ l, 0 ≤ a.1) {f g : α → ℝ} (h : ∀ a ∈ l, f a.2 ≤ g a.2) :
    (l.map fun a => a.1 * f a.2).sum ≤ (l.map fun a => a.1 * g a.2).sum :=
  List.sum_le_sum fun a ha => mul_le_mul_of_nonneg_left (h a ha) (hw a ha)

theorem wsum_const (c : ℝ) : (l.map fun a => a.1 * c).sum = (l.map Prod.fst).sum * c := List.sum_map_mul_right ..

theorem wsum_quadratic (f g : α → ℝ) (t : ℝ) : (l.map fun a => a.1 * (f a.2 * t + g a.2) ^ 2).sum =
    (l.map fun a => a.1 * (f a.2 * f a.2)).sum * (t * t) + 2 * (l.map fun a => a.1 * (f a.2 * g a.2)).sum * t +
      (l.map fun a => a.1 * (g a.2 * g a.2)).sum := by
  induction l with
  | nil => simp
  | cons a l ih => simp only [List.map_cons, List.sum_cons]; rw [ih]; ring

theorem wsum_cauchy (hw : ∀ a ∈ l, 0 ≤ a.1) (f g : α → ℝ) : (l.map fun a => a.1 * (f a.2 * g a.2)).sum ^ 2 ≤
    (l.map fun a => a.1 * (f a.2 * f a.2)).sum * (l.map fun a => a.1 * (g a.2 * g a.2)).sum := by
  have h := discrim_le_zero (a := (l.map fun a => a.1 * (f a.2 * f a.2)).sum)
    (b := 2 * (l.map fun a => a.1 * (f a.2 * g a.2)).sum) (c := (l.map fun a => a.1 * (g a.2 * g a.2)).sum) fun t => by
      rw [← wsum_quadratic]
      exact wsum_nonneg (f := fun x => (f x * t + g x) ^ 2) hw fun a _ => sq_nonneg _
  unfold discrim at h
  nlinarith

theorem wsum_about (f : α → ℝ) (m c : ℝ) (hs : (l.map Prod.fst).sum = 1) (hm : (l.map fun a => a.1 * f a.2).sum = m) :
    (l.map fun a => a.1 * ((f a.2 - m) * (f a.2 - m))).sum = (l.map fun a => a.1 * (f a.2 - c) ^ 2).sum - (m - c) ^ 2 := by
  have key : ∀ l : List (ℝ × α), (l.map fun a => a.1 * ((f a.2 - m) * (f a.2 - m))).sum =
      (l.map fun a => a.1 * (f a.2 - c) ^ 2).sum - 2 * (m - c) * (l.map fun a => a.1 * f a.2).sum +
        (m ^ 2 - c ^ 2) * (l.map Prod.fst).sum := by
    intro l
    induction l with
    | nil => simp
    | cons a l ih => simp only [List.map_cons, List.sum_cons]; rw [ih]; ring
  rw [key, hs, hm]; ring

/-- Popoviciu's inequality. -/
theorem wsum_popoviciu (hw : ∀ a ∈ l, 0 ≤ a.1) (hs : (l.map Prod.fst).sum = 1) (f : α → ℝ) {lo hi : ℝ}
    (h : ∀ a ∈ l, lo ≤ f a.2 ∧ f a.2 ≤ hi) :
    (l.map fun a => a.1 * ((f a.2 - (l.map fun a => a.1 * f a.2).sum) * (f a.2 - (l.map fun a => a.1 * f a.2).sum))).sum ≤
      ((hi - lo) / 2) ^ 2 := by
  rw [wsum_about f _ ((lo + hi) / 2) hs rfl]
  have h1 : (l.map fun a => a.1 * (f a.2 - (lo + hi) / 2) ^ 2).sum ≤ ((hi - lo) / 2) ^ 2 := by
    have := wsum_mono (f := fun x => (f x - (lo + hi) / 2) ^ 2) (g := fun _ => ((hi - lo) / 2) ^ 2) hw fun a ha => by
      obtain ⟨g1, g2⟩ := h a ha
      exact sq_le_sq' (by linarith) (by linarith)
    rw [wsum_const, hs, one_mul] at this
    exact this
  have := sq_nonneg ((l.map fun a => a.1 * f a.2).sum - (lo + hi) / 2)
  linarith

end

theorem posterior_nonneg {prior like : List ℝ} (hp : ∀ x ∈ prior, 0 ≤ x) (hl : ∀ x ∈ like, 0 ≤ x) :
    ∀ x ∈ posterior prior like, 0 ≤ x := by
  have hz : ∀ x ∈ List.zipWith (· * ·) prior like, 0 ≤ x := by
    intro x hx
    obtain ⟨i, hi, rfl⟩ := List.getElem_of_mem hx
    rw [List.getElem_zipWith]
    exact mul_nonneg (hp _ (List.getElem_mem _)) (hl _ (List.getElem_mem _))
  intro x hx
  unfold posterior at hx
  split_ifs at hx with h
  · obtain ⟨y, hy, rfl⟩ := List.mem_map.1 hx
    exact div_nonneg (hz y hy) h.le
  · exact hp x hx

theorem mean_get (l : List (ℝ × Pose)) (hs : (l.map Prod.fst).sum = 1) {j : ℕ} (hj : j < 3) :
    (weightedMean (l.map fun a => (a.1, a.2.1))).get j = (l.map fun a => a.1 * a.2.1.get j).sum := by
  have h1 : (l.map (Prod.fst ∘ fun a : ℝ × Pose => (a.1, a.2.1))).sum = 1 := hs
  interval_cases j <;> simp only [weightedMean, Vec3.get, List.map_map, h1, div_one] <;> rfl

/-- **C185**: while there are not more particles than configured and their weights are a distribution, the published
covariance is symmetric; no correlation exceeds 1; no variance of an angle exceeds π²; and the variance of x, y or z is at
most the square of half the spread of the particles in that coordinate (in particular 0 if they agree). -/
theorem C185_covariance {P : Params} (hP : Measures P) (hd : 0 < P.divYaw) (hmw : 0 ≤ P.like.matchWeight)
    {lib : Lib C} {w : Vec3 ℝ} (hw : 1 ≤ w.x ∧ 1 ≤ w.y ∧ 1 ≤ w.z)
    (hfl : ∀ pts q r num, ExactSearch pts (weightedDist w q) r num (lib.flann pts q r num))
    {env0 : Env} (hv0 : env0.Valid) {motion0 : Motion ℝ} {h : History} {e : Event × Env} (hv : HistValid (h ++ [e]))
    (hreg : RegularClouds (h ++ [e])) {n0 n1 n : Node C} {outs : List (List Out)} {o : List Out}
    (hs : start P lib env0 motion0 = .ok n0) (hr1 : run P lib n0 h = .ok (n1, outs))
    (hr : run P lib n0 (h ++ [e]) = .ok (n, outs ++ [o]))
    {b : List Scan} {s : Scan} (hb : (batchStep P (batchView P h).1 (batchView P h).2 e).1 = some (b ++ [s]))
    {t : Tf} (ht : e.2.tf P.baseFrame P.odomFrame s.header.stamp = some t)
    {stamp : ℝ} {frame : String} {pos : Vec3 ℝ} {rot : Quat ℝ} {cov : ℕ → ℕ → ℝ}
    (hp : .pose stamp frame pos rot cov ∈ o) (hc : (n1.loc.pf.particles.length : ℤ) ≤ P.numParticles)
    (h1 : (n1.loc.pf.particles.map PF.Particle.prob).sum = 1) :
    (∀ j k, cov j k = cov k j) ∧ (∀ j, 0 ≤ cov j j) ∧ (∀ j k, cov j k ^ 2 ≤ cov j j * cov k k) ∧
    (∀ j, 3 ≤ j → cov j j ≤ Real.pi ^ 2) ∧
    ∀ j < 3, ∀ lo hi : ℝ, (∀ q ∈ n1.loc.pf.particles, lo ≤ q.state.pos.get j ∧ q.state.pos.get j ≤ hi) →
      cov j j ≤ ((hi - lo) / 2) ^ 2 := by
  obtain ⟨model, origins, beamSel, sel, like, _, _, hlk, hcov⟩ :=
    C129_covariance hP hd hmw hw hfl hv0 hv hreg hs hr1 hr hb ht hp
  have hvh : HistValid h := fun e he => hv e (List.mem_append_left _ he)
  obtain ⟨hnn, -⟩ := C115_weights hd hvh hs hr1
  have hlike : ∀ x ∈ like, 0 ≤ x := by
    intro x hx
    obtain ⟨i, hi, rfl⟩ := List.getElem_of_mem hx
    obtain ⟨hll, hget⟩ := List.forall₂_iff_get.1 hlk
    obtain ⟨c, c', sts, _, e⟩ := hget i (by omega) hi
    simp only [List.get_eq_getElem] at e
    rw [e]
    exact likelihood_nonneg hP hmw
  obtain ⟨mean, dev, used, g1, g2, -, -, g5, g6⟩ := hcov (posterior_sum h1)
  have g5 := g5 hc
  subst g5
  set post := posterior (n1.loc.pf.particles.map PF.Particle.prob) like with hpost
  set all := post.zip (n1.loc.pf.particles.map fun q => (q.state.pos, q.state.rot)) with hall
  have hw0 : ∀ a ∈ all, 0 ≤ a.1 := by
    intro a ha
    refine posterior_nonneg ?_ hlike a.1 (List.of_mem_zip ha).1
    intro x hx
    obtain ⟨q, hq, rfl⟩ := List.mem_map.1 hx
    exact hnn q hq
  have hlen : post.length = n1.loc.pf.particles.length := by
    have := hlk.length_eq
    rw [hpost]; unfold posterior
    split_ifs <;> simp <;> omega
  have hsum : (all.map Prod.fst).sum = 1 := by
    rw [hall, List.map_fst_zip (by simp [hlen])]
    exact posterior_sum h1
  have hcv : ∀ j k, cov j k = (all.map fun a => a.1 * (dev a.2 j * dev a.2 k)).sum := by
    intro j k; rw [g6, hsum, div_one]
  refine ⟨fun j k => ?_, fun j => ?_, fun j k => ?_, fun j hj => ?_, fun j hj lo hi hbox => ?_⟩
  · rw [hcv, hcv]; congr 1; refine List.map_congr_left fun a _ => ?_; ring
  · rw [hcv]; exact wsum_nonneg (f := fun x => dev x j * dev x j) hw0 fun a _ => mul_self_nonneg _
  · rw [hcv, hcv, hcv]; exact wsum_cauchy hw0 (fun x => dev x j) fun x => dev x k
  · rw [hcv]
    have := wsum_mono (f := fun x => dev x j * dev x j) (g := fun _ => Real.pi ^ 2) hw0 fun a _ => by
      have := g2 a.2 j
      unfold DeviatesBy at this
      rw [if_neg (by omega)] at this
      obtain ⟨a1, a2, -⟩ := this
      nlinarith
    rw [wsum_const, hsum, one_mul] at this
    exact this
  · rw [hcv]
    have hdev : ∀ x : Pose, dev x j = x.1.get j - (all.map fun a => a.1 * a.2.1.get j).sum := by
      intro x
      have := g2 x j
      unfold DeviatesBy at this
      rw [if_pos hj, g1.1, mean_get all hsum hj] at this
      exact this
    simp only [hdev]
    refine wsum_popoviciu hw0 hsum (fun x : Pose => x.1.get j) fun a ha => ?_
    obtain ⟨q, hq, he⟩ := List.mem_map.1 (List.of_mem_zip ha).2
    rw [← he]
    exact hbox q hq

/-- **C185**: with more particles than configured the covariance is taken over a random subset; as long as its weights
`used` do not sum up to 0, the same holds for it, except that a variance of x, y or z can be as large as the square of the
spread (its centre is the mean of all the particles, not of the subset). -/
theorem C185_subset {P : Params} (hP : Measures P) (hd : 0 < P.divYaw) (hmw : 0 ≤ P.like.matchWeight)
    {lib : Lib C} {w : Vec3 ℝ} (hw : 1 ≤ w.x ∧ 1 ≤ w.y ∧ 1 ≤ w.z)
    (hfl : ∀ pts q r num, ExactSearch pts (weightedDist w q) r num (lib.flann pts q r num))
    {env0 : Env} (hv0 : env0.Valid) {motion0 : Motion ℝ} {h : History} {e : Event × Env} (hv : HistValid (h ++ [e]))
    (hreg : RegularClouds (h ++ [e])) {n0 n1 n : Node C} {outs : List (List Out)} {o : List Out}
    (hs : start P lib env0 motion0 = .ok n0) (hr1 : run P lib n0 h = .ok (n1, outs))
    (hr : run P lib n0 (h ++ [e]) = .ok (n, outs ++ [o]))
    {b : List Scan} {s : Scan} (hb : (batchStep P (batchView P h).1 (batchView P h).2 e).1 = some (b ++ [s]))
    {t : Tf} (ht : e.2.tf P.baseFrame P.odomFrame s.header.stamp = some t)
    {stamp : ℝ} {frame : String} {pos : Vec3 ℝ} {rot : Quat ℝ} {cov : ℕ → ℕ → ℝ}
    (hp : .pose stamp frame pos rot cov ∈ o) (h1 : (n1.loc.pf.particles.map PF.Particle.prob).sum = 1) :
    ∃ (model : Lidar.Beam) (origins : List (Vec3 ℝ)) (beamSel sel : List Point) (like used : List ℝ),
      Lidar.Beam.Reach P.beam model ∧
      Selection P e.2 t (b ++ [s]) s.header.stamp n1.loc.pf.particles.length origins beamSel sel ∧
      List.Forall₂ (fun (q : Particle) l =>
        LikelihoodOf P model (caster P lib n1.map) w (mapView P h).active origins beamSel sel q.state l)
        n1.loc.pf.particles like ∧
      used.Subperm (posterior (n1.loc.pf.particles.map PF.Particle.prob) like) ∧
      used.length = covarianceCount P.numParticles n1.loc.pf.particles.length ∧
      (used.sum ≠ 0 →
        (∀ j k, cov j k = cov k j) ∧ (∀ j, 0 ≤ cov j j) ∧ (∀ j k, cov j k ^ 2 ≤ cov j j * cov k k) ∧
        (∀ j, 3 ≤ j → cov j j ≤ Real.pi ^ 2) ∧
        ∀ j < 3, ∀ lo hi : ℝ, (∀ q ∈ n1.loc.pf.particles, lo ≤ q.state.pos.get j ∧ q.state.pos.get j ≤ hi) →
          cov j j ≤ (hi - lo) ^ 2) := by
  obtain ⟨model, origins, beamSel, sel, like, k1, k2, hlk, hcov⟩ :=
    C129_covariance hP hd hmw hw hfl hv0 hv hreg hs hr1 hr hb ht hp
  have hvh : HistValid h := fun e he => hv e (List.mem_append_left _ he)
  obtain ⟨hnn, -⟩ := C115_weights hd hvh hs hr1
  have hlike : ∀ x ∈ like, 0 ≤ x := by
    intro x hx
    obtain ⟨i, hi, rfl⟩ := List.getElem_of_mem hx
    obtain ⟨hll, hget⟩ := List.forall₂_iff_get.1 hlk
    obtain ⟨c, c', sts, _, e⟩ := hget i (by omega) hi
    simp only [List.get_eq_getElem] at e
    rw [e]
    exact likelihood_nonneg hP hmw
  obtain ⟨mean, dev, used, g1, g2, g3, g4, -, g6⟩ := hcov (posterior_sum h1)
  set post := posterior (n1.loc.pf.particles.map PF.Particle.prob) like with hpost
  set all := post.zip (n1.loc.pf.particles.map fun q => (q.state.pos, q.state.rot)) with hall
  have hw0 : ∀ a ∈ all, 0 ≤ a.1 := by
    intro a ha
    refine posterior_nonneg ?_ hlike a.1 (List.of_mem_zip ha).1
    intro x hx
    obtain ⟨q, hq, rfl⟩ := List.mem_map.1 hx
    exact hnn q hq
  have hlen : post.length = n1.loc.pf.particles.length := by
    have := hlk.length_eq
    rw [hpost]; unfold posterior
    split_ifs <;> simp <;> omega
  have hfst : all.map Prod.fst = post := by rw [hall, List.map_fst_zip (by simp [hlen])]
  have hsum : (all.map Prod.fst).sum = 1 := by rw [hfst]; exact posterior_sum h1
  have hu0 : ∀ a ∈ used, 0 ≤ a.1 := fun a ha => hw0 a (g3.subset ha)
  refine ⟨model, origins, beamSel, sel, like, used.map Prod.fst, k1, k2, hlk, ?_, by simpa using g4, fun hne => ?_⟩
  · rw [← hpost, ← hfst]
    obtain ⟨l, hl, hl2⟩ := g3
    exact ⟨l.map Prod.fst, hl.map _, hl2.map _⟩
  have hW : 0 < (used.map Prod.fst).sum := lt_of_le_of_ne (List.sum_nonneg fun x hx => by
    obtain ⟨a, ha, rfl⟩ := List.mem_map.1 hx
    exact hu0 a ha) (Ne.symm hne)
  refine ⟨fun j k => ?_, fun j => ?_, fun j k => ?_, fun j hj => ?_, fun j hj lo hi hbox => ?_⟩
  · rw [g6, g6]; congr 2; refine List.map_congr_left fun a _ => ?_; ring
  · rw [g6]
    exact div_nonneg (wsum_nonneg (f := fun x => dev x j * dev x j) hu0 fun a _ => mul_self_nonneg _) hW.le
  · rw [g6, g6, g6, div_pow, div_mul_div_comm, ← pow_two]
    gcongr
    exact wsum_cauchy hu0 (fun x => dev x j) fun x => dev x k
  · rw [g6, div_le_iff₀ hW]
    have := wsum_mono (f := fun x => dev x j * dev x j) (g := fun _ => Real.pi ^ 2) hu0 fun a _ => by
      have := g2 a.2 j
      unfold DeviatesBy at this
      rw [if_neg (by omega)] at this
      obtain ⟨a1, a2, -⟩ := this
      nlinarith
    rw [wsum_const] at this
    linarith
  · rw [g6, div_le_iff₀ hW]
    have hbox' : ∀ a ∈ all, lo ≤ a.2.1.get j ∧ a.2.1.get j ≤ hi := by
      intro a ha
      obtain ⟨q, hq, he⟩ := List.mem_map.1 (List.of_mem_zip ha).2
      rw [← he]
      exact hbox q hq
    set m := (all.map fun a => a.1 * a.2.1.get j).sum with hm
    have hdev : ∀ x : Pose, dev x j = x.1.get j - m := by
      intro x
      have := g2 x j
      unfold DeviatesBy at this
      rw [if_pos hj, g1.1, mean_get all hsum hj] at this
      exact this
    have m1 : lo ≤ m := by
      have := wsum_mono (f := fun _ => lo) (g := fun x : Pose => x.1.get j) hw0 fun a ha => (hbox' a ha).1
      rw [wsum_const, hsum, one_mul] at this
      exact this
    have m2 : m ≤ hi := by
      have := wsum_mono (f := fun x : Pose => x.1.get j) (g := fun _ => hi) hw0 fun a ha => (hbox' a ha).2
      rw [wsum_const, hsum, one_mul] at this
      exact this
    have := wsum_mono (f := fun x => dev x j * dev x j) (g := fun _ => (hi - lo) ^ 2) hu0 fun a ha => by
      obtain ⟨b1, b2⟩ := hbox' a (g3.subset ha)
      rw [hdev]
      nlinarith
    rw [wsum_const] at this
    linarith

theorem wsum_eq_zero {α : Type} {l : List (ℝ × α)} (hw : ∀ a ∈ l, 0 ≤ a.1) (f : α → ℝ) :
    (l.map fun a => a.1 * (f a.2 * f a.2)).sum = 0 ↔ ∀ a ∈ l, a.1 ≠ 0 → f a.2 = 0 := by
  induction l with
  | nil => simp
  | cons a l ih =>
    have h0 := hw a List.mem_cons_self
    have hl : ∀ b ∈ l, 0 ≤ b.1 := fun b hb => hw b (List.mem_cons_of_mem _ hb)
    have h1 : 0 ≤ a.1 * (f a.2 * f a.2) := mul_nonneg h0 (mul_self_nonneg _)
    have h2 := wsum_nonneg (f := fun x => f x * f x) hl fun _ _ => mul_self_nonneg _
    rw [List.map_cons, List.sum_cons, add_eq_zero_iff_of_nonneg h1 h2, ih hl, List.forall_mem_cons, mul_eq_zero, mul_self_eq_zero]
    tauto

/-- A weighted variance is 0 exactly if all with a weight agree. -/
theorem wvar_eq_zero {α : Type} {l : List (ℝ × α)} (hw : ∀ a ∈ l, 0 ≤ a.1) (hs : (l.map Prod.fst).sum = 1) (f : α → ℝ) :
    (l.map fun a => a.1 * ((f a.2 - (l.map fun a => a.1 * f a.2).sum) * (f a.2 - (l.map fun a => a.1 * f a.2).sum))).sum = 0 ↔
      ∀ a ∈ l, ∀ b ∈ l, a.1 ≠ 0 → b.1 ≠ 0 → f a.2 = f b.2 := by
  rw [wsum_eq_zero hw fun x => f x - (l.map fun a => a.1 * f a.2).sum]
  constructor
  · intro h a ha b hb h0 h1
    have := h a ha h0
    have := h b hb h1
    linarith
  · intro h a ha h0
    have : (l.map fun b => b.1 * f b.2).sum = (l.map fun b => b.1 * f a.2).sum := by
      congr 1
      refine List.map_congr_left fun b hb => ?_
      by_cases hb0 : b.1 = 0
      · rw [hb0, zero_mul, zero_mul]
      · rw [h b hb a ha hb0 h0]
    rw [this, wsum_const, hs, one_mul, sub_self]

/-- **C185**: while there are not more particles than configured, the published variance of x, y or z is 0 exactly if all
the particles that still have a weight after the measurement agree in that coordinate. -/
theorem C185_zero {P : Params} (hP : Measures P) (hd : 0 < P.divYaw) (hmw : 0 ≤ P.like.matchWeight)
    {lib : Lib C} {w : Vec3 ℝ} (hw : 1 ≤ w.x ∧ 1 ≤ w.y ∧ 1 ≤ w.z)
    (hfl : ∀ pts q r num, ExactSearch pts (weightedDist w q) r num (lib.flann pts q r num))
    {env0 : Env} (hv0 : env0.Valid) {motion0 : Motion ℝ} {h : History} {e : Event × Env} (hv : HistValid (h ++ [e]))
    (hreg : RegularClouds (h ++ [e])) {n0 n1 n : Node C} {outs : List (List Out)} {o : List Out}
    (hs : start P lib env0 motion0 = .ok n0) (hr1 : run P lib n0 h = .ok (n1, outs))
    (hr : run P lib n0 (h ++ [e]) = .ok (n, outs ++ [o]))
    {b : List Scan} {s : Scan} (hb : (batchStep P (batchView P h).1 (batchView P h).2 e).1 = some (b ++ [s]))
    {t : Tf} (ht : e.2.tf P.baseFrame P.odomFrame s.header.stamp = some t)
    {stamp : ℝ} {frame : String} {pos : Vec3 ℝ} {rot : Quat ℝ} {cov : ℕ → ℕ → ℝ}
    (hp : .pose stamp frame pos rot cov ∈ o) (hc : (n1.loc.pf.particles.length : ℤ) ≤ P.numParticles)
    (h1 : (n1.loc.pf.particles.map PF.Particle.prob).sum = 1) :
    ∃ (model : Lidar.Beam) (origins : List (Vec3 ℝ)) (beamSel sel : List Point) (like : List ℝ),
      Lidar.Beam.Reach P.beam model ∧
      Selection P e.2 t (b ++ [s]) s.header.stamp n1.loc.pf.particles.length origins beamSel sel ∧
      List.Forall₂ (fun (q : Particle) l =>
        LikelihoodOf P model (caster P lib n1.map) w (mapView P h).active origins beamSel sel q.state l)
        n1.loc.pf.particles like ∧
      ∀ j < 3, cov j j = 0 ↔
        ∀ a ∈ (posterior (n1.loc.pf.particles.map PF.Particle.prob) like).zip n1.loc.pf.particles,
        ∀ c ∈ (posterior (n1.loc.pf.particles.map PF.Particle.prob) like).zip n1.loc.pf.particles,
          a.1 ≠ 0 → c.1 ≠ 0 → a.2.state.pos.get j = c.2.state.pos.get j := by
  obtain ⟨model, origins, beamSel, sel, like, k1, k2, hlk, hcov⟩ :=
    C129_covariance hP hd hmw hw hfl hv0 hv hreg hs hr1 hr hb ht hp
  have hvh : HistValid h := fun e he => hv e (List.mem_append_left _ he)
  obtain ⟨hnn, -⟩ := C115_weights hd hvh hs hr1
  have hlike : ∀ x ∈ like, 0 ≤ x := by
    intro x hx
    obtain ⟨i, hi, rfl⟩ := List.getElem_of_mem hx
    obtain ⟨hll, hget⟩ := List.forall₂_iff_get.1 hlk
    obtain ⟨c, c', sts, _, e⟩ := hget i (by omega) hi
    simp only [List.get_eq_getElem] at e
    rw [e]
    exact likelihood_nonneg hP hmw
  obtain ⟨mean, dev, used, g1, g2, -, -, g5, g6⟩ := hcov (posterior_sum h1)
  set post := posterior (n1.loc.pf.particles.map PF.Particle.prob) like with hpost
  set all := post.zip (n1.loc.pf.particles.map fun q => (q.state.pos, q.state.rot)) with hall
  have hw0 : ∀ a ∈ all, 0 ≤ a.1 := by
    intro a ha
    refine posterior_nonneg ?_ hlike a.1 (List.of_mem_zip ha).1
    intro x hx
    obtain ⟨q, hq, rfl⟩ := List.mem_map.1 hx
    exact hnn q hq
  have hlen : post.length = n1.loc.pf.particles.length := by
    have := hlk.length_eq
    rw [hpost]; unfold posterior
    split_ifs <;> simp <;> omega
  have hfst : all.map Prod.fst = post := by rw [hall, List.map_fst_zip (by simp [hlen])]
  have hsum : (all.map Prod.fst).sum = 1 := by rw [hfst]; exact posterior_sum h1
  have g5 := g5 hc
  subst g5
  refine ⟨model, origins, beamSel, sel, like, k1, k2, hlk, fun j hj => ?_⟩
  have hdev : ∀ x : Pose, dev x j = x.1.get j - (all.map fun a => a.1 * a.2.1.get j).sum := by
    intro x
    have := g2 x j
    unfold DeviatesBy at this
    rw [if_pos hj, g1.1, mean_get all hsum hj] at this
    exact this
  rw [g6, hsum, div_one]
  simp only [hdev]
  rw [wvar_eq_zero hw0 hsum fun x : Pose => x.1.get j]
  have hz : all = (post.zip n1.loc.pf.particles).map fun a => (a.1, (a.2.state.pos, a.2.state.rot)) := by
    rw [hall, List.zip_map_right]; rfl
  rw [hz]
  simp only [List.forall_mem_map]
  rfl

/-- The hypotheses of C185 are met: a node with 64 particles with weights that are a distribution. -/
example : ∃ n0 n1 n outs o pos rot cov, start Demo.P0 Demo.exactLib (Demo.env 0) Demo.motion0 = .ok n0 ∧
    run Demo.P0 Demo.exactLib n0 Demo.evenHistory = .ok (n1, outs) ∧
    run Demo.P0 Demo.exactLib n0 (Demo.evenHistory ++ [Demo.lastCloud]) = .ok (n, outs ++ [o]) ∧
    .pose 3 Demo.P0.mapFrame pos rot cov ∈ o ∧ n1.loc.pf.particles.length = 64 ∧
    (∀ j k, cov j k ^ 2 ≤ cov j j * cov k k) ∧ (∀ j, 3 ≤ j → cov j j ≤ Real.pi ^ 2) ∧
    (∀ j < 3, ∀ lo hi : ℝ, (∀ q ∈ n1.loc.pf.particles, lo ≤ q.state.pos.get j ∧ q.state.pos.get j ≤ hi) → cov j j ≤ (hi - lo) ^ 2) ∧
    ∀ j < 3, (∀ q ∈ n1.loc.pf.particles, ∀ q' ∈ n1.loc.pf.particles, q.state.pos.get j = q'.state.pos.get j) →
      cov j j = 0 := by
  obtain ⟨n0, n1, n, outs, o, pos, rot, cov, hs, hr, hr', hp, hn⟩ := Demo.even_runs
  have hd : 0 < Demo.P0.divYaw := by rw [Demo.P0_divYaw]; norm_num
  have hv : HistValid (Demo.evenHistory ++ [Demo.lastCloud]) := by
    simp [HistValid, Demo.evenHistory, Demo.lastCloud, Demo.env_valid]
  obtain ⟨_, hsum⟩ := C115_weights hd (fun e he => hv e (List.mem_append_left _ he)) hs hr
  have h1 : weightSum n1 = 1 := by
    rcases hsum (by intro h0; rw [h0] at hn; simp at hn) with h | ⟨⟨e, he, hg⟩, _⟩
    · exact h
    · simp only [Demo.evenHistory, List.mem_cons, List.not_mem_nil, or_false] at he
      rcases he with rfl | rfl | rfl <;> cases hg
  have hle : (n1.loc.pf.particles.length : ℤ) ≤ Demo.P0.numParticles := by
    rw [hn]; norm_num [Demo.P0, Params.loadFrom, Server.intD, Server.getInt]
  obtain ⟨_, _, c3, c4, _⟩ := C185_covariance Demo.measures hd
    (by norm_num [Demo.P0, Params.loadFrom, Params.loadLike, Server.dblD, Server.getDouble]) (w := ⟨1, 1, 5⟩) (by norm_num)
    (fun pts q r num => Demo.exactFlann_spec pts q r num) (Demo.env_valid 0) hv Demo.evenHistory_regular
    hs hr hr' (b := []) (s := ⟨⟨"laser", 3⟩, [⟨10, 0, 0⟩, ⟨10, 0, 0⟩]⟩)
    (by rw [Demo.evenHistory_view]; simp [batchStep, Demo.completes_one, Demo.lastCloud]) (t := Demo.tf0) rfl hp hle h1
  obtain ⟨_, _, _, _, like, used, _, _, hf, hu, hl, c⟩ := C185_subset Demo.measures hd
    (by norm_num [Demo.P0, Params.loadFrom, Params.loadLike, Server.dblD, Server.getDouble]) (w := ⟨1, 1, 5⟩) (by norm_num)
    (fun pts q r num => Demo.exactFlann_spec pts q r num) (Demo.env_valid 0) hv Demo.evenHistory_regular
    hs hr hr' (b := []) (s := ⟨⟨"laser", 3⟩, [⟨10, 0, 0⟩, ⟨10, 0, 0⟩]⟩)
    (by rw [Demo.evenHistory_view]; simp [batchStep, Demo.completes_one, Demo.lastCloud]) (t := Demo.tf0) rfl hp h1
  have hul : used.length = 64 := by
    rw [hl, covarianceCount, if_pos hle, hn]
  have hpl : (posterior (n1.loc.pf.particles.map PF.Particle.prob) like).length = 64 := by
    have := hf.length_eq
    unfold posterior
    split_ifs <;> simp <;> omega
  have hus : used.sum = 1 := by
    rw [(hu.perm_of_length_le (by omega)).sum_eq]
    exact posterior_sum h1
  obtain ⟨_, _, _, _, c5⟩ := c (by rw [hus]; exact one_ne_zero)
  obtain ⟨_, _, _, _, _, _, _, _, c6⟩ := C185_zero Demo.measures hd
    (by norm_num [Demo.P0, Params.loadFrom, Params.loadLike, Server.dblD, Server.getDouble]) (w := ⟨1, 1, 5⟩) (by norm_num)
    (fun pts q r num => Demo.exactFlann_spec pts q r num) (Demo.env_valid 0) hv Demo.evenHistory_regular
    hs hr hr' (b := []) (s := ⟨⟨"laser", 3⟩, [⟨10, 0, 0⟩, ⟨10, 0, 0⟩]⟩)
    (by rw [Demo.evenHistory_view]; simp [batchStep, Demo.completes_one, Demo.lastCloud]) (t := Demo.tf0) rfl hp hle h1
  have c7 : ∀ j < 3, (∀ q ∈ n1.loc.pf.particles, ∀ q' ∈ n1.loc.pf.particles, q.state.pos.get j = q'.state.pos.get j) →
      cov j j = 0 := fun j hj hq => (c6 j hj).2 fun a ha b hb _ _ => hq _ (List.of_mem_zip ha).2 _ (List.of_mem_zip hb).2
  exact ⟨n0, n1, n, outs, o, pos, rot, cov, hs, hr, hr', hp, hn, c3, c4, c5, c7⟩

end Node
end Mcl3dl
