import Verif.Spec.Agree
import Verif.Props.NodeReal

/-! # C181: while the particles roughly agree about the orientation, the node does not crash -/

set_option linter.unusedSectionVars false

namespace Mcl3dl
namespace Node

variable {C : Type}

theorem dot_weightedSum (F : Vec3 ℝ) (l : List (ℝ × Vec3 ℝ)) :
    F.dot (weightedSum l) = (l.map fun a => a.1 * F.dot a.2).sum := by
  induction l with
  | nil => simp [weightedSum, Vec3.dot]
  | cons a l ih =>
    simp only [weightedSum, Vec3.dot, List.map_cons, List.sum_cons] at ih ⊢
    linarith

theorem weightedSum_cons (a : ℝ × Vec3 ℝ) (l : List (ℝ × Vec3 ℝ)) :
    (weightedSum (a :: l)).dot (weightedSum (a :: l)) =
      a.1 ^ 2 * a.2.dot a.2 + 2 * a.1 * a.2.dot (weightedSum l) + (weightedSum l).dot (weightedSum l) := by
  simp only [weightedSum, Vec3.dot, List.map_cons, List.sum_cons]
  ring

theorem dot_sq_le (a b : Vec3 ℝ) : (a.dot b) ^ 2 ≤ a.dot a * b.dot b := by
  simp only [Vec3.dot]
  nlinarith [sq_nonneg (a.x * b.y - a.y * b.x), sq_nonneg (a.x * b.z - a.z * b.x), sq_nonneg (a.y * b.z - a.z * b.y)]

theorem dot_self_nonneg (a : Vec3 ℝ) : 0 ≤ a.dot a := by
  simp only [Vec3.dot]; nlinarith [sq_nonneg a.x, sq_nonneg a.y, sq_nonneg a.z]

theorem le_of_sq_le_sq {x y : ℝ} (h : x ^ 2 ≤ y ^ 2) (hy : 0 ≤ y) : x ≤ y := by
  by_contra hc
  push _root_.Not at hc
  nlinarith

/-- A weighted sum of unit vectors is not longer than the sum of the weights. -/
theorem weightedSum_le {l : List (ℝ × Vec3 ℝ)} (hv : ∀ a ∈ l, 0 ≤ a.1) (hu : ∀ a ∈ l, a.2.dot a.2 = 1) :
    (weightedSum l).dot (weightedSum l) ≤ (l.map Prod.fst).sum ^ 2 := by
  induction l with
  | nil => simp [weightedSum, Vec3.dot]
  | cons a l ih =>
    have ih := ih (fun x hx => hv x (by simp [hx])) (fun x hx => hu x (by simp [hx]))
    have h0 : 0 ≤ (l.map Prod.fst).sum := List.sum_nonneg (by
      intro x hx
      obtain ⟨y, hy, rfl⟩ := List.mem_map.1 hx
      exact hv y (by simp [hy]))
    have ha := hv a (by simp)
    have h1 : a.2.dot (weightedSum l) ≤ (l.map Prod.fst).sum := by
      refine le_of_sq_le_sq ?_ h0
      have := dot_sq_le a.2 (weightedSum l)
      rw [hu a (by simp), one_mul] at this
      exact this.trans ih
    rw [weightedSum_cons, hu a (by simp)]
    simp only [List.map_cons, List.sum_cons]
    nlinarith [mul_le_mul_of_nonneg_left h1 ha]
theorem weightedSum_dot_le {l : List (ℝ × Vec3 ℝ)} (hv : ∀ a ∈ l, 0 ≤ a.1) {F : Vec3 ℝ} {s : ℝ} (hF : ∀ a ∈ l, s ≤ F.dot a.2) :
    s * (l.map Prod.fst).sum ≤ F.dot (weightedSum l) := by
  rw [dot_weightedSum]
  induction l with
  | nil => simp
  | cons a l ih =>
    have ih := ih (fun x hx => hv x (by simp [hx])) (fun x hx => hF x (by simp [hx]))
    simp only [List.map_cons, List.sum_cons]
    nlinarith [mul_le_mul_of_nonneg_left (hF a (by simp)) (hv a (by simp))]

theorem weightedSum_dot_lt {l : List (ℝ × Vec3 ℝ)} (hv : ∀ a ∈ l, 0 ≤ a.1) (h0 : 0 < (l.map Prod.fst).sum) {F : Vec3 ℝ} {s : ℝ}
    (hF : ∀ a ∈ l, s < F.dot a.2) : s * (l.map Prod.fst).sum < F.dot (weightedSum l) := by
  rw [dot_weightedSum]
  induction l with
  | nil => simp at h0
  | cons a l ih =>
    have hle := weightedSum_dot_le (F := F) (s := s) (l := l) (fun x hx => hv x (by simp [hx])) (fun x hx => (hF x (by simp [hx])).le)
    rw [dot_weightedSum] at hle
    simp only [List.map_cons, List.sum_cons] at h0 ⊢
    rcases (hv a (by simp)).lt_or_eq with h1 | h1
    · nlinarith [mul_lt_mul_of_pos_left (hF a (by simp)) h1]
    · rw [← h1, zero_add] at h0
      have := ih (fun x hx => hv x (by simp [hx])) h0 (fun x hx => hF x (by simp [hx]))
      rw [← h1]; linarith

/-- Vectors in two cones that together fill a right angle are not parallel. -/
theorem cones_cross {a b F U : Vec3 ℝ} {s c V : ℝ} (hs : 0 ≤ s) (hc : 0 ≤ c) (hsc : s ^ 2 + c ^ 2 = 1) (hV : 0 < V)
    (hF : F.dot F = 1) (hU : U.dot U = 1) (hFU : F.dot U = 0) (ha : a.dot a ≤ V ^ 2) (hb : b.dot b ≤ V ^ 2)
    (hFa : s * V < F.dot a) (hUb : c * V ≤ U.dot b) : a.cross b ≠ ⟨0, 0, 0⟩ := by
  intro hx
  have bessel : (F.dot a) ^ 2 + (U.dot a) ^ 2 ≤ a.dot a := by
    have h := dot_self_nonneg (⟨a.x - F.dot a * F.x - U.dot a * U.x, a.y - F.dot a * F.y - U.dot a * U.y,
      a.z - F.dot a * F.z - U.dot a * U.z⟩ : Vec3 ℝ)
    have e : (⟨a.x - F.dot a * F.x - U.dot a * U.x, a.y - F.dot a * F.y - U.dot a * U.y,
        a.z - F.dot a * F.z - U.dot a * U.z⟩ : Vec3 ℝ).dot ⟨a.x - F.dot a * F.x - U.dot a * U.x, a.y - F.dot a * F.y - U.dot a * U.y,
        a.z - F.dot a * F.z - U.dot a * U.z⟩ = a.dot a - 2 * (F.dot a) ^ 2 - 2 * (U.dot a) ^ 2 + (F.dot a) ^ 2 * F.dot F +
        (U.dot a) ^ 2 * U.dot U + 2 * F.dot a * U.dot a * F.dot U := by
      simp only [Vec3.dot]; ring
    rw [e, hF, hU, hFU] at h
    linarith
  have par : (U.dot b) ^ 2 * a.dot a = (U.dot a) ^ 2 * b.dot b := by
    have h1 : a.y * b.z - a.z * b.y = 0 := congrArg Vec3.x hx
    have h2 : a.z * b.x - a.x * b.z = 0 := congrArg Vec3.y hx
    have h3 : a.x * b.y - a.y * b.x = 0 := congrArg Vec3.z hx
    have ex : U.dot b * a.x = U.dot a * b.x := by simp only [Vec3.dot]; linear_combination U.y * h3 - U.z * h2
    have ey : U.dot b * a.y = U.dot a * b.y := by simp only [Vec3.dot]; linear_combination U.z * h1 - U.x * h3
    have ez : U.dot b * a.z = U.dot a * b.z := by simp only [Vec3.dot]; linear_combination U.x * h2 - U.y * h1
    have : (U.dot b) ^ 2 * a.dot a = (U.dot b * a.x) ^ 2 + (U.dot b * a.y) ^ 2 + (U.dot b * a.z) ^ 2 := by
      simp only [Vec3.dot]; ring
    rw [this, ex, ey, ez]
    simp only [Vec3.dot]; ring
  have ha0 := dot_self_nonneg a
  have hb0 := dot_self_nonneg b
  have h1 : s ^ 2 * a.dot a < (F.dot a) ^ 2 := by
    have : (s * V) ^ 2 < (F.dot a) ^ 2 := by
      have : 0 ≤ s * V := by positivity
      nlinarith
    nlinarith [mul_le_mul_of_nonneg_left ha (sq_nonneg s)]
  have h2 : (U.dot a) ^ 2 < c ^ 2 * a.dot a := by
    have : c ^ 2 = 1 - s ^ 2 := by linarith
    rw [this]; nlinarith
  have hcpos : 0 < c := by
    rcases hc.lt_or_eq with h | h
    · exact h
    · rw [← h] at h2; nlinarith [sq_nonneg (U.dot a)]
  have h3 : (c * V) ^ 2 ≤ (U.dot b) ^ 2 := by
    have : 0 ≤ c * V := by positivity
    nlinarith
  have hbp : 0 < b.dot b := by
    have := dot_sq_le U b
    rw [hU, one_mul] at this
    have h4 : 0 < (c * V) ^ 2 := by positivity
    linarith
  have h5 : (U.dot a) ^ 2 * b.dot b < c ^ 2 * a.dot a * b.dot b := mul_lt_mul_of_pos_right h2 hbp
  have h6 : c ^ 2 * a.dot a * b.dot b ≤ (c * V) ^ 2 * a.dot a := by
    nlinarith [mul_le_mul_of_nonneg_left hb (mul_nonneg (sq_nonneg c) ha0)]
  have h7 : (c * V) ^ 2 * a.dot a ≤ (U.dot b) ^ 2 * a.dot a := mul_le_mul_of_nonneg_right h3 ha0
  linarith

theorem likelihoodOf_nonneg {P : Params} (hM : Measures P) (hmw : 0 ≤ P.like.matchWeight) {b : Lidar.Beam}
    {ca : Lidar.Caster C} {w : Vec3 ℝ} {map : List Point} {origins : List (Vec3 ℝ)} {beamSel sel : List Point} {s : State6 ℝ}
    {l : ℝ} (h : LikelihoodOf P b ca w map origins beamSel sel s l) : 0 ≤ l := by
  obtain ⟨_, _, _, _, rfl⟩ := h
  refine mul_nonneg (mul_nonneg ?_ ?_) ?_
  · exact le_max_of_le_right (Real.rpow_nonneg hM.beamMin.le _)
  · refine List.sum_nonneg fun x hx => ?_
    obtain ⟨q, _, rfl⟩ := List.mem_map.1 hx
    exact (Lidar.gain_mem hmw hM.dist _).1
  · unfold gaussian; positivity

/-- In a measurement by a node that has run without failure, particles that agree are not ambiguous. -/
theorem agreeing_clear {P : Params} (hd : 0 < P.divYaw) (hM : Measures P) (hmw : 0 ≤ P.like.matchWeight) {lib : Lib C} {w : Vec3 ℝ}
    {env0 : Env} {motion0 : Motion ℝ} {h : History} {e : Event × Env} (hv : HistValid h) (hu : UnitMessages h)
    {n0 n : Node C} {outs : List (List Out)} (hs : start P lib env0 motion0 = .ok n0) (hr : run P lib n0 h = .ok (n, outs))
    {like : List ℝ} (hw : Weighed P lib w h e n like) (hne : n.loc.pf.particles ≠ []) (ha : Agreeing n.loc.pf.particles) :
    ¬ Ambiguous P n like := by
  obtain ⟨b, s, t, model, origins, beamSel, sel, _, _, _, _, hl⟩ := hw
  have hlen : like.length = n.loc.pf.particles.length := hl.length_eq.symm
  have hnn : ∀ x ∈ like, 0 ≤ x := by
    intro x hx
    obtain ⟨i, hi, rfl⟩ := List.mem_iff_getElem.1 hx
    have := (List.forall₂_iff_get.1 hl).2 i (by omega) hi
    exact likelihoodOf_nonneg hM hmw this
  obtain ⟨hp, hsum⟩ := C115_weights hd hv hs hr
  have hunit := C126_unit hv hu hs hr
  have hW : Weighted (fun x => 0 < x) (measureWith n.loc.pf like) := by
    refine Weighted.measureWith one_pos ⟨hp, fun hne => ?_⟩ hnn
    rcases hsum hne with e | ⟨_, e⟩
    · rw [show (n.loc.pf.particles.map PF.Particle.prob).sum = 1 from e]; exact one_pos
    · rw [show (n.loc.pf.particles.map PF.Particle.prob).sum = P.divYaw from e]; exact_mod_cast hd
  set f := biasFilter P n.loc.statePrev (measureWith n.loc.pf like) with hf
  have hW1 : Weighted (fun x => 0 < x) f := hW.same (biasFilter_prob _ _ _)
  have hb1 : ∀ p ∈ f.particles, 0 < p.bias := biasFilter_pos _ _ _
  have hst : f.particles.map PF.Particle.state = n.loc.pf.particles.map PF.Particle.state :=
    pf1_states (P := P) (prev := n.loc.statePrev) hlen
  have hne1 : f.particles ≠ [] := by
    intro h0
    rw [h0] at hst
    exact hne (List.map_eq_nil_iff.1 hst.symm)
  have hpos := sum_pos_of_pos hW1.1 hb1 (hW1.2 hne1)
  have hvotes := pf1_votes hM.biasDist hM.biasAng (prev := n.loc.statePrev) hlen
  rw [← hf] at hvotes
  have key : ∀ a : Vec3 ℝ, (votes P n.loc.statePrev n.loc.pf.particles like).zip
      (n.loc.pf.particles.map fun q => q.state.rot.rotate a) = f.particles.map fun p => (voteOf p, p.state.rot.rotate a) := by
    intro a
    have := congrArg (List.map (Prod.map id fun s : State6 ℝ => s.rot.rotate a)) hvotes
    rw [List.map_map, ← List.zip_map_right, List.map_map] at this
    exact this.symm
  have hmem : ∀ p ∈ f.particles, ∃ q ∈ n.loc.pf.particles, q.state = p.state := by
    intro p hp
    have : p.state ∈ f.particles.map PF.Particle.state := List.mem_map_of_mem hp
    rw [hst] at this
    obtain ⟨q, hq, e⟩ := List.mem_map.1 this
    exact ⟨q, hq, e⟩
  obtain ⟨θ, F, U, h0, h1, hF, hU, hFU, hall⟩ := ha
  have hV : ∀ a : Vec3 ℝ, ((f.particles.map fun p => (voteOf p, p.state.rot.rotate a)).map Prod.fst).sum =
      (f.particles.map fun p => p.prob * p.bias).sum := by
    intro a; rw [List.map_map]; rfl
  have hvn : ∀ a : Vec3 ℝ, ∀ x ∈ f.particles.map (fun p => (voteOf p, p.state.rot.rotate a)), 0 ≤ x.1 := by
    intro a x hx
    obtain ⟨p, hp, rfl⟩ := List.mem_map.1 hx
    exact mul_nonneg (hW1.1 p hp) (hb1 p hp).le
  have hun : ∀ a : Vec3 ℝ, a.dot a = 1 → ∀ x ∈ f.particles.map (fun p => (voteOf p, p.state.rot.rotate a)), x.2.dot x.2 = 1 := by
    intro a ha x hx
    obtain ⟨p, hp, rfl⟩ := List.mem_map.1 hx
    obtain ⟨q, hq, e⟩ := hmem p hp
    show (p.state.rot.rotate a).dot _ = 1
    rw [← e, Quat.C28_rotate_dot, hunit q hq, ha]; norm_num
  have hx1 : (⟨1, 0, 0⟩ : Vec3 ℝ).dot ⟨1, 0, 0⟩ = 1 := by simp [Vec3.dot]
  have hz1 : (⟨0, 0, 1⟩ : Vec3 ℝ).dot ⟨0, 0, 1⟩ = 1 := by simp [Vec3.dot]
  unfold Ambiguous
  simp only [key]
  refine cones_cross (F := F) (U := U) (s := Real.cos (Real.pi / 2 - θ)) (c := Real.cos θ)
    (V := (f.particles.map fun p => p.prob * p.bias).sum) ?_ ?_ ?_ hpos hF hU hFU ?_ ?_ ?_ ?_
  · exact Real.cos_nonneg_of_mem_Icc ⟨by linarith [Real.pi_pos], by linarith⟩
  · exact Real.cos_nonneg_of_mem_Icc ⟨by linarith [Real.pi_pos], by linarith⟩
  · rw [Real.cos_pi_div_two_sub]; exact Real.sin_sq_add_cos_sq θ
  · rw [← hV ⟨1, 0, 0⟩]; exact weightedSum_le (hvn _) (hun _ hx1)
  · rw [← hV ⟨0, 0, 1⟩]; exact weightedSum_le (hvn _) (hun _ hz1)
  · rw [← hV ⟨1, 0, 0⟩]
    refine weightedSum_dot_lt (hvn _) (by rw [hV]; exact hpos) fun x hx => ?_
    obtain ⟨p, hp, rfl⟩ := List.mem_map.1 hx
    obtain ⟨q, hq, e⟩ := hmem p hp
    rw [← e]; exact (hall q hq).2
  · rw [← hV ⟨0, 0, 1⟩]
    refine weightedSum_dot_le (hvn _) fun x hx => ?_
    obtain ⟨p, hp, rfl⟩ := List.mem_map.1 hx
    obtain ⟨q, hq, e⟩ := hmem p hp
    rw [← e]; exact (hall q hq).1


/-! ## The claims -/

/-- **C181**: particles that agree in this sense have an orientation as a mean: in a measurement the weighted means of their
forward and of their upward directions are never parallel, whatever the measurement says about their weights. -/
theorem C181_clear {P : Params} (hP : Sane P) (hM : Measures P) (hmw : 0 ≤ P.like.matchWeight) {lib : Lib C} {w : Vec3 ℝ}
    {env0 : Env} {motion0 : Motion ℝ} {h : History} {e : Event × Env} (hv : HistValid h) (hu : UnitMessages h)
    {n0 n : Node C} {outs : List (List Out)} (hs : start P lib env0 motion0 = .ok n0) (hr : run P lib n0 h = .ok (n, outs))
    {like : List ℝ} (hw : Weighed P lib w h e n like) (hne : n.loc.pf.particles ≠ []) (ha : Agreeing n.loc.pf.particles) :
    ¬ Ambiguous P n like :=
  agreeing_clear hP.divYaw hM hmw hv hu hs hr hw hne ha

/-- **C181**, kd-tree caster: under the conditions of C139 the node starts and deals with the whole history, or it comes to
a measurement with particles that do not agree about the orientation. -/
theorem C181_kdtree {P : Params} (hP : Sane P) (hM : Measures P) (hmw : 0 ≤ P.like.matchWeight) (hdda : P.useDda = false)
    (hg : 0 < P.mapDownsample.x ∧ 0 < P.mapDownsample.y ∧ 0 < P.mapDownsample.z) (hhit : 0 ≤ P.beam.hitRange)
    {flann : List (Vec3 ℝ) → Vec3 ℝ → ℝ → ℕ → List (ℕ × ℝ)} {w : Vec3 ℝ} (hw : 1 ≤ w.x ∧ 1 ≤ w.y ∧ 1 ≤ w.z)
    (hfl : ∀ pts q r num, ExactSearch pts (weightedDist w q) r num (flann pts q r num))
    (solve3 : Matrix (Fin 3) (Fin 3) ℝ → (Fin 3 → ℝ) × Matrix (Fin 3) (Fin 3) ℝ)
    (solve6 : (Fin 6 → Fin 6 → ℝ) → (Fin 6 → ℝ) × (Fin 6 → Fin 6 → ℝ)) {D : ℝ}
    (hD : (D + P.beam.hitRange) / min (min P.mapDownsample.x P.mapDownsample.y) P.mapDownsample.z < 2 ^ 31)
    (env0 : Env) (motion0 : Motion ℝ) (h : History) (hv : ∀ e ∈ h, e.2.Valid ∧ KeepsPoints e.2 ∧ SafeEvent e.1)
    (hreg : RegularClouds h) (hu : UnitMessages h) (hsee : SensorsSee P D h) :
    ∃ n0, start P (realLib P flann solve3 solve6) env0 motion0 = .ok n0 ∧
      ((∃ n outs, run P (realLib P flann solve3 solve6) n0 h = .ok (n, outs) ∧ outs.length = h.length) ∨
        ∃ h1 e h2 n outs b s, h = h1 ++ e :: h2 ∧ run P (realLib P flann solve3 solve6) n0 h1 = .ok (n, outs) ∧
          Measuring P h1 e b s ∧ ¬ Agreeing n.loc.pf.particles) := by
  obtain ⟨n0, hs, hc⟩ := C139_kdtree hP hM hmw hdda hg hhit hw hfl solve3 solve6 hD env0 motion0 h hv hreg hu hsee
  refine ⟨n0, hs, ?_⟩
  rcases hc with hc | ⟨h1, e, h2, n, outs, like, rfl, hr, hne, hwd, hamb⟩
  · exact .inl hc
  · obtain ⟨b, s, _, _, _, _, _, hmeas, _⟩ := id hwd
    refine .inr ⟨h1, e, h2, n, outs, b, s, rfl, hr, hmeas, fun hag => ?_⟩
    exact C181_clear hP hM hmw (fun e he => (hv e (by simp [he])).1) (fun e he => hu e (by simp [he])) hs hr hwd hne hag hamb

/-- **C181**, DDA caster: likewise, as long as all particles are near enough to the origin. -/
theorem C181_dda {P : Params} (hP : Sane P) (hM : Measures P) (hmw : 0 ≤ P.like.matchWeight) (hdda : P.useDda = true)
    (hg : 0 < P.ddaGridSize) (hhit : 0 ≤ P.beam.hitRange)
    {flann : List (Vec3 ℝ) → Vec3 ℝ → ℝ → ℕ → List (ℕ × ℝ)} {w : Vec3 ℝ} (hw : 1 ≤ w.x ∧ 1 ≤ w.y ∧ 1 ≤ w.z)
    (hfl : ∀ pts q r num, ExactSearch pts (weightedDist w q) r num (flann pts q r num))
    (solve3 : Matrix (Fin 3) (Fin 3) ℝ → (Fin 3 → ℝ) × Matrix (Fin 3) (Fin 3) ℝ)
    (solve6 : (Fin 6 → Fin 6 → ℝ) → (Fin 6 → ℝ) × (Fin 6 → Fin 6 → ℝ)) {D L R : ℝ}
    (env0 : Env) (motion0 : Motion ℝ) (h : History) (hv : ∀ e ∈ h, e.2.Valid ∧ KeepsPoints e.2 ∧ SafeEvent e.1)
    (hreg : RegularClouds h) (hu : UnitMessages h) (hsee : SensorsSee P D h)
    (hmount : ∀ e ∈ h, ∀ last frame stamp t, e.2.tfFull P.baseFrame last frame stamp P.odomFrame = some t →
      DDA.len t.trans ≤ L)
    (hstamps : ((maps P h).map DDA.Cloud.stamp).Nodup)
    (hfit : ∀ c ∈ maps P h, GridFits P.ddaGridSize (R + L + D + P.beam.hitRange) c) :
    ∃ n0, start P (realLib P flann solve3 solve6) env0 motion0 = .ok n0 ∧
      ((∃ n outs, run P (realLib P flann solve3 solve6) n0 h = .ok (n, outs) ∧ outs.length = h.length) ∨
        ∃ h1 e h2 n outs b s, h = h1 ++ e :: h2 ∧ run P (realLib P flann solve3 solve6) n0 h1 = .ok (n, outs) ∧
          Measuring P h1 e b s ∧
          ((∃ q ∈ n.loc.pf.particles, R < |q.state.pos.x| ∨ R < |q.state.pos.y| ∨ R < |q.state.pos.z|) ∨
            ¬ Agreeing n.loc.pf.particles)) := by
  obtain ⟨n0, hs, hc⟩ := C139_dda hP hM hmw hdda hg hhit hw hfl solve3 solve6 env0 motion0 h hv hreg hu hsee hmount hstamps hfit
  refine ⟨n0, hs, ?_⟩
  rcases hc with hc | ⟨h1, e, h2, n, outs, rfl, hr, hne, ⟨b, s, hmeas, hq⟩ | ⟨like, hwd, hamb⟩⟩
  · exact .inl hc
  · exact .inr ⟨h1, e, h2, n, outs, b, s, rfl, hr, hmeas, .inl hq⟩
  · obtain ⟨b, s, _, _, _, _, _, hmeas, _⟩ := id hwd
    refine .inr ⟨h1, e, h2, n, outs, b, s, rfl, hr, hmeas, .inr fun hag => ?_⟩
    exact C181_clear hP hM hmw (fun e he => (hv e (by simp [he])).1) (fun e he => hu e (by simp [he])) hs hr hwd hne hag hamb

/-- **C181**, on flat ground: upright particles agree if their headings lie in an open half plane. -/
theorem C181_upright {ps : List Particle} {F : Vec3 ℝ} (hF : F.dot F = 1) (hz : F.z = 0)
    (hup : ∀ q ∈ ps, q.state.rot.rotate ⟨0, 0, 1⟩ = ⟨0, 0, 1⟩) (hfw : ∀ q ∈ ps, 0 < F.dot (q.state.rot.rotate ⟨1, 0, 0⟩)) :
    Agreeing ps := by
  refine ⟨0, F, ⟨0, 0, 1⟩, le_rfl, by positivity, hF, by simp [Vec3.dot], by simp [Vec3.dot, hz], fun q hq => ⟨?_, ?_⟩⟩
  · rw [hup q hq]; simp [Vec3.dot]
  · simpa using hfw q hq

/-- **C181**: particles whose forward and upward directions are less than 45 degrees away from those of some pose agree. -/
theorem C181_near {ps : List Particle} {r : Quat ℝ} (hr : r.dot r = 1)
    (hup : ∀ q ∈ ps, Real.cos (Real.pi / 4) < (r.rotate ⟨0, 0, 1⟩).dot (q.state.rot.rotate ⟨0, 0, 1⟩))
    (hfw : ∀ q ∈ ps, Real.cos (Real.pi / 4) < (r.rotate ⟨1, 0, 0⟩).dot (q.state.rot.rotate ⟨1, 0, 0⟩)) : Agreeing ps := by
  have h : Real.pi / 2 - Real.pi / 4 = Real.pi / 4 := by ring
  refine ⟨Real.pi / 4, r.rotate ⟨1, 0, 0⟩, r.rotate ⟨0, 0, 1⟩, by positivity, by linarith [Real.pi_pos], ?_, ?_, ?_,
    fun q hq => ⟨(hup q hq).le, ?_⟩⟩
  · rw [Quat.C28_rotate_dot, hr]; simp [Vec3.dot]
  · rw [Quat.C28_rotate_dot, hr]; simp [Vec3.dot]
  · rw [Quat.C28_rotate_dot, hr]; simp [Vec3.dot]
  · rw [h]; exact hfw q hq

/-- The right angle cannot be exceeded: of two upright particles with opposite headings and equal votes, no mean orientation
can be computed. -/
theorem C181_opposite : ∃ a b : Quat ℝ, a.dot a = 1 ∧ b.dot b = 1 ∧
    (∀ q ∈ [a, b], q.rotate ⟨0, 0, 1⟩ = ⟨0, 0, 1⟩) ∧
    (weightedSum [(1 / 2, a.rotate ⟨1, 0, 0⟩), (1 / 2, b.rotate ⟨1, 0, 0⟩)]).cross
      (weightedSum [(1 / 2, a.rotate ⟨0, 0, 1⟩), (1 / 2, b.rotate ⟨0, 0, 1⟩)]) = ⟨0, 0, 0⟩ := by
  refine ⟨⟨0, 0, 0, 1⟩, ⟨0, 0, 1, 0⟩, by norm_num [Quat.dot], by norm_num [Quat.dot], ?_, ?_⟩
  · intro q hq
    simp only [List.mem_cons, List.not_mem_nil, or_false] at hq
    rcases hq with rfl | rfl <;> norm_num [Quat.rotate, Quat.mul, Quat.conj]
  · norm_num [weightedSum, Vec3.cross, Quat.rotate, Quat.mul, Quat.conj]

namespace Demo

theorem sameRotation_one {q : Quat ℝ} (h : Quat.SameRotation q 1) (v : Vec3 ℝ) : q.rotate v = v := by
  rcases h with rfl | rfl
  · ext <;> simp [Quat.rotate, show (1 : Quat ℝ) = ⟨0, 0, 0, 1⟩ from rfl]
  · ext <;> simp [Quat.rotate, show (1 : Quat ℝ) = ⟨0, 0, 0, 1⟩ from rfl]

/-- Particles that all have the identity as orientation agree. -/
theorem unanimous_agree {ps : List Particle} (h : ∀ p ∈ ps, Quat.SameRotation p.state.rot 1) : Agreeing ps := by
  have hc : Real.cos (Real.pi / 4) < 1 := by
    rw [Real.cos_pi_div_four]
    nlinarith [Real.sq_sqrt (show (0:ℝ) ≤ 2 by norm_num), Real.sqrt_nonneg 2]
  refine C181_near (r := 1) (by show (0:ℝ) * 0 + 0 * 0 + 0 * 0 + 1 * 1 = 1; norm_num) (fun q hq => ?_) (fun q hq => ?_)
  · rw [sameRotation_one (h q hq), sameRotation_one (.inl rfl)]; simpa [Vec3.dot] using hc
  · rw [sameRotation_one (h q hq), sameRotation_one (.inl rfl)]; simpa [Vec3.dot] using hc

/-- The history `realHistory`, when nobody wants the matched and unmatched points of the last cloud. -/
noncomputable def quietCloud : Event × Env := (.cloud ⟨"laser", 4⟩ (msg 10), { env 4 with subMatched := false, subUnmatched := false })

theorem quiet_valid : quietCloud.2.Valid := by
  obtain ⟨a, b, c, d, e, f, g, i⟩ := env_valid 4
  exact ⟨a, b, c, d, e, f, g, i⟩

noncomputable def quietHistory : History := poseHistory 2 2 3 ++ [quietCloud]

theorem quietHistory_ok : ∀ e ∈ quietHistory, e.2.Valid ∧ KeepsPoints e.2 ∧ SafeEvent e.1 := by
  intro e he
  rcases List.mem_append.1 he with he | he
  · exact realHistory_ok e (List.mem_append_left _ he)
  · rw [List.mem_singleton.1 he]
    refine ⟨quiet_valid, fun leaf pts hp => hp, ?_⟩
    show HasXYZ _
    simp [HasXYZ, msg]

theorem quietHistory_tf : ∀ e ∈ quietHistory, ∀ a last frame stamp b t,
    e.2.tfFull a last frame stamp b = some t → t = tf0 := by
  intro e he a last frame stamp b t ht
  rcases List.mem_append.1 he with he | he
  · exact realHistory_tf e (List.mem_append_left _ he) _ _ _ _ _ t ht
  · rw [List.mem_singleton.1 he] at ht
    exact (Option.some.inj ht).symm

theorem quietHistory_regular : RegularClouds quietHistory := by
  intro e he
  rcases List.mem_append.1 he with he | he
  · exact poseHistory_regular 2 2 3 e he
  · rw [List.mem_singleton.1 he]
    rintro header m ⟨⟩
    exact regular_msg 10

theorem quietHistory_unit : UnitMessages quietHistory := by
  intro e he
  rcases List.mem_append.1 he with he | he
  · exact poseHistory_unit 2 2 3 .expansionReset 4 (by simp) (by simp) e (List.mem_append_left _ he)
  · rw [List.mem_singleton.1 he]
    refine ⟨by rintro _ ⟨⟩, by rintro _ ⟨⟩, fun a b s t' h => ?_⟩
    have : some tf0 = some t' := h
    simp only [Option.some.injEq] at this
    rw [← this]; exact unit_tf0

theorem quietHistory_sees : SensorsSee P0 5 quietHistory := by
  intro e he last frame stamp t ht p hp
  rw [quietHistory_tf e he _ _ _ _ _ t ht]
  exact realHistory_sees lastCloud (by simp [realHistory]) 0 "" 0 tf0 rfl p hp

/-- The history does not crash the node with its own ray caster: its particles agree about the orientation. -/
theorem quietHistory_runs : ∃ n0 n outs, start P0 (realLib P0 exactFlann lib.solve3 lib.solve6) (env 0) motion0 = .ok n0 ∧
    run P0 (realLib P0 exactFlann lib.solve3 lib.solve6) n0 quietHistory = .ok (n, outs) ∧ outs.length = quietHistory.length := by
  obtain ⟨n0, hs, ⟨n, outs, hr, hl⟩ | ⟨h1, e, h2, n, outs, b, s, hh, hr, hmeas, hno⟩⟩ := C181_kdtree sane_P0 measures
    (by norm_num [P0, Params.loadFrom, Params.loadLike, Server.dblD, Server.getDouble])
    (by simp [P0, Params.loadFrom, Server.boolD, Server.getBool])
    (by norm_num [P0, Params.loadFrom, Server.dblD, Server.getDouble])
    (by norm_num [P0, Params.loadFrom, Params.loadBeam, Server.dblD, Server.getDouble])
    (by norm_num) exactFlann_spec lib.solve3 lib.solve6 (D := 5)
    (by norm_num [P0, Params.loadFrom, Params.loadBeam, Server.dblD, Server.getDouble])
    (env 0) motion0 quietHistory quietHistory_ok quietHistory_regular quietHistory_unit quietHistory_sees
  · exact ⟨n0, n, outs, hs, hr, hl⟩
  · exfalso
    have : h1 = poseHistory 2 2 3 ∨ (batchStep P0 (batchView P0 h1).1 (batchView P0 h1).2 e).1 = none := by
      simp only [quietHistory, poseHistory, List.cons_append, List.nil_append] at hh
      rcases h1 with _ | ⟨a, _ | ⟨b, _ | ⟨c, _ | ⟨d, l⟩⟩⟩⟩
      · right
        simp only [List.nil_append, List.cons.injEq] at hh
        rw [← hh.1]; simp [batchView, batchStep]
      · right
        simp only [List.nil_append, List.cons_append, List.cons.injEq] at hh
        rw [← hh.2.1]; simp [batchStep]
      · right
        simp only [List.nil_append, List.cons_append, List.cons.injEq] at hh
        rw [← hh.1, ← hh.2.1, ← hh.2.2.1]
        simp [batchView, batchStep, mapAvailable, validCloud_msg, not_completes_nil]
      · left
        simp only [List.nil_append, List.cons_append, List.cons.injEq] at hh
        rw [← hh.1, ← hh.2.1, ← hh.2.2.1]; rfl
      · have := congrArg List.length hh
        simp at this
    rcases this with rfl | h
    · exact hno (unanimous_agree fun p hp => ((poseHistory_run hs hr).2.1 p hp).2)
    · rw [Measuring, h] at hmeas; cases hmeas

end Demo

end Node
end Mcl3dl
