import Verif.Spec.NodeCovariance
import Verif.Props.NodeResample
import Verif.Props.NodeUnit
import Verif.Props.PFSelect

/-! # C129: the covariance of the published pose -/

set_option linter.unusedSectionVars false

namespace Mcl3dl
namespace Node

variable {C : Type}

theorem plain_closed (P : Params) : Closed P (fun _ => True) (fun _ => True) (fun s : State6 ℝ => s.diff = false) where
  one := trivial
  turn := fun _ _ _ _ => trivial
  default := rfl
  made := fun _ _ _ _ => rfl
  add := fun _ _ _ _ => rfl
  normalize := fun _ hs => hs
  predict := fun _ _ _ _ _ _ _ hs => hs
  reset := fun _ hs => hs
  drift := fun _ _ _ _ _ hs => hs
  stand := fun _ _ _ _ => rfl

theorem meanLoop_quat {ps : List Particle} {m : State6.MeanAcc ℝ} (hnn : ∀ p ∈ ps, 0 ≤ p.prob)
    (hsum : m.pSum + (ps.map PF.Particle.prob).sum ≤ 1) :
    PF.meanLoop State6.meanQuat 1 m ps = ps.foldl (fun m p => State6.meanQuat.add m p.state p.prob) m := by
  induction ps generalizing m with
  | nil => rfl
  | cons p ps ih =>
    rw [List.map_cons, List.sum_cons] at hsum
    have h0 : 0 ≤ (ps.map PF.Particle.prob).sum := List.sum_nonneg (by
      intro x hx
      obtain ⟨q, hq, rfl⟩ := List.mem_map.1 hx
      exact hnn q (List.mem_cons_of_mem _ hq))
    have e : State6.meanQuat.total (State6.meanQuat.add m p.state p.prob) = m.pSum + p.prob := rfl
    rw [PF.meanLoop, List.foldl_cons]
    rw [if_neg (by rw [e]; linarith)]
    exact ih (fun q hq => hnn q (List.mem_cons_of_mem _ hq)) (by
      have : (State6.meanQuat.add m p.state p.prob).pSum = m.pSum + p.prob := rfl
      rw [this]; linarith)

/-- The pose and the weight of a particle. -/
def wPose (p : Particle) : ℝ × Pose := (p.prob, (p.state.pos, p.state.rot))

theorem expectation_mean {f : Filter} (hnn : ∀ p ∈ f.particles, 0 ≤ p.prob)
    (hsum : (f.particles.map PF.Particle.prob).sum = 1) (sorted : List Particle) :
    MeanPose (f.particles.map wPose) ((f.expectation State6.meanQuat 1 sorted).1.pos,
      (f.expectation State6.meanQuat 1 sorted).1.rot) := by
  have e0 : (f.expectation State6.meanQuat 1 sorted).1 = State6.meanQuat.getMean
      (f.particles.foldl (fun m p => State6.meanQuat.add m p.state p.prob) State6.meanQuat.empty) := by
    simp only [PF.Filter.expectation, lt_irrefl, if_false]
    rw [meanLoop_quat hnn (by rw [hsum]; simp [State6.meanQuat])]
  have e1 : f.particles.foldl (fun m p => State6.meanQuat.add m p.state p.prob) State6.meanQuat.empty =
      (f.particles.map fun p => { p with bias := 1 }).foldl
        (fun m p => State6.meanQuat.add m p.state (p.prob * p.bias)) State6.meanQuat.empty := by
    rw [List.foldl_map]
    simp
  have hv : ∀ g : State6 ℝ → ℝ, voteSum (f.particles.map fun p => { p with bias := 1 }) g =
      (f.particles.map fun p => p.prob * g p.state).sum := by
    intro g
    simp [voteSum, voteOf, Function.comp_def]
  rw [e1, fold_meanQuat] at e0
  rw [e0]
  simp only [hv, State6.meanQuat, State6.ofQuat, MeanPose, weightedMean, weightedSum, List.map_map, Function.comp_def, wPose]
  constructor
  · ext <;> simp [Vec3.sdiv, vadd_x, vadd_y, vadd_z, vzero_x, vzero_y, vzero_z, div_eq_mul_inv, mul_comm]
  · congr 1 <;> ext <;> simp [vadd_x, vadd_y, vadd_z, vzero_x, vzero_y, vzero_z]

theorem deviation_total (s e : State6 ℝ) (i : ℕ) : ∃ a, State6.deviation s e i = some a ∧ State6.Deviates s e i a := by
  unfold State6.Deviates State6.deviation
  split_ifs with h
  · exact ⟨_, rfl, rfl⟩
  · obtain ⟨r, h1, h2⟩ := State6.wrap_spec (s.angles.get (i - 3) - e.angles.get (i - 3))
    exact ⟨r, h1, h2⟩

/-- The deviations of a pose. -/
noncomputable def devOf (m s : Pose) (i : ℕ) : ℝ :=
  (State6.deviation (State6.ofQuat s.1 s.2) (State6.ofQuat m.1 m.2) i).getD 0

theorem devOf_spec (m s : Pose) (i : ℕ) : DeviatesBy m s i (devOf m s i) := by
  obtain ⟨a, h1, h2⟩ := deviation_total (State6.ofQuat s.1 s.2) (State6.ofQuat m.1 m.2) i
  rw [devOf, h1]
  exact h2

theorem covElement_dev {s e : State6 ℝ} (hs : s.diff = false) (he : e.diff = false) (j k : ℕ) :
    (State6.covElement s e j k).getD 0 = devOf (e.pos, e.rot) (s.pos, s.rot) j * devOf (e.pos, e.rot) (s.pos, s.rot) k := by
  have key : ∀ i, State6.deviation (State6.ofQuat s.pos s.rot) (State6.ofQuat e.pos e.rot) i = State6.deviation s e i := by
    intro i
    simp [State6.deviation, State6.angles, hs, he, State6.ofQuat, State6.default]
  obtain ⟨a, h1, _⟩ := deviation_total s e j
  obtain ⟨b, h2, _⟩ := deviation_total s e k
  simp [State6.covElement, devOf, key, h1, h2]

/-- The covariance depends on the products of deviations of the particles in the filter only. -/
theorem covariance_congr {elem elem' : State6 ℝ → State6 ℝ → ℕ → ℕ → ℝ} {f : Filter} {idx : List ℕ}
    (h : ∀ p ∈ f.particles, ∀ j k, elem p.state (f.expectation State6.meanQuat 1 f.particles).1 j k =
      elem' p.state (f.expectation State6.meanQuat 1 f.particles).1 j k) :
    f.covariance State6.meanQuat elem 1 f.particles idx = f.covariance State6.meanQuat elem' 1 f.particles idx := by
  unfold PF.Filter.covariance
  simp only
  have hps : (f.expectation State6.meanQuat 1 f.particles).2.particles = f.particles := by
    simp [PF.Filter.expectation]
  rw [hps]
  split_ifs with hi
  · have : ∀ sel : List Particle, (∀ p ∈ sel, p ∈ f.particles) →
        PF.covarianceOf elem (f.expectation State6.meanQuat 1 f.particles).1 sel =
        PF.covarianceOf elem' (f.expectation State6.meanQuat 1 f.particles).1 sel := by
      intro sel hsel
      funext j k
      unfold PF.covarianceOf PF.covSum
      congr 1
      generalize (0 : ℝ) = a
      induction sel generalizing a with
      | nil => rfl
      | cons p ps ih =>
        rw [List.foldl_cons, List.foldl_cons, h p (hsel p List.mem_cons_self)]
        exact ih (fun q hq => hsel q (List.mem_cons_of_mem _ hq)) _
    rw [this]
    intro p hp
    obtain ⟨i, _, hi⟩ := List.mem_filterMap.1 hp
    exact List.mem_of_getElem? hi
  · rfl

theorem cov_spec {P : Params} {env : Env} (hv : env.Valid) {call : ℕ} {f : Filter}
    (hne : f.particles ≠ []) (hdiff : ∀ p ∈ f.particles, p.state.diff = false)
    (hnn : ∀ p ∈ f.particles, 0 ≤ p.prob) (hsum : (f.particles.map PF.Particle.prob).sum = 1) {cov : ℕ → ℕ → ℝ}
    (h : covarianceOf P env call f = .ok cov) :
    ∃ (mean : Pose) (dev : Pose → ℕ → ℝ) (used : List (ℝ × Pose)),
      MeanPose (f.particles.map wPose) mean ∧ (∀ s i, DeviatesBy mean s i (dev s i)) ∧
      used.Subperm (f.particles.map wPose) ∧ used.length = covarianceCount P.numParticles f.particles.length ∧
      ((f.particles.length : ℤ) ≤ P.numParticles → used = f.particles.map wPose) ∧
      ∀ j k, cov j k = (used.map fun a => a.1 * (dev a.2 j * dev a.2 k)).sum / (used.map Prod.fst).sum := by
  unfold covarianceOf at h
  simp only at h
  obtain ⟨⟨cov', f'⟩, hb1, h'⟩ := Outcome.bind_eq_ok_iff.1 h
  clear h
  simp only [Outcome.ok.injEq] at h'
  subst h'
  have hsort : PF.IsSortedDesc f.particles (f.particles.mergeSort fun a b => decide (b.accum ≤ a.accum)) := by
    refine ⟨List.mergeSort_perm _ _, ?_⟩
    have := List.pairwise_mergeSort (le := fun a b : Particle => decide (b.accum ≤ a.accum))
      (by intro a b c h1 h2; simp only [decide_eq_true_eq] at *; linarith)
      (by intro a b; simp only [Bool.or_eq_true, decide_eq_true_eq]; exact le_total _ _) f.particles
    refine this.imp fun h => ?_
    simpa using h
  have hall : PF.passCount 1 0 f.particles = f.particles.length := by
    obtain ⟨h1, _⟩ := PF.passCount_spec 1 0 f.particles
    rcases h1 with h1 | h1
    · exact h1
    · exfalso
      have := PF.weightSum_take_le f.particles hnn (PF.passCount 1 0 f.particles)
      unfold PF.weightSum at this
      rw [hsum] at this
      rw [zero_add] at h1
      exact absurd this (not_le.2 h1)
  set e := (f.expectation State6.meanQuat 1 f.particles).1 with he
  have hexp : ∀ sorted, (f.expectation State6.meanQuat 1 sorted).1 = e := by
    intro sorted; simp [he, PF.Filter.expectation]
  have hed : e.diff = false := rfl
  rw [covariance_congr (elem' := fun s e j k => devOf (e.pos, e.rot) (s.pos, s.rot) j * devOf (e.pos, e.rot) (s.pos, s.rot) k)
    (fun p hp j k => covElement_dev (hdiff p hp) hed j k), hall] at hb1
  have hlen : (0 : ℝ) < f.particles.length := by exact_mod_cast List.length_pos_iff.2 hne
  set ratio := cmax (1 / 10) ((P.numParticles : ℝ) / (f.particles.length : ℝ)) with hr
  have hrm : ratio = max (1 / 10) ((P.numParticles : ℝ) / (f.particles.length : ℝ)) := by rw [hr, cmax_eq]
  have hlt : ratio < 1 ↔ ¬ (f.particles.length : ℤ) ≤ P.numParticles := by
    rw [hrm, max_lt_iff, div_lt_one hlen, not_le]
    constructor
    · intro h; exact_mod_cast h.2
    · intro h; exact ⟨by norm_num, by exact_mod_cast h⟩
  have hidx := hv.covIdx call f.particles.length (decide (ratio < 1)) ⌊(f.particles.length : ℝ) * ratio⌋₊
  have hsw : ∀ sorted : List Particle, f.expectation State6.meanQuat 1 sorted = f.expectation State6.meanQuat 1 f.particles := by
    intro sorted; simp [PF.Filter.expectation]
  obtain ⟨cov2, n, sel, hc, ⟨hn1, hn2, _, _, hsel⟩, hcov⟩ := PF.C25_selection State6.meanQuat
    (fun s e j => devOf (e.pos, e.rot) (s.pos, s.rot) j) f 1 _ hsort (decide (ratio < 1))
    ⌊(f.particles.length : ℝ) * ratio⌋₊ _ (by simp only [lt_irrefl, if_false, hall]; exact hidx)
  simp only [lt_irrefl, if_false] at hn1 hn2 hsel
  have hn : n = f.particles.length := by
    rcases hn2 with hn2 | hn2
    · exact hn2
    · exfalso
      have := PF.weightSum_take_le f.particles hnn n
      unfold PF.weightSum at this
      rw [hsum] at this
      exact absurd this (not_le.2 hn2)
  subst hn
  rw [List.take_length] at hsel
  have hcc : cov' = cov2 := by
    have : f.covariance State6.meanQuat (fun s e j k => devOf (e.pos, e.rot) (s.pos, s.rot) j * devOf (e.pos, e.rot) (s.pos, s.rot) k) 1
        (f.particles.mergeSort fun a b => decide (b.accum ≤ a.accum))
        (env.covIdx call f.particles.length (decide (ratio < 1)) ⌊(f.particles.length : ℝ) * ratio⌋₊) = .ok (cov', f') := by
      rw [← hb1]
      unfold PF.Filter.covariance
      simp only [hsw]
    rw [this] at hc
    simp only [Outcome.ok.injEq, Prod.mk.injEq] at hc
    exact hc.1
  subst hcc
  refine ⟨(e.pos, e.rot), devOf (e.pos, e.rot), sel.map wPose, ?_, devOf_spec _, ?_, ?_, ?_, ?_⟩
  · exact expectation_mean hnn hsum f.particles
  · split_ifs at hsel
    · obtain ⟨⟨l, hl1, hl2⟩, _⟩ := hsel
      exact ⟨l.map wPose, hl1.map _, hl2.map _⟩
    · rw [hsel]
  · rw [List.length_map, covarianceCount]
    by_cases hle : (f.particles.length : ℤ) ≤ P.numParticles
    · rw [if_pos hle]
      rw [if_neg (by simpa using fun h => hlt.1 h hle)] at hsel
      rw [hsel]
    · rw [if_neg hle, ← hrm]
      rw [if_pos (by simpa using hlt.2 hle)] at hsel
      rw [hsel.2]
      apply min_eq_right
      apply Nat.floor_le_of_le
      nlinarith [hlt.2 hle]
  · intro hle
    rw [if_neg (by simpa using fun h => hlt.1 h hle)] at hsel
    rw [hsel]
  · intro j k
    rw [hcov, hsw, List.map_map, List.map_map]
    rfl

theorem posterior_sum {prior like : List ℝ} (h : prior.sum = 1) : (posterior prior like).sum = 1 := by
  unfold posterior
  split_ifs with h0
  · have e : ∀ (l : List ℝ) (c : ℝ), (l.map fun x => x / c).sum = l.sum / c := by
      intro l c
      induction l with
      | nil => simp
      | cons x xs ih => rw [List.map_cons, List.sum_cons, List.sum_cons, ih, add_div]
    rw [e, div_self h0.ne']
  · exact h

/-- C129: the published covariance is the weighted mean of the products of deviations from the mean pose, both
taken with the posterior weights.  It is taken over all particles, or, if there are more than configured, over a
random subset whose size is bounded below by a tenth.  (Its centre is the mean with the posterior weights; the
published pose itself is the smoothed estimate that also counts nearness, C118.) -/
theorem C129_covariance {P : Params} (hP : Measures P) (hd : 0 < P.divYaw) (hmw : 0 ≤ P.like.matchWeight)
    {lib : Lib C} {w : Vec3 ℝ} (hw : 1 ≤ w.x ∧ 1 ≤ w.y ∧ 1 ≤ w.z)
    (hfl : ∀ pts q r num, ExactSearch pts (weightedDist w q) r num (lib.flann pts q r num))
    {env0 : Env} (hv0 : env0.Valid) {motion0 : Motion ℝ} {h : History} {e : Event × Env} (hv : HistValid (h ++ [e]))
    (hreg : RegularClouds (h ++ [e])) {n0 n1 n : Node C} {outs : List (List Out)} {o : List Out}
    (hs : start P lib env0 motion0 = .ok n0) (hr1 : run P lib n0 h = .ok (n1, outs))
    (hr : run P lib n0 (h ++ [e]) = .ok (n, outs ++ [o]))
    {b : List Scan} {s : Scan} (hb : (batchStep P (batchView P h).1 (batchView P h).2 e).1 = some (b ++ [s]))
    {t : Tf} (ht : e.2.tf P.baseFrame P.odomFrame s.header.stamp = some t)
    {stamp : ℝ} {frame : String} {pos : Vec3 ℝ} {rot : Quat ℝ} {cov : ℕ → ℕ → ℝ}
    (hp : .pose stamp frame pos rot cov ∈ o) :
    ∃ (model : Lidar.Beam) (origins : List (Vec3 ℝ)) (beamSel sel : List Point) (like : List ℝ),
      Lidar.Beam.Reach P.beam model ∧
      Selection P e.2 t (b ++ [s]) s.header.stamp n1.loc.pf.particles.length origins beamSel sel ∧
      List.Forall₂ (fun (q : Particle) l =>
        LikelihoodOf P model (caster P lib n1.map) w (mapView P h).active origins beamSel sel q.state l)
        n1.loc.pf.particles like ∧
      (let post := posterior (n1.loc.pf.particles.map PF.Particle.prob) like
       let all := post.zip (n1.loc.pf.particles.map fun q => (q.state.pos, q.state.rot))
       post.sum = 1 →
       ∃ (mean : Pose) (dev : Pose → ℕ → ℝ) (used : List (ℝ × Pose)),
         MeanPose all mean ∧ (∀ s i, DeviatesBy mean s i (dev s i)) ∧
         used.Subperm all ∧ used.length = covarianceCount P.numParticles n1.loc.pf.particles.length ∧
         ((n1.loc.pf.particles.length : ℤ) ≤ P.numParticles → used = all) ∧
         ∀ j k, cov j k = (used.map fun a => a.1 * (dev a.2 j * dev a.2 k)).sum / (used.map Prod.fst).sum) := by
  obtain ⟨header, p, outs', r, _, ho, hdone, hlen, hpb, _, hsel, hlk⟩ := measurement hP hw hfl hv0 hv hreg hs hr1 hr hb ht hp
  refine ⟨p.beam, p.origins, p.beamPc, p.likePc, r.w.1, hpb, hsel, hlk, ?_⟩
  have hvh : HistValid h := fun e he => hv e (List.mem_append_left _ he)
  have hve : e.2.Valid := hv e (by simp)
  obtain ⟨hnn, hsum⟩ := C115_weights hd hvh hs hr1
  have hplain : ∀ p ∈ n1.loc.pf.particles, p.state.diff = false :=
    ((plain_closed P).run hvh (fun _ _ => ⟨fun _ _ => trivial, fun _ _ => trivial, fun _ _ _ _ _ => trivial⟩) hs hr1).states
  have hpfeq : (freshen e.2 n1).loc.pf = n1.loc.pf := rfl
  obtain ⟨l2, p2, s2⟩ := pf2_spec (P := P) (loc := (freshen e.2 n1).loc) (r := r) hlen
  rw [hpfeq] at l2 p2 s2
  have hne : n1.loc.pf.particles ≠ [] := by
    intro hnil
    have : (r.pf1 P (freshen e.2 n1).loc).particles = [] := by
      apply List.length_eq_zero_iff.1
      rw [LocRun.pf1, (biasFilter_spec _ _ _).1, hpfeq, measureWith_length _ _ hlen, hnil]
      rfl
    have hmax := hdone.max
    rw [PF.Filter.max, this] at hmax
    simp at hmax
  have hlike : ∀ x ∈ r.w.1, 0 ≤ x := by
    intro x hx
    obtain ⟨i, hi, rfl⟩ := List.getElem_of_mem hx
    obtain ⟨hll, hget⟩ := List.forall₂_iff_get.1 hlk
    obtain ⟨c, c', sts, _, e⟩ := hget i (by omega) hi
    simp only [List.get_eq_getElem] at e
    rw [e]
    exact likelihood_nonneg hP hmw
  have hW : Weighted (fun x => 0 < x) (measureWith n1.loc.pf r.w.1) := by
    refine Weighted.measureWith one_pos ⟨hnn, fun hne => ?_⟩ hlike
    rcases hsum hne with e | ⟨_, e⟩
    · rw [show (n1.loc.pf.particles.map PF.Particle.prob).sum = 1 from e]; exact one_pos
    · rw [show (n1.loc.pf.particles.map PF.Particle.prob).sum = P.divYaw from e]; exact_mod_cast hd
  have hprob : (r.pf2 P (freshen e.2 n1).loc).particles.map PF.Particle.prob =
      (measureWith n1.loc.pf r.w.1).particles.map PF.Particle.prob := by rw [p2, measureWith_probs]
  have hW2 : Weighted (fun x => 0 < x) (r.pf2 P (freshen e.2 n1).loc) := hW.same hprob
  simp only
  intro h1
  have hposes : (r.pf2 P (freshen e.2 n1).loc).particles.map wPose =
      (posterior (n1.loc.pf.particles.map PF.Particle.prob) r.w.1).zip
        (n1.loc.pf.particles.map fun q => (q.state.pos, q.state.rot)) := by
    rw [← p2]
    apply List.ext_getElem
    · simp [l2]
    · intro i hi1 hi2
      have hi : i < (r.pf2 P (freshen e.2 n1).loc).particles.length := by simpa using hi1
      obtain ⟨q, hq, hf⟩ := s2 i _ (List.getElem?_eq_getElem hi)
      have hi' : i < n1.loc.pf.particles.length := by omega
      rw [List.getElem?_eq_getElem hi', Option.some.injEq] at hq
      have hpr : ((r.pf2 P (freshen e.2 n1).loc).particles[i]).state.pos = q.state.pos ∧
          ((r.pf2 P (freshen e.2 n1).loc).particles[i]).state.rot = q.state.rot := by
        by_cases hc : (¬ P.numParticles < (n1.loc.pf.particles.length : ℤ) ∧
            Leapt P (freshen e.2 n1).loc.statePrev (r.est P (freshen e.2 n1).loc))
        · rw [hf.1 hc]; exact ⟨rfl, rfl⟩
        · rw [hf.2 hc]; exact ⟨rfl, rfl⟩
      simp [wPose, hpr.1, hpr.2, hq]
  have hpl2 : ∀ p ∈ (r.pf2 P (freshen e.2 n1).loc).particles, p.state.diff = false := by
    intro p hp
    obtain ⟨i, hi, rfl⟩ := List.getElem_of_mem hp
    obtain ⟨q, hq, hf⟩ := s2 i _ (List.getElem?_eq_getElem hi)
    have := hplain q (List.mem_of_getElem? hq)
    by_cases hc : (¬ P.numParticles < (n1.loc.pf.particles.length : ℤ) ∧
        Leapt P (freshen e.2 n1).loc.statePrev (r.est P (freshen e.2 n1).loc))
    · rw [hf.1 hc]; exact this
    · rw [hf.2 hc]; exact this
  have hne2 : (r.pf2 P (freshen e.2 n1).loc).particles ≠ [] := by
    intro h0
    rw [h0] at l2
    exact hne (List.length_eq_zero_iff.1 l2.symm)
  obtain ⟨mean, dev, used, g1, g2, g3, g4, g5, g6⟩ := cov_spec hve hne2 hpl2 hW2.1 (by rw [p2]; exact h1) hdone.cov
  rw [hposes] at g1 g3 g5
  rw [l2] at g4 g5
  have hcov : cov = r.cov := by
    have hmem : Out.pose stamp frame pos rot cov ∈ outs' := by
      rw [ho] at hp
      simpa using hp
    rw [hdone.outs_eq] at hmem
    have hmo : Out.pose stamp frame pos rot cov ∉ r.mo.2 := by
      intro hx
      obtain ⟨s, l, hc | hc⟩ := matchOutput_only hdone.mo _ hx <;> cases hc
    have : .pose stamp frame pos rot cov ∉ (if P.publishTf = true then
        [Out.transforms (transformsOf P (outStamp P n1.odo (freshen e.2 n1).loc.tolBase (e.2.now 1))
          (r.smooth P n1.odo (freshen e.2 n1).loc))] else []) := by split_ifs <;> simp
    simp only [List.mem_append, List.mem_cons, List.not_mem_nil, or_false, publishParticles, publishStatus, reduceCtorEq,
      false_or, hmo, this, Out.pose.injEq] at hmem
    exact hmem.2.2.2.2
  exact ⟨mean, dev, used, g1, g2, g3, g4, g5, by rw [hcov]; exact g6⟩

/-- The hypotheses of C129 are met: a node with 64 particles, all of which count for the covariance. -/
example : ∃ n0 n1 n outs o pos rot cov, start Demo.P0 Demo.exactLib (Demo.env 0) Demo.motion0 = .ok n0 ∧
    run Demo.P0 Demo.exactLib n0 Demo.evenHistory = .ok (n1, outs) ∧
    run Demo.P0 Demo.exactLib n0 (Demo.evenHistory ++ [Demo.lastCloud]) = .ok (n, outs ++ [o]) ∧
    .pose 3 Demo.P0.mapFrame pos rot cov ∈ o ∧
    ∃ (mean : Pose) (dev : Pose → ℕ → ℝ) (used : List (ℝ × Pose)),
      MeanPose used mean ∧ (∀ s i, DeviatesBy mean s i (dev s i)) ∧ used.length = 64 ∧
      ∀ j k, cov j k = (used.map fun a => a.1 * (dev a.2 j * dev a.2 k)).sum / (used.map Prod.fst).sum := by
  obtain ⟨n0, n1, n, outs, o, pos, rot, cov, hs, hr, hr', hp, hn⟩ := Demo.even_runs
  have hd : 0 < Demo.P0.divYaw := by rw [Demo.P0_divYaw]; norm_num
  have hv : HistValid (Demo.evenHistory ++ [Demo.lastCloud]) := by
    simp [HistValid, Demo.evenHistory, Demo.lastCloud, Demo.env_valid]
  obtain ⟨model, origins, beamSel, sel, like, _, _, hf, hc⟩ := C129_covariance Demo.measures hd
    (by norm_num [Demo.P0, Params.loadFrom, Params.loadLike, Server.dblD, Server.getDouble]) (w := ⟨1, 1, 5⟩) (by norm_num)
    (fun pts q r num => Demo.exactFlann_spec pts q r num) (Demo.env_valid 0) hv Demo.evenHistory_regular
    hs hr hr' (b := []) (s := ⟨⟨"laser", 3⟩, [⟨10, 0, 0⟩, ⟨10, 0, 0⟩]⟩)
    (by rw [Demo.evenHistory_view]; simp [batchStep, Demo.completes_one, Demo.lastCloud]) (t := Demo.tf0) rfl hp
  obtain ⟨_, hsum⟩ := C115_weights hd (fun e he => hv e (List.mem_append_left _ he)) hs hr
  have h1 : weightSum n1 = 1 := by
    rcases hsum (by intro h0; rw [h0] at hn; simp at hn) with h | ⟨⟨e, he, hg⟩, _⟩
    · exact h
    · simp only [Demo.evenHistory, List.mem_cons, List.not_mem_nil, or_false] at he
      rcases he with rfl | rfl | rfl <;> cases hg
  obtain ⟨mean, dev, used, g1, g2, _, g4, g5, g6⟩ := hc (posterior_sum h1)
  have hle : (n1.loc.pf.particles.length : ℤ) ≤ Demo.P0.numParticles := by
    rw [hn]; norm_num [Demo.P0, Params.loadFrom, Server.intD, Server.getInt]
  rw [← g5 hle] at g1
  rw [covarianceCount, if_pos hle, hn] at g4
  exact ⟨n0, n1, n, outs, o, pos, rot, cov, hs, hr, hr', hp, mean, dev, used, g1, g2, g4, g6⟩

end Node
end Mcl3dl
