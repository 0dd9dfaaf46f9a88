import Verif.Props.Likelihood

/-!
# C141, C142: zero spreads and time constants; infinite likelihoods

The filter, the likelihoods and the motion model over the extended reals with NaN.
-/

set_option linter.unusedSectionVars false

namespace Mcl3dl
namespace NonFinite

open PF

variable {S : Type}

/-! ## Sums of zeros and NaN -/

/-- Zero or NaN. -/
def ZeroNan (x : XR) : Prop := x = .fin 0 ∨ x = .nan

theorem ZeroNan.add {x y : XR} (hx : ZeroNan x) (hy : ZeroNan y) : ZeroNan (x + y) := by
  rcases hx with rfl | rfl <;> rcases hy with rfl | rfl
  · left; rw [XR.fin_add, add_zero]
  · right; exact XR.add_nan _
  · right; exact XR.nan_add _
  · right; exact XR.nan_add _

theorem ZeroNan.fin_mul {y : XR} (r : ℝ) (hy : ZeroNan y) : ZeroNan (.fin r * y) := by
  rcases hy with rfl | rfl
  · left; rw [XR.fin_mul, mul_zero]
  · right; exact XR.mul_nan _

theorem ZeroNan.not_pos {x : XR} (hx : ZeroNan x) : ¬ (0 : XR) < x := by
  rcases hx with rfl | rfl
  · rw [XR.zero_def, XR.fin_lt]; exact lt_irrefl _
  · exact XR.not_lt_nan _

theorem total_zeroNan (ps : List (Particle S XR)) (h : ∀ p ∈ ps, ZeroNan p.prob) : ZeroNan (total ps) := by
  unfold total
  suffices hs : ∀ (a : XR), ZeroNan a → ZeroNan (ps.foldl (fun a p => a + p.prob) a) from hs 0 (Or.inl rfl)
  induction ps with
  | nil => intro a ha; exact ha
  | cons p ps ih =>
    intro a ha
    exact ih (fun q hq => h q (List.mem_cons_of_mem _ hq)) _ (ha.add (h p List.mem_cons_self))

/-- A measurement whose products are all zero or NaN changes nothing. -/
theorem measure_zeroNan (log : XR → XR) (f : Filter S XR) (lik : S → XR)
    (h : ∀ p ∈ f.particles, ZeroNan (p.prob * lik p.state)) : f.measure log lik = f := by
  unfold Filter.measure
  have : ¬ (0 : XR) < total (weigh lik f.particles) := by
    refine (total_zeroNan _ fun q hq => ?_).not_pos
    obtain ⟨p, hp, rfl⟩ := List.mem_map.1 hq
    exact h p hp
  simp only [if_neg this]

/-! ## C141 -/

/-- C141: with a standard deviation of 0 the likelihood of every value, finite or not, is NaN. -/
theorem C141_density (x : XR) : (NormalLikelihood.make (.fin 0)).eval x = .nan := by
  cases x with
  | fin r => exact NormalLikelihood.C80_zero_sigma r
  | nan =>
    unfold NormalLikelihood.eval
    rw [show (-XR.nan : XR) = XR.nan from rfl, XR.nan_mul, XR.nan_div]
    exact XR.mul_nan _
  | pinf =>
    have ha := NormalLikelihood.C80_zero_sigma 1
    unfold NormalLikelihood.eval
    have h1 : (NormalLikelihood.make (XR.fin 0)).a = XR.pinf := by
      change XR.fin 1 / XR.sqrt (XR.fin _ * XR.fin _ * XR.fin 0 * XR.fin 0) = _
      simp only [XR.fin_mul, mul_zero]
      rw [XR.sqrt_fin 0 le_rfl, Real.sqrt_zero, XR.fin_div_zero_pos 1 one_pos]
    have h2 : (NormalLikelihood.make (XR.fin 0)).sq2 = XR.fin 0 := by
      change XR.fin 0 * XR.fin 0 * XR.fin _ = _
      simp only [XR.fin_mul, zero_mul]
    rw [h1, h2]
    have h3 : (-XR.pinf * XR.pinf : XR) / XR.fin 0 = .ninf := by
      change XR.div XR.ninf (XR.fin 0) = _
      simp [XR.div]
    rw [h3]
    exact XR.pinf_mul_zero
  | ninf =>
    unfold NormalLikelihood.eval
    have h1 : (NormalLikelihood.make (XR.fin 0)).a = XR.pinf := by
      change XR.fin 1 / XR.sqrt (XR.fin _ * XR.fin _ * XR.fin 0 * XR.fin 0) = _
      simp only [XR.fin_mul, mul_zero]
      rw [XR.sqrt_fin 0 le_rfl, Real.sqrt_zero, XR.fin_div_zero_pos 1 one_pos]
    have h2 : (NormalLikelihood.make (XR.fin 0)).sq2 = XR.fin 0 := by
      change XR.fin 0 * XR.fin 0 * XR.fin _ = _
      simp only [XR.fin_mul, zero_mul]
    rw [h1, h2]
    have h3 : (-XR.ninf * XR.ninf : XR) / XR.fin 0 = .ninf := by
      change XR.div XR.ninf (XR.fin 0) = _
      simp [XR.div]
    rw [h3]
    exact XR.pinf_mul_zero

/-- C141: with `odom_err_integ_lin_sigma = 0` no measurement of clouds ever changes a weight or the entropy,
whatever the scores of the clouds are. -/
theorem C141_odom_sigma (log : XR → XR) (f : Filter (State6 XR) XR) (score : State6 XR → XR) :
    f.measure log (fun s => score s * (NormalLikelihood.make (.fin 0)).eval s.integLin.norm) = f := by
  refine measure_zeroNan _ _ _ fun p _ => Or.inr ?_
  rw [C141_density, XR.mul_nan, XR.mul_nan]

/-- C141: with `acc_var = 0` no IMU message ever changes a weight or the entropy. -/
theorem C141_acc_var (log : XR → XR) (f : Filter (State6 XR) XR) (acc : Vec3 XR) :
    f.measure log (GravityModel.make (.fin 0) acc).measure = f := by
  refine measure_zeroNan _ _ _ fun p _ => Or.inr ?_
  have : (GravityModel.make (.fin 0) acc).measure p.state = .nan := C141_density _
  rw [this, XR.mul_nan]

/-- C141: if one of the two bias variances is 0, the estimated position is NaN in every component. -/
theorem C141_bias (f : Filter (State6 XR) XR) (hne : f.particles ≠ []) (lin ang : State6 XR → XR) (vl va eps : XR)
    (h0 : vl = .fin 0 ∨ va = .fin 0) :
    ((f.bias fun s _ => (NormalLikelihood.make vl).eval (lin s) * (NormalLikelihood.make va).eval (ang s) + eps).expectationBiased
      State6.meanQuat).pos = ⟨.nan, .nan, .nan⟩ := by
  set b : State6 XR → XR := fun s =>
    (NormalLikelihood.make vl).eval (lin s) * (NormalLikelihood.make va).eval (ang s) + eps with hb
  have hbn : ∀ s, b s = .nan := by
    intro s
    rcases h0 with rfl | rfl
    · simp only [hb, C141_density, XR.nan_mul, XR.nan_add]
    · simp only [hb, C141_density, XR.mul_nan, XR.nan_add]
  have key : ∀ (ps : List (Particle (State6 XR) XR)) (m : State6.MeanAcc XR),
      (ps ≠ [] ∨ (m.pos = ⟨.nan, .nan, .nan⟩)) → (∀ p ∈ ps, p.bias = .nan) →
      (ps.foldl (fun m p => State6.meanQuat.add m p.state (p.prob * p.bias)) m).pos = ⟨.nan, .nan, .nan⟩ := by
    intro ps
    induction ps with
    | nil => intro m hm _; rcases hm with h | h; exact absurd rfl h; exact h
    | cons p ps ih =>
      intro m _ hp
      refine ih _ (Or.inr ?_) fun q hq => hp q (List.mem_cons_of_mem _ hq)
      show m.pos + p.state.pos.smul (p.prob * p.bias) = _
      rw [hp p List.mem_cons_self, XR.mul_nan]
      apply Vec3.ext
      · show m.pos.x + p.state.pos.x * XR.nan = _; rw [XR.mul_nan, XR.add_nan]
      · show m.pos.y + p.state.pos.y * XR.nan = _; rw [XR.mul_nan, XR.add_nan]
      · show m.pos.z + p.state.pos.z * XR.nan = _; rw [XR.mul_nan, XR.add_nan]
  have h1 := key (f.bias fun s _ => b s).particles State6.meanQuat.empty
    (Or.inl (by simpa [Filter.bias] using hne)) (by
      intro p hp
      obtain ⟨q, _, rfl⟩ := List.mem_map.1 hp
      exact hbn _)
  show Vec3.sdiv ((f.bias fun s _ => b s).particles.foldl
    (fun m p => State6.meanQuat.add m p.state (p.prob * p.bias)) State6.meanQuat.empty).pos _ = _
  rw [h1]
  apply Vec3.ext <;> exact XR.nan_div _

/-- Neither finite nor comparable: an infinity or NaN. -/
def Unbounded (x : XR) : Prop := x = .pinf ∨ x = .ninf ∨ x = .nan

theorem mul_unbounded (x : XR) {y : XR} (hy : Unbounded y) : Unbounded (x * y) := by
  have hs : ∀ b r, Unbounded (XR.signInf b r) := by
    intro b r
    unfold XR.signInf
    split_ifs
    · exact Or.inr (Or.inr rfl)
    · exact Or.inl rfl
    · exact Or.inr (Or.inl rfl)
  rcases hy with rfl | rfl | rfl <;> cases x
  all_goals first
    | exact hs _ _
    | exact Or.inl rfl
    | exact Or.inr (Or.inl rfl)
    | exact Or.inr (Or.inr rfl)

theorem factor_unbounded (dt : ℝ) : Unbounded (1 - XR.fin dt / XR.fin 0) := by
  rcases lt_trichotomy dt 0 with h | h | h
  · rw [XR.fin_div_zero_neg dt h]; exact Or.inl rfl
  · rw [h, XR.zero_div_zero]; exact Or.inr (Or.inr rfl)
  · rw [XR.fin_div_zero_pos dt h]; exact Or.inr (Or.inl rfl)

theorem sq_unbounded {x : XR} (h : Unbounded x) : x * x = .pinf ∨ x * x = .nan := by
  rcases h with rfl | rfl | rfl
  · exact Or.inl rfl
  · exact Or.inl rfl
  · exact Or.inr rfl

theorem norm_unbounded {v : Vec3 XR} (hx : Unbounded v.x) (hy : Unbounded v.y) (hz : Unbounded v.z) :
    v.norm = .pinf ∨ v.norm = .nan := by
  unfold Vec3.norm Vec3.dot
  rw [XR.transc_sqrt]
  rcases sq_unbounded hx with h1 | h1 <;> rcases sq_unbounded hy with h2 | h2 <;>
    rcases sq_unbounded hz with h3 | h3 <;> rw [h1, h2, h3]
  all_goals first
    | exact Or.inl rfl
    | exact Or.inr rfl

theorem eval_infinite (σ : ℝ) : ZeroNan ((NormalLikelihood.make (.fin σ)).eval .pinf) := by
  by_cases h : σ = 0
  · rw [h, C141_density]; exact Or.inr rfl
  have ha : ∃ a : ℝ, (NormalLikelihood.make (XR.fin σ)).a = XR.fin a := by
    have hp : 0 < 2 * Real.pi * σ * σ := by
      have := mul_self_pos.2 h
      have := Real.pi_pos
      rw [show 2 * Real.pi * σ * σ = 2 * Real.pi * (σ * σ) by ring]
      positivity
    refine ⟨1 / Real.sqrt (2 * Real.pi * σ * σ), ?_⟩
    change XR.fin 1 / XR.sqrt (XR.fin ((2 : ℕ) : ℝ) * XR.fin Real.pi * XR.fin σ * XR.fin σ) = _
    simp only [XR.fin_mul, Nat.cast_ofNat]
    rw [XR.sqrt_fin _ hp.le, XR.fin_div _ _ (Real.sqrt_ne_zero'.2 hp)]
  obtain ⟨a, ha⟩ := ha
  have hs : (NormalLikelihood.make (XR.fin σ)).sq2 = XR.fin (σ * σ * 2) := by
    change XR.fin σ * XR.fin σ * XR.fin ((2 : ℕ) : ℝ) = _
    simp only [XR.fin_mul, Nat.cast_ofNat]
  left
  unfold NormalLikelihood.eval
  rw [ha, hs]
  have h3 : (-XR.pinf * XR.pinf : XR) / XR.fin (σ * σ * 2) = .ninf := by
    change XR.div XR.ninf (XR.fin _) = _
    have : ¬ σ * σ * 2 < 0 := by nlinarith [mul_self_nonneg σ]
    simp only [XR.div, if_neg this]
  rw [h3]
  change XR.fin a * XR.fin 0 = _
  rw [XR.fin_mul, mul_zero]

theorem eval_nan (σ : XR) : (NormalLikelihood.make σ).eval .nan = .nan := by
  unfold NormalLikelihood.eval
  rw [show (-XR.nan : XR) = XR.nan from rfl, XR.nan_mul, XR.nan_div]
  exact XR.mul_nan _

/-- C141: with `odom_err_integ_lin_tc = 0` the first odometry step makes the accumulated error of every particle
infinite or NaN in each component, whatever it was before and even if no time passed, and the measurement of
clouds that follows changes no weight and no entropy. -/
theorem C141_time_constant (m : Motion XR) (dt : ℝ) (h0 : m.linTc = .fin 0) (ht : m.timeDiff = .fin dt)
    (f : Filter (State6 XR) XR) (log : XR → XR) (score : State6 XR → ℝ) (σ : ℝ)
    (hw : ∀ p ∈ f.particles, ∃ w : ℝ, p.prob = .fin w) :
    (∀ p ∈ (f.predict m.predict).particles, Unbounded p.state.integLin.x ∧ Unbounded p.state.integLin.y ∧
      Unbounded p.state.integLin.z) ∧
    (f.predict m.predict).measure log
      (fun s => .fin (score s) * (NormalLikelihood.make (.fin σ)).eval s.integLin.norm) = f.predict m.predict := by
  have hf : Unbounded (1 - m.timeDiff / m.linTc) := by rw [h0, ht]; exact factor_unbounded dt
  have h1 : ∀ p ∈ (f.predict m.predict).particles, Unbounded p.state.integLin.x ∧ Unbounded p.state.integLin.y ∧
      Unbounded p.state.integLin.z := by
    intro p hp
    obtain ⟨q, _, rfl⟩ := List.mem_map.1 hp
    exact ⟨mul_unbounded _ hf, mul_unbounded _ hf, mul_unbounded _ hf⟩
  refine ⟨h1, measure_zeroNan _ _ _ fun p hp => ?_⟩
  obtain ⟨a, b, c⟩ := h1 p hp
  have hz : ZeroNan ((NormalLikelihood.make (XR.fin σ)).eval p.state.integLin.norm) := by
    rcases norm_unbounded a b c with h | h <;> rw [h]
    · exact eval_infinite σ
    · exact Or.inr (eval_nan _)
  obtain ⟨q, hq, rfl⟩ := List.mem_map.1 hp
  obtain ⟨w, hw⟩ := hw q hq
  show ZeroNan (q.prob * _)
  rw [hw]
  exact (hz.fin_mul _).fin_mul _

/-! ## C142 -/

/-- A finite number that is not negative. -/
def FinNonneg (x : XR) : Prop := ∃ r : ℝ, 0 ≤ r ∧ x = .fin r

theorem FinNonneg.add_cases {x y : XR} (hx : FinNonneg x ∨ x = .pinf) (hy : FinNonneg y ∨ y = .pinf) :
    (FinNonneg (x + y) ∨ x + y = .pinf) ∧ (x = .pinf ∨ y = .pinf → x + y = .pinf) := by
  rcases hx with ⟨a, ha, rfl⟩ | rfl <;> rcases hy with ⟨b, hb, rfl⟩ | rfl
  · exact ⟨Or.inl ⟨a + b, add_nonneg ha hb, rfl⟩, fun h => by rcases h with h | h <;> cases h⟩
  · exact ⟨Or.inr rfl, fun _ => rfl⟩
  · exact ⟨Or.inr rfl, fun _ => rfl⟩
  · exact ⟨Or.inr rfl, fun _ => rfl⟩

theorem total_pinf (ps : List (Particle S XR)) (h : ∀ p ∈ ps, FinNonneg p.prob ∨ p.prob = .pinf)
    (he : ∃ p ∈ ps, p.prob = .pinf) : total ps = .pinf := by
  unfold total
  suffices hs : ∀ (a : XR), (FinNonneg a ∨ a = .pinf) → (a = .pinf ∨ ∃ p ∈ ps, p.prob = .pinf) →
      ps.foldl (fun a p => a + p.prob) a = .pinf from hs 0 (Or.inl ⟨0, le_rfl, rfl⟩) (Or.inr he)
  clear he
  induction ps with
  | nil => intro a _ h; rcases h with h | ⟨p, hp, _⟩; exact h; cases hp
  | cons p ps ih =>
    intro a ha hor
    obtain ⟨h1, h2⟩ := FinNonneg.add_cases ha (h p List.mem_cons_self)
    refine ih (fun q hq => h q (List.mem_cons_of_mem _ hq)) _ h1 ?_
    rcases hor with rfl | ⟨q, hq, hqi⟩
    · exact Or.inl (h2 (Or.inl rfl))
    · rcases List.mem_cons.1 hq with rfl | hq
      · exact Or.inl (h2 (Or.inr hqi))
      · exact Or.inr ⟨q, hq, hqi⟩

/-- What an infinite total leaves of a weight: 0 of a finite product, NaN of an infinite one. -/
noncomputable def afterInfinity : XR → XR
  | .fin _ => .fin 0
  | _ => .nan

theorem product_cases {w : ℝ} (hw : 0 < w) {l : XR} (hl : FinNonneg l ∨ l = .pinf) :
    (FinNonneg (.fin w * l) ∨ .fin w * l = .pinf) ∧ (l = .pinf → .fin w * l = .pinf) ∧
      .fin w * l / .pinf = afterInfinity l := by
  rcases hl with ⟨a, ha, rfl⟩ | rfl
  · exact ⟨Or.inl ⟨w * a, mul_nonneg hw.le ha, rfl⟩, fun h => by (cases h), rfl⟩
  · have : XR.fin w * XR.pinf = XR.pinf := by
      change XR.signInf true w = _
      simp [XR.signInf, hw, hw.ne']
    rw [this]
    exact ⟨Or.inr rfl, fun _ => rfl, rfl⟩

/-- C142: if all weights are positive and the likelihood of at least one particle is infinite (none NaN), the
measurement is accepted, sets the weight of every particle of finite likelihood to 0 and that of every other to
NaN, and the entropy to 0. -/
theorem C142_measure (log : XR → XR) (f : Filter S XR) (lik : S → XR)
    (hw : ∀ p ∈ f.particles, ∃ w : ℝ, 0 < w ∧ p.prob = .fin w)
    (hl : ∀ p ∈ f.particles, FinNonneg (lik p.state) ∨ lik p.state = .pinf)
    (he : ∃ p ∈ f.particles, lik p.state = .pinf) :
    f.measure log lik = ⟨f.particles.map fun p => { p with prob := afterInfinity (lik p.state) }, some (.fin 0)⟩ := by
  have htot : total (weigh lik f.particles) = .pinf := by
    refine total_pinf _ ?_ ?_
    · intro q hq
      obtain ⟨p, hp, rfl⟩ := List.mem_map.1 hq
      obtain ⟨w, hw0, hw⟩ := hw p hp
      show FinNonneg (p.prob * _) ∨ p.prob * _ = _
      rw [hw]
      exact (product_cases hw0 (hl p hp)).1
    · obtain ⟨p, hp, hpi⟩ := he
      refine ⟨_, List.mem_map_of_mem hp, ?_⟩
      obtain ⟨w, hw0, hw⟩ := hw p hp
      show p.prob * _ = _
      rw [hw]
      exact (product_cases hw0 (hl p hp)).2.1 hpi
  unfold Filter.measure
  have hpos : (0 : XR) < XR.pinf := trivial
  have hps : (weigh lik f.particles).map (fun p => { p with prob := p.prob / XR.pinf }) =
      f.particles.map fun p => { p with prob := afterInfinity (lik p.state) } := by
    unfold weigh
    rw [List.map_map]
    refine List.map_congr_left fun p hp => ?_
    obtain ⟨w, hw0, hw⟩ := hw p hp
    simp only [Function.comp, hw, (product_cases hw0 (hl p hp)).2.2]
  simp only [htot, if_pos hpos, hps]
  congr 2
  unfold entropyOf
  have hfold : ∀ (ps : List (Particle S XR)) (e : XR), (∀ p ∈ ps, ZeroNan p.prob) →
      ps.foldl (fun e p => if 0 < p.prob then e + p.prob * log p.prob else e) e = e := by
    intro ps
    induction ps with
    | nil => intro e _; rfl
    | cons p ps ih =>
      intro e h
      rw [List.foldl_cons, if_neg (h p List.mem_cons_self).not_pos]
      exact ih e fun q hq => h q (List.mem_cons_of_mem _ hq)
  rw [hfold]
  · show XR.fin 0 * -(XR.fin 1) = _
    rw [XR.fin_neg, XR.fin_mul, zero_mul]
  · intro q hq
    obtain ⟨p, _, rfl⟩ := List.mem_map.1 hq
    show ZeroNan (afterInfinity _)
    cases lik p.state
    · exact Or.inl rfl
    all_goals exact Or.inr rfl

/-- A NaN key is never less than anything: the search for it stops where it starts. -/
theorem lowerBound_nan (dup : List (Particle S XR)) (it : ℕ) : lowerBound dup it XR.nan = it := by
  unfold lowerBound
  have : (dup.drop it).takeWhile (fun p => decide (p.accum < XR.nan)) = [] := by
    cases dup.drop it with
    | nil => rfl
    | cons p ps => rw [List.takeWhile_cons, if_neg (by simp)]
  rw [this]
  rfl

theorem resampleLoop_nan [StateOps S] (d : Particle S XR) (dup : List (Particle S XR)) (initialP prob : XR)
    (noise : ℕ → S) : ∀ (ps : List (Particle S XR)) (i : ℕ),
    resampleLoop (d :: dup) XR.nan initialP prob noise ps i 0 0 =
      .ok (ps.mapIdx fun k p => { p with state := StateOps.normalize (StateOps.add d.state (noise (i + k))), prob := prob }) := by
  intro ps
  induction ps with
  | nil => intro i; rfl
  | cons p ps ih =>
    intro i
    rw [resampleLoop]
    simp only [XR.nan_mul, XR.nan_add, lowerBound_nan]
    rw [if_neg (by simp), if_pos trivial, ih]
    show Outcome.ok _ = _
    rw [List.mapIdx_cons]
    simp only [Nat.add_zero, Nat.add_assoc, Nat.add_comm 1]

theorem total_nan (ps : List (Particle S XR)) (he : ∃ p ∈ ps, p.prob = .nan) : total ps = .nan := by
  unfold total
  suffices hs : ∀ (a : XR), (a = .nan ∨ ∃ p ∈ ps, p.prob = .nan) →
      ps.foldl (fun a p => a + p.prob) a = .nan from hs 0 (Or.inr he)
  clear he
  induction ps with
  | nil => intro a h; rcases h with h | ⟨p, hp, _⟩; exact h; cases hp
  | cons p ps ih =>
    intro a hor
    refine ih _ ?_
    rcases hor with rfl | ⟨q, hq, hqi⟩
    · exact Or.inl (XR.nan_add _)
    · rcases List.mem_cons.1 hq with rfl | hq
      · left; show a + q.prob = _; rw [hqi, XR.add_nan]
      · exact Or.inr ⟨q, hq, hqi⟩

/-- C142: once a weight is NaN, resampling replaces every particle by a noisy copy of one and the same particle,
with equal weights; which one depends only on the sort. -/
theorem C142_resample [StateOps S] (f : Filter S XR) (hn : ∃ p ∈ f.particles, p.prob = .nan)
    (dup : List (Particle S XR)) (hd : IsSorted (accumulate 0 f.particles) dup) (initialP : XR) (noise : ℕ → S) :
    ∃ d ∈ f.particles, ∃ f' : Filter S XR, f.resample dup initialP noise = .ok f' ∧ f'.entropy = f.entropy ∧
      f'.particles.map Particle.state =
        (List.range f.particles.length).map (fun i => StateOps.normalize (StateOps.add d.state (noise i))) ∧
      ∀ p ∈ f'.particles, p.prob = .fin (1 / (f.particles.length : ℝ)) := by
  have hacc : ∀ (ps : List (Particle S XR)) (a : XR), (accumulate a ps).length = ps.length ∧
      ∀ q ∈ accumulate a ps, ∃ p ∈ ps, p.state = q.state := by
    intro ps
    induction ps with
    | nil => intro a; exact ⟨rfl, fun q hq => by (cases hq)⟩
    | cons p ps ih =>
      intro a
      refine ⟨by simp [accumulate, (ih _).1], ?_⟩
      intro q hq
      rcases List.mem_cons.1 hq with rfl | hq
      · exact ⟨p, List.mem_cons_self, rfl⟩
      · obtain ⟨r, hr, e⟩ := (ih _).2 q hq
        exact ⟨r, List.mem_cons_of_mem _ hr, e⟩
  have hpos : 0 < f.particles.length := by
    obtain ⟨p, hp, _⟩ := hn
    exact List.length_pos_of_mem hp
  cases dup with
  | nil =>
    have := hd.1.length_eq
    rw [(hacc _ _).1] at this
    simp at this
    omega
  | cons d dup =>
    obtain ⟨p, hp, hps⟩ := (hacc _ _).2 d (hd.1.mem_iff.1 List.mem_cons_self)
    refine ⟨p, hp, ?_⟩
    unfold Filter.resample
    simp only [total_nan _ hn, XR.nan_div]
    rw [resampleLoop_nan]
    refine ⟨_, rfl, rfl, ?_, ?_⟩
    · show List.map _ (List.mapIdx _ _) = _
      apply List.ext_getElem
      · simp [(hacc _ _).1]
      · intro i h1 h2
        simp [hps]
    · intro q hq
      change q ∈ List.mapIdx _ _ at hq
      obtain ⟨i, hi, rfl⟩ := List.mem_mapIdx.1 hq
      show (1 : XR) / ((accumulate 0 f.particles).length : XR) = _
      rw [(hacc _ _).1, XR.one_def, XR.natCast_def, XR.fin_div _ _ (by exact_mod_cast hpos.ne')]

/-- C142: with one NaN among the likelihoods the measurement is dropped instead. -/
theorem C142_nan (log : XR → XR) (f : Filter S XR) (lik : S → XR)
    (h : ∃ p ∈ f.particles, lik p.state = .nan) : f.measure log lik = f := by
  have : total (weigh lik f.particles) = .nan := by
    refine total_nan _ ?_
    obtain ⟨p, hp, hn⟩ := h
    exact ⟨_, List.mem_map_of_mem hp, by show p.prob * _ = _; rw [hn, XR.mul_nan]⟩
  unfold Filter.measure
  have hlt : ¬ (0 : XR) < total (weigh lik f.particles) := by rw [this]; exact XR.not_lt_nan _
  simp only [if_neg hlt]

/-! ## The hypotheses are met -/

/-- Two particles of weight 1/2, one of infinite likelihood. -/
noncomputable def twoParticles : Filter ℕ XR := ⟨[⟨0, .fin (1 / 2), 0, 0⟩, ⟨1, .fin (1 / 2), 0, 0⟩], none⟩

example (log : XR → XR) : (twoParticles.measure log fun s => if s = 0 then .pinf else .fin 3) =
    ⟨[⟨0, .nan, 0, 0⟩, ⟨1, .fin 0, 0, 0⟩], some (.fin 0)⟩ := by
  rw [C142_measure]
  · simp [twoParticles, afterInfinity]
  · intro p hp
    refine ⟨1 / 2, by norm_num, ?_⟩
    simp only [twoParticles, List.mem_cons, List.not_mem_nil, or_false] at hp
    rcases hp with rfl | rfl <;> rfl
  · intro p hp
    simp only [twoParticles, List.mem_cons, List.not_mem_nil, or_false] at hp
    rcases hp with rfl | rfl
    · exact Or.inr rfl
    · exact Or.inl ⟨3, by norm_num, rfl⟩
  · exact ⟨_, List.mem_cons_self, rfl⟩

/-- A sort exists for the filter this leaves, whose first weight is NaN. -/
example : IsSorted (accumulate 0 [(⟨0, .nan, 0, 0⟩ : Particle ℕ XR), ⟨1, .fin 0, 0, 0⟩])
    (accumulate 0 [(⟨0, .nan, 0, 0⟩ : Particle ℕ XR), ⟨1, .fin 0, 0, 0⟩]) := by
  refine ⟨List.Perm.refl _, ?_⟩
  simp [accumulate]

/-- A motion model with the time constants 0, half a second after the last odometry. -/
example : ∃ m : Motion XR, m.linTc = .fin 0 ∧ m.timeDiff = .fin (1 / 2) :=
  ⟨⟨.fin 0, .fin 0, ⟨0, 0, 0⟩, ⟨0, 0, 0, 1⟩, 0, 0, .fin (1 / 2)⟩, rfl, rfl⟩

end NonFinite
end Mcl3dl
