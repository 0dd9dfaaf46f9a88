import Verif.Props.NoiseLaw
import Verif.Proofs.MeanLaw
import Verif.Spec.MeanLaw

/-!
# C168: the average of the particles

The average of `N` independent normally distributed particles is normally distributed with the same mean and the
variance divided by `N`.
-/

set_option linter.unusedSectionVars false

namespace Mcl3dl
namespace Node

open MeasureTheory ProbabilityTheory

variable {C : Type}

theorem averagePos_eq {N : ℕ} {ps : List Particle} (hl : ps.length = N) {g : ℕ → Fin 6 → ℝ}
    (h : ∀ k p, ps[k]? = some p → poseOf p = poseAt (g k)) (i : Fin 3) :
    averagePos ps i = (∑ k : Fin N, g k (Fin.castLE (by omega) i)) / N := by
  have hm : ps.map (fun p => p.state.pos.get i) = (List.range N).map fun k => g k (Fin.castLE (by omega) i) := by
    apply List.ext_getElem
    · simp [hl]
    · intro k h1 h2
      have hk : k < ps.length := by simpa using h1
      have := h k ps[k] (List.getElem?_eq_getElem hk)
      have hp : ps[k].state.pos = (poseAt (g k)).1 := congrArg Prod.fst this
      simp only [List.getElem_map, List.getElem_range, hp]
      fin_cases i <;> rfl
  rw [averagePos, hm, hl]
  congr 1
  rw [← Finset.sum_range (fun k => g k (Fin.castLE (by omega) i))]
  clear hl hm
  induction N with
  | zero => rfl
  | succ N ih => rw [List.range_succ, List.map_append, List.sum_append, Finset.sum_range_succ, ih]; simp

theorem start_poses {P : Params} (lib : Lib C) (env : Env) (motion0 : Motion ℝ) (hN : 0 ≤ P.numParticles) (ω : ℕ → ℝ) :
    ∃ n, start P lib (env.withNormal 0 ω) motion0 = .ok n ∧ n.loc.pf.particles.length = P.numParticles.toNat ∧
      ∀ k p, n.loc.pf.particles[k]? = some p → poseOf p = poseAt fun i : Fin 6 => P.initialPose.meanVec.getD i 0 +
        sigmas P.initialPoseStd i * ω (idxOf P.initialPoseStd k i) := by
  have hns : (env.withNormal 0 ω).noiseStates 0 P.initialPose P.initialPoseStd P.numParticles.toNat = _ := noiseStates_explicit _ _ _ _ _
  obtain ⟨n, hn⟩ := start_total P lib (env.withNormal 0 ω) motion0 hN
  refine ⟨n, hn, ?_⟩
  obtain ⟨_, ns, hns', rfl⟩ := start_ok hn
  rw [hns, Outcome.ok.injEq] at hns'
  subst hns'
  refine ⟨by simp [PF.Filter.init, PF.Filter.new], ?_⟩
  intro k p hp
  simp only [PF.Filter.init, PF.Filter.new, List.getElem?_mapIdx, Option.map_eq_some_iff] at hp
  obtain ⟨q, hq, rfl⟩ := hp
  have hlt : k < P.numParticles.toNat := by
    have := (List.getElem?_eq_some_iff.1 hq).1
    simpa using this
  simp only [poseOf, pickNoise, List.getD, List.getElem?_map, List.getElem?_range hlt, Option.map_some, Option.getD_some]
  have : ∀ k, noiseComp (env.withNormal 0 ω) 0 P.initialPose P.initialPoseStd (idxOf P.initialPoseStd k) =
      fun i : Fin 6 => P.initialPose.meanVec.getD i 0 + sigmas P.initialPoseStd i * ω (idxOf P.initialPoseStd k i) := by
    intro k; funext i
    rw [noiseComp, withNormal_normal]
  rw [this]
  rfl

/-- **C168**: at the start the average of the particles is normally distributed about the configured position, with the
configured standard deviation divided by the square root of the number of particles. -/
theorem C168_start_mean {P : Params} {lib : Lib C} {env : Env} {motion0 : Motion ℝ} (hN : 0 < P.numParticles) (i : Fin 3)
    {A : Set ℝ} (hA : MeasurableSet A) :
    normalStream.real {ω | ∃ n, start P lib (env.withNormal 0 ω) motion0 = .ok n ∧ averagePos n.loc.pf.particles i ∈ A} =
      (gaussianReal (P.initialPose.pos.get i)
        (Real.toNNReal (P.initialPoseStd.pos.get i ^ 2 / P.numParticles))).real A := by
  set N := P.numParticles.toNat with hNdef
  have hN' : (N : ℝ) = P.numParticles := by
    have : ((N : ℕ) : ℤ) = P.numParticles := Int.toNat_of_nonneg hN.le
    exact_mod_cast congrArg (fun z : ℤ => (z : ℝ)) this
  have hNpos : (0 : ℝ) < N := by rw [hN']; exact_mod_cast hN
  set j : Fin 6 := Fin.castLE (by omega) i with hj
  have hσ : sigmas P.initialPoseStd j = P.initialPoseStd.pos.get i := by rw [hj]; fin_cases i <;> rfl
  have hm : P.initialPose.meanVec.getD j 0 = P.initialPose.pos.get i := by rw [hj]; fin_cases i <;> rfl
  have hset : {ω | ∃ n, start P lib (env.withNormal 0 ω) motion0 = .ok n ∧ averagePos n.loc.pf.particles i ∈ A} =
      (fun ω : ℕ → ℝ => P.initialPose.pos.get i + ∑ k : Fin N, P.initialPoseStd.pos.get i / N * ω (idxOf P.initialPoseStd k j)) ⁻¹' A := by
    ext ω
    obtain ⟨n, hn, hl, hp⟩ := start_poses lib env motion0 hN.le ω
    have hav : averagePos n.loc.pf.particles i = P.initialPose.pos.get i +
        ∑ k : Fin N, P.initialPoseStd.pos.get i / N * ω (idxOf P.initialPoseStd k j) := by
      rw [averagePos_eq hl hp i]
      simp only [← hj, hσ, hm]
      rw [Finset.sum_add_distrib, Finset.sum_const, Finset.card_univ, Fintype.card_fin, nsmul_eq_mul, add_div,
        mul_div_cancel_left₀ _ hNpos.ne', Finset.sum_div]
      congr 1
      exact Finset.sum_congr rfl fun k _ => by ring
    simp only [Set.mem_ofPred_eq, Set.mem_preimage, ← hav]
    constructor
    · rintro ⟨n', hn', h⟩
      rw [hn, Outcome.ok.injEq] at hn'
      rwa [← hn'] at h
    · exact fun h => ⟨n, hn, h⟩
  rw [hset, ← map_measureReal_apply (by fun_prop) hA]
  congr 1
  by_cases h0 : P.initialPoseStd.pos.get i = 0
  · simp only [h0, zero_div, zero_mul, Finset.sum_const_zero, add_zero, Measure.map_const, measure_univ, one_smul]
    simp
  · have hinj : Function.Injective fun k : Fin N => idxOf P.initialPoseStd k j := by
      intro k k' h
      exact Fin.ext (idxOf_fresh P.initialPoseStd k j k' j (hσ ▸ h0) (hσ ▸ h0) h).1
    rw [linear_law hinj (P.initialPose.pos.get i) (fun _ => P.initialPoseStd.pos.get i / N)
      (v := P.initialPoseStd.pos.get i ^ 2 / P.numParticles) (by
        rw [Finset.sum_const, Finset.card_univ, Fintype.card_fin, nsmul_eq_mul, ← hN']; field_simp)]
    congr 1
    ext
    rw [Real.coe_toNNReal _ (by rw [← hN']; positivity)]
    rfl

/-- **C168**: after an accepted initial pose the average of the particles is normally distributed about the position in
the map frame, with the variance of the message divided by the number of particles. -/
theorem C168_initialpose_mean {P : Params} {lib : Lib C} {env : Env} (n : Node C) (hne : n.loc.pf.particles ≠ []) {msg : PoseMsg}
    (hrot : |msg.rot.dot msg.rot - 1| ≤ 1 / 10) {t : Tf} (ht : env.tf P.mapFrame msg.frame msg.stamp = some t)
    (hsolve : ∀ A, MultiNoise.Solved A (lib.solve6 A).1 (lib.solve6 A).2)
    {S : Matrix (Fin 6) (Fin 6) ℝ} (hS : ∀ i j : Fin 6, S i j = msg.cov ⟨6 * i + j, by omega⟩) (hpsd : S.PosSemidef)
    (i : Fin 3) {B : Set ℝ} (hB : MeasurableSet B) :
    normalStream.real {ω | ∃ n' o, step P lib (env.withNormal 0 ω) n (.initialpose msg) = .ok (n', o) ∧
        averagePos n'.loc.pf.particles i ∈ B} =
      (gaussianReal ((t.point msg.pos).get i)
        (Real.toNNReal (msg.cov ⟨7 * i, by omega⟩ / n.loc.pf.particles.length))).real B := by
  set cov : ℕ → ℝ := fun i => if h : i < 36 then msg.cov ⟨i, h⟩ else 0 with hcov
  set A : Fin 6 → Fin 6 → ℝ := MultiNoise.covMatrix cov with hA
  have hAS : ∀ i j, A i j = S i j := by
    intro i j
    have h1 : (j : ℕ) + i * 6 < 36 := by omega
    rw [hS, hA]
    simp only [MultiNoise.covMatrix, hcov, h1, dif_pos]
    congr 2
    omega
  set T : Matrix (Fin 6) (Fin 6) ℝ := MultiNoise.normTransform (lib.solve6 A).1 (lib.solve6 A).2 with hT
  have hlow : ∀ i j, MultiNoise.lowerSym A i j = S i j := by
    intro i j
    simp only [MultiNoise.lowerSym, hAS]
    split_ifs
    · rfl
    · have := hpsd.1.apply i j
      simpa using this
  have hTS : ∀ i j, ∑ l, T i l * T j l = S i j := by
    intro i j
    rw [hT, ← hlow]
    refine MultiNoise.transform_sq (hsolve A) (MultiNoise.vals_nonneg (hsolve A) fun u => ?_) i j
    simp only [hlow]
    have := hpsd.dotProduct_mulVec_nonneg u
    simp only [dotProduct, Matrix.mulVec, star_trivial, Finset.mul_sum] at this
    simpa only [mul_assoc] using this
  set N := n.loc.pf.particles.length with hN
  have hNpos : (0 : ℝ) < N := by
    rw [hN]; exact_mod_cast List.length_pos_iff.2 hne
  set j : Fin 6 := Fin.castLE (by omega) i with hj
  have hm : poseVec t msg j = (t.point msg.pos).get i := by rw [hj]; fin_cases i <;> rfl
  have hSj : S j j = msg.cov ⟨7 * i, by omega⟩ := by
    rw [hS]; congr 2; rw [hj]; simp only [Fin.val_castLE]; omega
  have hset : {ω | ∃ n' o, step P lib (env.withNormal 0 ω) n (.initialpose msg) = .ok (n', o) ∧
        averagePos n'.loc.pf.particles i ∈ B} =
      (fun ω : ℕ → ℝ => (t.point msg.pos).get i + ∑ p : Fin N × Fin 6, T j p.2 / N * ω (6 * p.1 + p.2)) ⁻¹' B := by
    ext ω
    simp only [Set.mem_ofPred_eq, Set.mem_preimage]
    obtain ⟨ss, e', hg, hl⟩ := multiNoise_total ((env.withNormal 0 ω).gauss 0 0 1) lib.solve6
      (State6.ofQuat (t.point msg.pos) (t.rot * msg.rot)) cov n.loc.pf.particles.length 0
    have hd := (drawn _ _ _ _ _ _ hg).2
    have hst : ∃ o, step P lib (env.withNormal 0 ω) n (.initialpose msg) = .ok ({ n with
        map := { n.map with update := none }, loc := { n.loc with pf := (n.loc.pf.init (pickNoise ss)).predict resetInteg } }, o) := by
      rw [step]
      unfold cbPosition
      have ht' : (env.withNormal 0 ω).tf P.mapFrame msg.frame msg.stamp = some t := ht
      rw [if_neg (not_lt.2 hrot), ht']
      simp only [← hcov, hg, Outcome.bind_ok]
      exact ⟨_, rfl⟩
    obtain ⟨o, hst⟩ := hst
    have hposes : ∀ k p, ((n.loc.pf.init (pickNoise ss)).predict resetInteg).particles[k]? = some p →
        poseOf p = poseAt fun i => poseVec t msg i + ∑ l : Fin 6, T i l * ω (6 * k + l) := by
      intro k p hp
      simp only [PF.Filter.predict, PF.Filter.init, List.getElem?_map, List.getElem?_mapIdx, Option.map_map,
        Option.map_eq_some_iff] at hp
      obtain ⟨q, hq, rfl⟩ := hp
      have hk : k < ss.length := by
        have := (List.getElem?_eq_some_iff.1 hq).1
        omega
      obtain ⟨x, hx, hp1, hp2⟩ := hd k (pickNoise ss k) (by simp [pickNoise, List.getD, hk])
      have hx' : x = fun i => poseVec t msg i + ∑ j : Fin 6, T i j * ω (6 * k + j) := by
        rw [hx]
        funext i
        simp only [MultiNoise.noise, withNormal_normal, Nat.zero_add]
        rw [MultiNoise.matVec_eq]
        congr 1
        fin_cases i <;> rfl
      show (_, _) = _
      simp only [Function.comp, resetInteg, hp1, hp2, ← hx']
      rfl
    have hav : averagePos ((n.loc.pf.init (pickNoise ss)).predict resetInteg).particles i = (t.point msg.pos).get i +
        ∑ p : Fin N × Fin 6, T j p.2 / N * ω (6 * p.1 + p.2) := by
      rw [averagePos_eq (N := N) (by simp [PF.Filter.init, PF.Filter.predict, hN]) hposes i]
      simp only [← hj, hm]
      rw [Finset.sum_add_distrib, Finset.sum_const, Finset.card_univ, Fintype.card_fin, nsmul_eq_mul, add_div,
        mul_div_cancel_left₀ _ hNpos.ne', Finset.sum_div, Fintype.sum_prod_type]
      congr 1
      refine Finset.sum_congr rfl fun k _ => ?_
      rw [Finset.sum_div]
      exact Finset.sum_congr rfl fun l _ => by ring
    rw [← hav]
    constructor
    · rintro ⟨n', o', hn', h⟩
      rw [hst, Outcome.ok.injEq] at hn'
      cases hn'
      exact h
    · exact fun h => ⟨_, o, hst, h⟩
  rw [hset, ← map_measureReal_apply (by fun_prop) hB]
  congr 1
  have hinj : Function.Injective fun p : Fin N × Fin 6 => 6 * (p.1 : ℕ) + p.2 := by
    rintro ⟨k, i⟩ ⟨k', i'⟩ h
    simp only at h
    refine Prod.ext (Fin.ext ?_) (Fin.ext ?_) <;> simp only <;> omega
  have hv : msg.cov ⟨7 * i, by omega⟩ / N = ∑ p : Fin N × Fin 6, (T j p.2 / N) ^ 2 := by
    rw [Fintype.sum_prod_type]
    simp only [Finset.sum_const, Finset.card_univ, Fintype.card_fin, nsmul_eq_mul]
    rw [← hSj, ← hTS j j]
    simp only [div_pow, ← Finset.sum_div]
    field_simp
  rw [linear_law hinj ((t.point msg.pos).get i) (fun p => T j p.2 / N) hv]
  congr 1
  ext
  rw [Real.coe_toNNReal _ (by rw [hv]; positivity)]
  rfl

/-- With the default parameters (64 particles, standard deviation 2) the average starts with a standard deviation of
1/4 about the origin. -/
example {A : Set ℝ} (hA : MeasurableSet A) :
    normalStream.real {ω | ∃ n, start Demo.P0 Demo.lib ((Demo.env 0).withNormal 0 ω) Demo.motion0 = .ok n ∧
      averagePos n.loc.pf.particles 0 ∈ A} = (gaussianReal 0 (1 / 16)).real A := by
  rw [C168_start_mean (by simp) 0 hA]
  have h1 : Demo.P0.initialPose.pos.get (0 : Fin 3) = 0 := by
    norm_num [Demo.P0, Params.loadFrom, Server.dblD, Server.getDouble, State6.ofQuat, Vec3.get]
  have h2 : Demo.P0.initialPoseStd.pos.get (0 : Fin 3) = 2 := by
    norm_num [Demo.P0, Params.loadFrom, Server.dblD, Server.getDouble, State6.ofRPY, Vec3.get]
  have h3 : Demo.P0.numParticles = 64 := by norm_num [Demo.P0, Params.loadFrom, Server.intD, Server.getInt]
  have h4 : Real.toNNReal ((2 : ℝ) ^ 2 / ((64 : ℤ) : ℝ)) = 1 / 16 := by
    ext
    rw [Real.coe_toNNReal _ (by norm_num)]
    norm_num
  rw [h1, h2, h3, h4]

/-- After an initial pose at (1, 2, 3) with variances 1 the average of 64 particles has an x coordinate that is normally
distributed about 1 with a variance of 1/64. -/
example {I : Set ℝ} (hI : MeasurableSet I) : ∃ (lib : Lib Unit) (n : Node Unit), n.loc.pf.particles.length = 64 ∧
    normalStream.real {ω | ∃ n' o, step Demo.P0 lib ((Demo.env 1).withNormal 0 ω) n
        (.initialpose ⟨1, "map", ⟨1, 2, 3⟩, 1, fun i => if (i : ℕ) % 7 = 0 then 1 else 0⟩) = .ok (n', o) ∧
      averagePos n'.loc.pf.particles 0 ∈ I} = (gaussianReal 1 (1 / 64)).real I := by
  choose vals vecs hs using MultiNoise.solved_exists (n := 6)
  let lib : Lib Unit := { Demo.lib with solve6 := fun A => (vals A, vecs A) }
  obtain ⟨n, hn⟩ := start_total Demo.P0 lib (Demo.env 0) Demo.motion0 (by simp)
  have hl : n.loc.pf.particles.length = 64 := by
    obtain ⟨_, ns, _, rfl⟩ := start_ok hn
    simp [PF.Filter.init, PF.Filter.new]
  refine ⟨lib, n, hl, ?_⟩
  rw [C168_initialpose_mean (P := Demo.P0) (lib := lib) (env := Demo.env 1) n (by rintro h; rw [h] at hl; simp at hl)
    (msg := ⟨1, "map", ⟨1, 2, 3⟩, 1, fun i => if (i : ℕ) % 7 = 0 then 1 else 0⟩) (by norm_num [Quat.dot]) (t := ⟨⟨0, 0, 0⟩, 1⟩) rfl hs
    (S := 1) (by
      intro i j
      rw [Matrix.one_apply]
      fin_cases i <;> fin_cases j <;> rfl) Matrix.PosSemidef.one 0 hI, hl]
  have hx : ((⟨⟨0, 0, 0⟩, 1⟩ : Tf).point ⟨1, 2, 3⟩).get (0 : Fin 3) = 1 := by
    show ((⟨0, 0, 0, 1⟩ : Quat ℝ).rotate ⟨1, 2, 3⟩ + (⟨0, 0, 0⟩ : Vec3 ℝ)).x = 1
    norm_num [Quat.rotate_x, Vec3.add_x]
  have h4 : Real.toNNReal ((1 : ℝ) / ((64 : ℕ) : ℝ)) = 1 / 64 := by
    ext
    rw [Real.coe_toNNReal _ (by norm_num)]
    norm_num
  show (gaussianReal (((⟨⟨0, 0, 0⟩, 1⟩ : Tf).point ⟨1, 2, 3⟩).get (0 : Fin 3)) (Real.toNNReal ((1 : ℝ) / ((64 : ℕ) : ℝ)))).real I = _
  rw [hx, h4]

end Node
end Mcl3dl
