import Verif.Spec.NodeServices
import Verif.Props.NodeMap
import Verif.Props.NodeSensors
import Verif.Proofs.NodeDemoExact
import Verif.Props.NodeBatch
import Verif.Props.MultiNoise
import Verif.Props.QuatAngles

/-! # C95, C96, C97: global localization and the initial pose -/

set_option linter.unusedSectionVars false

namespace Mcl3dl
namespace Node

variable {C : Type}

/-! ## The IMU's orientation -/

theorem imuCore_orient {P : Params} {env : Env} {n : Node C} {v : ImuView} (hi : ImuInv n.imu v) (m : ImuMsg)
    {q : Quat ℝ} (hq : n.imu.quat = q) :
    (imuCore P env n m).1.imu.quat = (imuOrientStep P (v.last, q) (m, env)).2 := by
  obtain ⟨h1, h2, h3⟩ := hi
  simp only [imuOrientStep]
  rcases hl : v.last with _ | l
  · rw [hl] at h1
    simp only [Option.isSome_none] at h1
    simp only [imuCore, h1, Bool.false_eq_true, if_false, useOf, hq]
  · rw [hl] at h1
    simp only [Option.isSome_some] at h1
    have h2l := h2 l hl
    simp only [imuCore, h1, if_true, h2l, useOf]
    by_cases hj : m.stamp < l ∨ l + 5 < m.stamp
    · have hj' : m.stamp - l < 0 ∨ 5 < m.stamp - l := by
        rcases hj with hj | hj
        · exact .inl (by linarith)
        · exact .inr (by linarith)
      simp only [if_pos hj, if_pos hj', hq]
    · have hj' : ¬ (m.stamp - l < 0 ∨ 5 < m.stamp - l) := by
        push _root_.Not at hj ⊢
        exact ⟨by linarith, by linarith⟩
      simp only [if_neg hj, if_neg hj']
      by_cases hu : l + 1 / 20 < m.stamp
      · have hu' : 1 / 20 < m.stamp - l := by linarith
        simp only [if_pos hu, if_pos hu']
        cases ht : env.tf P.baseFrame m.frame 0 with
        | none => exact hq
        | some t => rfl
      · have hu' : ¬ 1 / 20 < m.stamp - l := by linarith
        simp only [if_neg hu, if_neg hu', hq]

theorem run_orient {P : Params} (hf : P.fakeImu = false) {lib : Lib C} {h : History} {n n' : Node C}
    {outs : List (List Out)} {v : ImuView} (hi : ImuInv n.imu v) {q : Quat ℝ} (hq : n.imu.quat = q)
    (hr : run P lib n h = .ok (n', outs)) :
    n'.imu.quat = ((imuMsgs h).foldl (imuOrientStep P) (v.last, q)).2 := by
  induction h generalizing n outs v q with
  | nil =>
    simp only [run, Outcome.ok.injEq, Prod.mk.injEq] at hr
    rw [← hr.1]; exact hq
  | cons e h ih =>
    obtain ⟨ev, env⟩ := e
    obtain ⟨n1, o, os, h1, h2, _⟩ := run_cons_ok hr
    by_cases ho : ∃ m, ev = .imu m
    · obtain ⟨m, rfl⟩ := ho
      rw [imuMsgs_cons_imu, List.foldl_cons]
      have e1 := ((step_imu hf).2 m h1).1
      have h3 : ImuInv n1.imu (accStep P v (m, env)) := by rw [e1]; exact (imuCore_spec hi m).1
      exact ih h3 (by rw [e1]; exact imuCore_orient hi m hq) h2
    · push _root_.Not at ho
      rw [imuMsgs_cons_other ho]
      have e1 : n1.imu = n.imu := by
        by_cases him : ∃ m, ev = .odom m
        · obtain ⟨m, rfl⟩ := him
          exact (step_imu hf).1 m h1
        · push _root_.Not at him
          exact (step_odo h1 him ho).2.1
      exact ih (by rw [e1]; exact hi) (by rw [e1]; exact hq) h2

/-- The orientation the node uses is that of the last IMU message that was used. -/
theorem imu_orient {P : Params} (hf : P.fakeImu = false) {lib : Lib C} {env0 : Env} {motion0 : Motion ℝ}
    {n0 n : Node C} {h : History} {outs : List (List Out)} (hs : start P lib env0 motion0 = .ok n0)
    (hr : run P lib n0 h = .ok (n, outs)) : n.imu.quat = imuOrient P h := by
  obtain ⟨_, ns, _, rfl⟩ := start_ok hs
  exact run_orient (v := ⟨none, FiltVec3.new .lpf ⟨P.accLpfStep, P.accLpfStep, P.accLpfStep⟩ 0 false⟩) hf
    ⟨rfl, by simp, rfl⟩ rfl hr

/-! ## C95 -/

/-- What the loop over the particles does. -/
theorem place_spec {d : ℕ} {prob : ℝ} {imu : Quat ℝ} (ps : List Particle) (c : ℕ) (hc : c < d) (pts : List Point)
    {r : List Particle} (h : place d prob imu ps c pts = .ok r) :
    r.length = ps.length ∧ ∀ k < ps.length, ∃ pt p, pts[(k + c) / d]? = some pt ∧ r[k]? = some p ∧
      p.state = State6.ofQuat pt.pos
        (Quat.ofRPY ⟨0, 0, 2 * Real.pi * (((k + c) % d : ℕ) : ℝ) / (d : ℝ)⟩ * imu).normalized ∧
      p.prob = prob ∧ p.bias = 1 := by
  induction ps generalizing c pts r with
  | nil =>
    unfold place at h
    simp only [Outcome.ok.injEq] at h
    subst h
    simp
  | cons a ps ih =>
    cases pts with
    | nil => unfold place at h; simp at h
    | cons t ts =>
      unfold place at h
      obtain ⟨rest, h1, h2⟩ := Outcome.bind_eq_ok_iff.1 h
      simp only [Outcome.ok.injEq] at h2
      subst h2
      have hd : 0 < d := by omega
      have step : ∀ k < ps.length, ∃ pt p, (t :: ts)[(k + 1 + c) / d]? = some pt ∧ rest[k]? = some p ∧
          p.state = State6.ofQuat pt.pos
            (Quat.ofRPY ⟨0, 0, 2 * Real.pi * (((k + 1 + c) % d : ℕ) : ℝ) / (d : ℝ)⟩ * imu).normalized ∧
          p.prob = prob ∧ p.bias = 1 := by
        by_cases hlast : d ≤ c + 1
        · rw [if_pos (by exact_mod_cast hlast)] at h1
          obtain ⟨_, hk⟩ := ih 0 hd ts (by exact_mod_cast h1)
          intro k hk'
          obtain ⟨pt, p, e1, e2⟩ := hk k hk'
          have e : k + 1 + c = k + d := by omega
          rw [e, Nat.add_div_right _ hd, Nat.add_mod_right]
          exact ⟨pt, p, by simpa using e1, by simpa using e2⟩
        · rw [if_neg (by omega)] at h1
          obtain ⟨_, hk⟩ := ih (c + 1) (by omega) (t :: ts) h1
          intro k hk'
          obtain ⟨pt, p, e1, e2⟩ := hk k hk'
          rw [show k + (c + 1) = k + 1 + c by omega] at e1 e2
          exact ⟨pt, p, e1, e2⟩
      have hlen : rest.length = ps.length := by
        by_cases hlast : d ≤ c + 1
        · rw [if_pos (by exact_mod_cast hlast)] at h1
          exact (ih 0 hd ts (by exact_mod_cast h1)).1
        · rw [if_neg (by omega)] at h1
          exact (ih (c + 1) (by omega) (t :: ts) h1).1
      refine ⟨by simp [hlen], fun k hk => ?_⟩
      cases k with
      | zero =>
        refine ⟨t, _, ?_, rfl, ?_, rfl, rfl⟩
        · rw [Nat.zero_add, Nat.div_eq_of_lt hc]; rfl
        · simp only [Nat.zero_add, Nat.mod_eq_of_lt hc]
          push_cast
          rfl
      | succ k =>
        obtain ⟨pt, p, e1, e2⟩ := step k (by simpa using hk)
        exact ⟨pt, p, e1, by simpa using e2⟩

/-- With an exact kd-tree the particles are put on the places. -/
theorem standing_places {P : Params} {lib : Lib C} {w : Vec3 ℝ}
    (hfl : ∀ pts q r, ExactSearch pts (weightedDist w q) r 1 (lib.flann pts q r 1)) (env : Env) (pts : List Point) :
    standingPoints P lib env pts = places P env w pts := by
  classical
  unfold standingPoints places
  simp only
  generalize env.voxel ⟨P.globalGrid, P.globalGrid, P.globalGrid⟩ pts = grid
  refine List.filter_congr fun p _ => ?_
  have hx := hfl (grid.map Pt.pos) ⟨p.pos.x, p.pos.y, p.pos.z + (1 / 100 + P.globalGrid)⟩ P.globalGrid
  generalize lib.flann (grid.map Pt.pos) _ P.globalGrid 1 = res at hx
  rw [Bool.eq_iff_iff, List.isEmpty_iff, decide_eq_true_iff]
  constructor
  · rintro rfl q hq
    by_contra hlt
    push _root_.Not at hlt
    obtain ⟨i, hi⟩ := List.mem_iff_getElem?.1 hq
    rcases hx.complete i q.pos (by simp [hi]) hlt with h | ⟨_, h, _⟩
    · simp at h
    · simp at h
  · intro hcl
    cases res with
    | nil => rfl
    | cons e res =>
      obtain ⟨q, hq, _, hlt⟩ := hx.sound e List.mem_cons_self
      rw [List.getElem?_map] at hq
      cases hg : grid[e.1]? with
      | none => rw [hg] at hq; simp at hq
      | some q' =>
        rw [hg] at hq
        simp only [Option.map_some, Option.some.injEq] at hq
        subst hq
        exact absurd hlt (not_lt.2 (hcl q' (List.mem_of_getElem? hg)))

/-- C95: without a map the request fails and changes nothing. -/
theorem C95_no_map {P : Params} {lib : Lib C} {env0 : Env} {motion0 : Motion ℝ} {n0 n : Node C} {h : History}
    {outs : List (List Out)} (hs : start P lib env0 motion0 = .ok n0) (hr : run P lib n0 h = .ok (n, outs))
    (hno : (mapView P h).available = false) (env : Env) :
    step P lib env n .globalLocalization = .ok (n, [.response false]) := by
  have hi := (mapInv_of_run hs hr).1
  show cbGlobalLocalization P lib env n = _
  rw [cbGlobalLocalization, hi, hno]
  simp

/-- C95: with a map, whenever the request is answered, the answer is success; there are `div_yaw` particles
for each place, particle `k` at place `k / div_yaw`, turned by `2 pi (k mod div_yaw) / div_yaw` from the
orientation of the IMU; all have the same weight; nothing but the particles is changed. -/
theorem C95_grid {P : Params} (hd : 0 < P.divYaw) (hfi : P.fakeImu = false) {lib : Lib C} {w : Vec3 ℝ}
    (hfl : ∀ pts q r, ExactSearch pts (weightedDist w q) r 1 (lib.flann pts q r 1)) {env0 env : Env}
    {motion0 : Motion ℝ} {n0 n n' : Node C} {h : History} {outs : List (List Out)} {o : List Out} (hv : env.Valid)
    (hs : start P lib env0 motion0 = .ok n0) (hr : run P lib n0 h = .ok (n, outs))
    (hav : (mapView P h).available = true)
    (hst : step P lib env n .globalLocalization = .ok (n', o)) :
    o = [.response true] ∧
    n'.loc.pf.particles.length = (places P env w (mapView P h).active).length * P.divYaw.toNat ∧
    (∀ k < n'.loc.pf.particles.length, ∃ pt p,
      (places P env w (mapView P h).active)[k / P.divYaw.toNat]? = some pt ∧
      n'.loc.pf.particles[k]? = some p ∧
      p.state = State6.ofQuat pt.pos (Quat.ofRPY ⟨0, 0, 2 * Real.pi * ((k % P.divYaw.toNat : ℕ) : ℝ) / (P.divYaw : ℝ)⟩ *
        imuOrient P h).normalized ∧
      p.prob = 1 / ((places P env w (mapView P h).active).length : ℝ) ∧ p.bias = 1) ∧
    n' = { n with loc := { n.loc with pf := n'.loc.pf } } := by
  obtain ⟨d, hdd⟩ : ∃ d : ℕ, P.divYaw = d := ⟨P.divYaw.toNat, by omega⟩
  have hdt : P.divYaw.toNat = d := by omega
  obtain ⟨hm, _, _, hb⟩ := mapInv_of_run hs hr
  rcases cbGlobalLocalization_ok hst with ⟨hno, _⟩ | ⟨_, c, pf, ps, hc, hpf, hps, hn', ho⟩
  · rw [hm, hav] at hno; cases hno
  have hcp : c.points = (mapView P h).active := by
    rcases hb with ⟨_, _, _, ha, _⟩ | ⟨b, c', hb1, _, _, hb2, hb3⟩
    · rw [hav] at ha; cases ha
    · rw [hb1] at hc
      simp only [Option.bind_some] at hc
      rw [hb2] at hc
      simp only [Option.some.injEq] at hc
      rw [← hc]; exact hb3
  rw [hcp, standing_places hfl] at hpf hps
  rw [imu_orient hfi hs hr, hdd] at hps
  obtain ⟨hl1, hk⟩ := place_spec (d := d) pf.particles 0 (by omega) _ hps
  have hlen := (resizeFilter_spec hv hpf).2.1
  have hpe : n'.loc.pf.particles = ps := by rw [hn']
  refine ⟨ho, ?_, fun k hk' => ?_, by rw [hn']⟩
  · rw [hpe, hl1, hlen, hdd]
    generalize (places P env w (mapView P h).active).length = a
    rw [show ((a : ℤ) * (d : ℤ)) = ((a * d : ℕ) : ℤ) by push_cast; ring, Int.toNat_natCast, Int.toNat_natCast]
  · rw [hpe] at hk' ⊢
    obtain ⟨pt, p, e1, e2, e3, e4⟩ := hk k (by rw [← hl1]; exact hk')
    rw [hdt]
    refine ⟨pt, p, by simpa using e1, e2, ?_, e4⟩
    rw [e3, hdd]
    simp

/-- C95: a particle turned that way looks, up to the yaw, where the IMU says. -/
theorem C95_heading (q : Quat ℝ) (hq : q.dot q = 1) (t : ℝ) (v : Vec3 ℝ) :
    (Quat.ofRPY ⟨0, 0, t⟩ * q).normalized.rotate v = yaw t (q.rotate v) := by
  have hu : (Quat.ofRPY ⟨0, 0, t⟩ * q).dot (Quat.ofRPY ⟨0, 0, t⟩ * q) = 1 := by
    rw [Quat.C29_dot_mul, Quat.C32_unit, hq, one_mul]
  rw [Quat.C31_normalized_unit _ hu, Quat.C29_mul_rotate, Quat.C32_matrix]
  ext <;> simp [yaw]
  ring

/-- The orientation of the IMU is a rotation if the messages and transforms are. -/
theorem imuOrient_unit {P : Params} {h : History} (hm : ∀ e ∈ imuMsgs h, e.1.rot.dot e.1.rot = 1)
    (ht : ∀ e ∈ imuMsgs h, ∀ t, e.2.tf P.baseFrame e.1.frame 0 = some t → t.rot.dot t.rot = 1) :
    (imuOrient P h).dot (imuOrient P h) = 1 := by
  have one : ∀ q r : Quat ℝ, q.dot q = 1 → r.dot r = 1 → (q.rotateAxis r).dot (q.rotateAxis r) = 1 := by
    intro q r hq hr
    by_cases hw : |q.w| < 1 - 1 / 1000000
    · have h1 : (r * q * r.conj).dot (r * q * r.conj) = 1 := by
        rw [Quat.C29_dot_mul, Quat.C29_dot_mul, hq, hr]
        have : r.conj.dot r.conj = r.dot r := by simp [Quat.dot]
        rw [this, hr]; norm_num
      rcases Quat.C37_rotateAxis q r hq hr hw with e | e
      · rw [e, h1]
      · rw [e]
        have : ∀ a : Quat ℝ, (-a).dot (-a) = a.dot a := by intro a; simp [Quat.dot]
        rw [this, h1]
    · rw [Quat.C37_near_identity q r hr (not_lt.1 hw)]
      simp [Quat.dot]
  have key : ∀ (l : List (ImuMsg × Env)) (s : Option ℝ × Quat ℝ), (∀ e ∈ l, e.1.rot.dot e.1.rot = 1) →
      (∀ e ∈ l, ∀ t, e.2.tf P.baseFrame e.1.frame 0 = some t → t.rot.dot t.rot = 1) → s.2.dot s.2 = 1 →
      (l.foldl (imuOrientStep P) s).2.dot (l.foldl (imuOrientStep P) s).2 = 1 := by
    intro l
    induction l with
    | nil => intro s _ _ hs; exact hs
    | cons e l ih =>
      intro s h1 h2 hs
      refine ih _ (fun e he => h1 e (List.mem_cons_of_mem _ he)) (fun e he => h2 e (List.mem_cons_of_mem _ he)) ?_
      simp only [imuOrientStep]
      split
      · rename_i t _ ht
        exact one _ _ (h1 e List.mem_cons_self) (h2 e List.mem_cons_self t ht)
      · exact hs
  exact key _ _ hm ht (by simp [Quat.dot])

theorem yaw_add (a b : ℝ) (v : Vec3 ℝ) : yaw (a + b) v = yaw a (yaw b v) := by
  simp only [yaw, Real.cos_add, Real.sin_add, Vec3.mk.injEq]
  refine ⟨by ring, by ring, trivial⟩

theorem yaw_periodic (a : ℝ) (k : ℤ) (v : Vec3 ℝ) : yaw (a + k * (2 * Real.pi)) v = yaw a v := by
  simp only [yaw, Real.cos_add_int_mul_two_pi, Real.sin_add_int_mul_two_pi]

/-- C95: so at every place, whatever the robot's heading (`θ`), there is a particle that only has to turn by
`pi / div_yaw` at most. -/
theorem C95_coverage {P : Params} (hd : 0 < P.divYaw) (hfi : P.fakeImu = false) {lib : Lib C} {w : Vec3 ℝ}
    (hfl : ∀ pts q r, ExactSearch pts (weightedDist w q) r 1 (lib.flann pts q r 1)) {env0 env : Env}
    {motion0 : Motion ℝ} {n0 n n' : Node C} {h : History} {outs : List (List Out)} {o : List Out} (hv : env.Valid)
    (hm : ∀ e ∈ imuMsgs h, e.1.rot.dot e.1.rot = 1)
    (ht : ∀ e ∈ imuMsgs h, ∀ t, e.2.tf P.baseFrame e.1.frame 0 = some t → t.rot.dot t.rot = 1)
    (hs : start P lib env0 motion0 = .ok n0) (hr : run P lib n0 h = .ok (n, outs))
    (hav : (mapView P h).available = true)
    (hst : step P lib env n .globalLocalization = .ok (n', o))
    {pt : Point} (hpt : pt ∈ places P env w (mapView P h).active) (θ : ℝ) :
    ∃ p ∈ n'.loc.pf.particles, p.state.pos = pt.pos ∧ ∃ δ, |δ| ≤ Real.pi / P.divYaw ∧
      ∀ v, yaw θ ((imuOrient P h).rotate v) = yaw δ (p.state.rot.rotate v) := by
  obtain ⟨_, hl, hk, _⟩ := C95_grid hd hfi hfl hv hs hr hav hst
  set D := P.divYaw.toNat with hD
  have hDi : (D : ℤ) = P.divYaw := Int.toNat_of_nonneg hd.le
  have hD0 : 0 < D := by omega
  have hDr : (0 : ℝ) < D := by exact_mod_cast hD0
  have hDd : (P.divYaw : ℝ) = D := by rw [← hDi]; norm_cast
  set m : ℤ := round (θ * D / (2 * Real.pi)) with hmr
  set j : ℕ := (m % D).toNat with hj
  have hji : (j : ℤ) = m % D := Int.toNat_of_nonneg (Int.emod_nonneg _ (by omega))
  have hjD : j < D := by
    have := Int.emod_lt_of_pos m (show (0 : ℤ) < D by omega)
    omega
  obtain ⟨i, hi, hpi⟩ := List.mem_iff_getElem.1 hpt
  have hlt : i * D + j < n'.loc.pf.particles.length := by
    rw [hl]
    calc i * D + j < i * D + D := by omega
      _ = (i + 1) * D := by ring
      _ ≤ _ := Nat.mul_le_mul_right _ hi
  obtain ⟨pt', p, hpt', hp, hstate, _, _⟩ := hk _ hlt
  have hdiv : (i * D + j) / D = i := by
    rw [Nat.add_comm, Nat.add_mul_div_right _ _ hD0, Nat.div_eq_of_lt hjD, Nat.zero_add]
  have hmod : (i * D + j) % D = j := by
    rw [Nat.add_comm, Nat.add_mul_mod_self_right, Nat.mod_eq_of_lt hjD]
  rw [hdiv, List.getElem?_eq_getElem hi, Option.some.injEq] at hpt'
  rw [hmod] at hstate
  have hpp : pt' = pt := by rw [← hpt', hpi]
  refine ⟨p, List.mem_of_getElem? hp, by rw [hstate, hpp]; rfl, θ - 2 * Real.pi * m / D, ?_, ?_⟩
  · have hpi := Real.pi_pos
    have h1 : |θ * D / (2 * Real.pi) - m| ≤ 1 / 2 := abs_sub_round _
    have h2 : θ - 2 * Real.pi * m / D = (θ * D / (2 * Real.pi) - m) * (2 * Real.pi / D) := by
      field_simp
    rw [h2, abs_mul, abs_of_pos (by positivity : (0 : ℝ) < 2 * Real.pi / D), hDd]
    calc |θ * D / (2 * Real.pi) - m| * (2 * Real.pi / D) ≤ 1 / 2 * (2 * Real.pi / D) := by gcongr
      _ = Real.pi / D := by ring
  · intro v
    have hrot : p.state.rot = (Quat.ofRPY ⟨0, 0, 2 * Real.pi * (j : ℝ) / (P.divYaw : ℝ)⟩ * imuOrient P h).normalized := by
      rw [hstate]; rfl
    rw [hrot, C95_heading _ (imuOrient_unit hm ht), ← yaw_add, hDd]
    have hq : (m : ℝ) = D * ((m / D : ℤ) : ℝ) + j := by
      have := Int.mul_ediv_add_emod m D
      rw [← hji] at this
      exact_mod_cast this.symm
    have : θ = θ - 2 * Real.pi * m / D + 2 * Real.pi * j / D + ((m / D : ℤ) : ℝ) * (2 * Real.pi) := by
      rw [hq]; field_simp; ring
    conv_lhs => rw [this]
    rw [yaw_periodic]

/-! ## C96 -/

/-- The sum of the weights of the particles. -/
def weightSum (n : Mcl3dl.Node C) : ℝ := (n.loc.pf.particles.map PF.Particle.prob).sum

/-- C96: after a successful request all weights are equal and their sum is `div_yaw` (if there is
a place at all). -/
theorem C96_sum {P : Params} (hd : 0 < P.divYaw) (hfi : P.fakeImu = false) {lib : Lib C} {w : Vec3 ℝ}
    (hfl : ∀ pts q r, ExactSearch pts (weightedDist w q) r 1 (lib.flann pts q r 1)) {env0 env : Env}
    {motion0 : Motion ℝ} {n0 n n' : Node C} {h : History} {outs : List (List Out)} {o : List Out} (hv : env.Valid)
    (hs : start P lib env0 motion0 = .ok n0) (hr : run P lib n0 h = .ok (n, outs))
    (hst : step P lib env n .globalLocalization = .ok (n', o)) (ho : o = [.response true])
    (hne : n'.loc.pf.particles ≠ []) :
    weightSum n' = P.divYaw ∧ ∀ p ∈ n'.loc.pf.particles, ∀ q ∈ n'.loc.pf.particles, p.prob = q.prob := by
  have hav : (mapView P h).available = true := by
    by_contra hno
    rw [C95_no_map hs hr (by simpa using hno)] at hst
    simp only [Outcome.ok.injEq, Prod.mk.injEq] at hst
    rw [← hst.2] at ho
    simp at ho
  obtain ⟨_, hl, hk, _⟩ := C95_grid hd hfi hfl hv hs hr hav hst
  have hp : ∀ p ∈ n'.loc.pf.particles, p.prob = 1 / ((places P env w (mapView P h).active).length : ℝ) := by
    intro p hp
    obtain ⟨k, hk1, rfl⟩ := List.mem_iff_getElem.1 hp
    obtain ⟨_, p', _, e, _, e2, _⟩ := hk k hk1
    rw [List.getElem?_eq_getElem hk1] at e
    simp only [Option.some.injEq] at e
    rw [e, e2]
  refine ⟨?_, fun p hpm q hqm => by rw [hp p hpm, hp q hqm]⟩
  have e : n'.loc.pf.particles.map PF.Particle.prob =
      List.replicate n'.loc.pf.particles.length (1 / ((places P env w (mapView P h).active).length : ℝ)) := by
    rw [List.eq_replicate_iff]
    refine ⟨by simp, fun b hb => ?_⟩
    obtain ⟨p, hpm, rfl⟩ := List.mem_map.1 hb
    exact hp p hpm
  have hpos : 0 < n'.loc.pf.particles.length := List.length_pos_iff.2 hne
  rw [weightSum, e, List.sum_replicate, hl]
  rw [hl] at hpos
  generalize (places P env w (mapView P h).active).length = a at *
  have ha : (a : ℝ) ≠ 0 := by
    have : a ≠ 0 := by rintro rfl; simp at hpos
    exact_mod_cast this
  have hdr : ((P.divYaw.toNat : ℕ) : ℝ) = (P.divYaw : ℝ) := by
    have : ((P.divYaw.toNat : ℕ) : ℤ) = P.divYaw := Int.toNat_of_nonneg hd.le
    exact_mod_cast this
  rw [nsmul_eq_mul, Nat.cast_mul, hdr]
  field_simp

namespace Demo

/-- A map, an IMU message, another one, and the request. -/
noncomputable def globalHistory : History :=
  [(.mapcloud 1 (msg 10), env 1), (.imu ⟨1, "imu", ⟨0, 0, 1⟩, 1⟩, env 1), (.imu ⟨2, "imu", ⟨0, 0, 1⟩, 1⟩, env 2)]

theorem globalHistory_ok : ∀ e ∈ globalHistory ++ [(.globalLocalization, env 3)],
    e.2.Valid ∧ KeepsPoints e.2 ∧ SafeEvent e.1 := by
  simp [globalHistory, SafeEvent, env_valid, keeps]

theorem globalHistory_map : (mapView P0 globalHistory).available = true ∧
    (mapView P0 globalHistory).active = [⟨⟨10, 0, 0⟩, 0⟩] := by
  have hv : ∀ x, validCloud (msg x) = true := validCloud_msg
  simp [mapView, globalHistory, MapView.step, hv, cloudPoints, fromROSMsg_msg, env]

/-- The request succeeds. -/
theorem global_runs : ∃ n0 n n' outs, start P0 exactLib (env 0) motion0 = .ok n0 ∧
    run P0 exactLib n0 globalHistory = .ok (n, outs) ∧
    step P0 exactLib (env 3) n .globalLocalization = .ok (n', [.response true]) ∧
    n'.loc.pf.particles ≠ [] := by
  obtain ⟨n0, h0, n', outs, hr, _, hne⟩ := exact_runs _ globalHistory_ok
  obtain ⟨n, os, o, h1, h2, _⟩ := run_snoc_ok hr
  have := (C95_grid (by simp [P0_divYaw]) rfl (fun pts q r => exactFlann_spec pts q r 1) (env_valid 3) h0 h1
    globalHistory_map.1 h2).1
  subst this
  exact ⟨n0, n, n', os, h0, h1, h2, hne⟩

end Demo

/-- C96 applied (the weights are no distribution): with the default parameters the weights sum to 12. -/
theorem C96_sum_example : ∃ n0 n n' outs, start Demo.P0 Demo.exactLib (Demo.env 0) Demo.motion0 = .ok n0 ∧
    run Demo.P0 Demo.exactLib n0 Demo.globalHistory = .ok (n, outs) ∧
    step Demo.P0 Demo.exactLib (Demo.env 3) n .globalLocalization = .ok (n', [.response true]) ∧
    weightSum n' = 12 ∧ weightSum n' ≠ 1 := by
  obtain ⟨n0, n, n', outs, h0, h1, h2, hne⟩ := Demo.global_runs
  have h := (C96_sum (by simp [Demo.P0_divYaw]) rfl (fun pts q r => Demo.exactFlann_spec pts q r 1)
    (Demo.env_valid 3) h0 h1 h2 rfl hne).1
  rw [Demo.P0_divYaw] at h
  refine ⟨n0, n, n', outs, h0, h1, h2, by rw [h]; norm_num, by rw [h]; norm_num⟩

/-- C95 applied: a heading that is no multiple of the step (here 1 rad) has a particle within 15 degrees. -/
example : ∃ n0 n n' outs, start Demo.P0 Demo.exactLib (Demo.env 0) Demo.motion0 = .ok n0 ∧
    run Demo.P0 Demo.exactLib n0 Demo.globalHistory = .ok (n, outs) ∧
    step Demo.P0 Demo.exactLib (Demo.env 3) n .globalLocalization = .ok (n', [.response true]) ∧
    ∀ pt ∈ places Demo.P0 (Demo.env 3) ⟨1, 1, 5⟩ (mapView Demo.P0 Demo.globalHistory).active,
      ∃ p ∈ n'.loc.pf.particles, p.state.pos = pt.pos ∧ ∃ δ, |δ| ≤ Real.pi / 12 ∧
        ∀ v, yaw 1 ((imuOrient Demo.P0 Demo.globalHistory).rotate v) = yaw δ (p.state.rot.rotate v) := by
  obtain ⟨n0, n, n', outs, h0, h1, h2, hne⟩ := Demo.global_runs
  refine ⟨n0, n, n', outs, h0, h1, h2, fun pt hpt => ?_⟩
  have := C95_coverage (by simp [Demo.P0_divYaw]) rfl (fun pts q r => Demo.exactFlann_spec pts q r 1)
    (Demo.env_valid 3) (by simp [imuMsgs, Demo.globalHistory, Quat.dot]) (by
      simp [imuMsgs, Demo.globalHistory, Demo.env, Demo.tf0, Quat.dot]) h0 h1
    Demo.globalHistory_map.1 h2 hpt 1
  rw [Demo.P0_divYaw] at this
  exact_mod_cast this

/-! ## C97 -/

/-- C97: an initial pose that is not acceptable changes nothing and publishes nothing. -/
theorem C97_rejected {P : Params} {lib : Lib C} {env : Env} {n : Node C} {msg : PoseMsg}
    (h : ¬ accepted P env msg) : step P lib env n (.initialpose msg) = .ok (n, []) := by
  obtain ⟨n', o, hst⟩ := cbPosition_total P lib env n msg
  rcases cbPosition_ok hst with ⟨rfl, rfl, _⟩ | ⟨h0, t, st, ht, _, _⟩
  · exact hst
  · exact absurd ⟨not_lt.1 h0, by rw [ht]; simp⟩ h

/-- The components of an initial pose, as the generator of the particles sees them. -/
noncomputable def poseVec (t : Tf) (msg : PoseMsg) : Fin 6 → ℝ :=
  ![(t.point msg.pos).x, (t.point msg.pos).y, (t.point msg.pos).z, (t.rot * msg.rot).getRPY.x,
    (t.rot * msg.rot).getRPY.y, (t.rot * msg.rot).getRPY.z]

/-- The states drawn for an initial pose. -/
theorem drawN_gauss (env : Env) (n e : ℕ) :
    NoiseGen.drawN (env.gauss 0 0 1) n e = ((List.range n).map fun i => env.normal 0 (e + i), e + n) := by
  induction n generalizing e with
  | zero => rfl
  | succ n ih =>
    have h1 : env.gauss 0 0 1 e = (env.normal 0 e, e + 1) := by simp [Env.gauss]
    rw [NoiseGen.drawN, h1]
    simp only
    rw [ih, List.range_succ_eq_map]
    simp only [List.map_cons, List.map_map, Nat.add_zero, Prod.mk.injEq, List.cons.injEq, true_and]
    refine ⟨List.map_congr_left fun i _ => ?_, by omega⟩
    simp only [Function.comp]
    congr 1; omega

theorem drawn (env : Env)
    (solve : (Fin 6 → Fin 6 → ℝ) → (Fin 6 → ℝ) × (Fin 6 → Fin 6 → ℝ)) (mean : State6 ℝ) (cov : ℕ → ℝ)
    (n : ℕ) (e : ℕ) {ss : List (State6 ℝ)} {e' : ℕ}
    (h : State6.generateN (MultiNoise.gen (env.gauss 0 0 1) solve mean.meanVec cov) n e = .ok (ss, e')) :
    ss.length = n ∧ ∀ k s, ss[k]? = some s → ∃ x : Fin 6 → ℝ,
      x = MultiNoise.noise (fun i => mean.meanVec.getD i 0)
        (MultiNoise.normTransform (solve (MultiNoise.covMatrix cov)).1 (solve (MultiNoise.covMatrix cov)).2)
        (fun i => env.normal 0 (e + 6 * k + i)) ∧
      s.pos = ⟨x 0, x 1, x 2⟩ ∧ s.rot = Quat.ofRPY ⟨x 3, x 4, x 5⟩ := by
  induction n generalizing e ss e' with
  | zero =>
    simp only [State6.generateN, Outcome.ok.injEq, Prod.mk.injEq] at h
    simp [← h.1]
  | succ n ih =>
    obtain ⟨⟨s, e1⟩, h1, h⟩ := Outcome.bind_eq_ok_iff.1 h
    obtain ⟨⟨ss', e2⟩, h2, h⟩ := Outcome.bind_eq_ok_iff.1 h
    simp only [Outcome.ok.injEq, Prod.mk.injEq] at h
    obtain ⟨rfl, rfl⟩ := h
    obtain ⟨i1, i2⟩ := ih e1 h2
    obtain ⟨⟨org, e3⟩, h3, h1⟩ := Outcome.bind_eq_ok_iff.1 h1
    obtain ⟨st, h4, h1⟩ := Outcome.bind_eq_ok_iff.1 h1
    simp only [Outcome.ok.injEq, Prod.mk.injEq] at h1
    obtain ⟨rfl, rfl⟩ := h1
    simp only [MultiNoise.gen, Outcome.ok.injEq, Prod.mk.injEq] at h3
    obtain ⟨rfl, rfl⟩ := h3
    rw [drawN_gauss] at i2 h4
    refine ⟨by simp [i1], fun k s' hs' => ?_⟩
    cases k with
    | zero =>
      simp only [List.getElem?_cons_zero, Option.some.injEq] at hs'
      subst hs'
      refine ⟨_, rfl, ?_⟩
      simp only [MultiNoise.gen, State6.meanVec, List.ofFn_succ, List.ofFn_zero, State6.ofNoise, Outcome.ok.injEq] at h4
      have hz : (fun i : Fin 6 => ((List.range 6).map fun j => env.normal 0 (e + j)).getD i 0) =
          fun i : Fin 6 => env.normal 0 (e + 6 * 0 + i) := by
        funext i; fin_cases i <;> rfl
      rw [hz] at h4
      rw [← h4]
      exact ⟨rfl, rfl⟩
    | succ k =>
      simp only [List.getElem?_cons_succ] at hs'
      obtain ⟨x, hx, h5⟩ := i2 k s' hs'
      refine ⟨x, ?_, h5⟩
      rw [hx]
      congr 1
      funext i
      congr 1
      omega

/-- C97: an accepted initial pose keeps the number of particles, gives every particle the weight `1 / N` and
zero error integrals, drops the pending update of the map, changes nothing else and publishes the particles.
The particles are the transformed pose plus a transformed draw of six numbers, different numbers for each particle,
where the transform depends on the message only and is a square root of its covariance (if that is symmetric
positive semidefinite and the eigen solver works). -/
theorem C97_accepted {P : Params} {lib : Lib C} {env : Env} {n : Node C} {msg : PoseMsg} (h : accepted P env msg)
    (hsolve : ∀ A, MultiNoise.Solved A (lib.solve6 A).1 (lib.solve6 A).2) :
    ∃ n' t, step P lib env n (.initialpose msg) =
        .ok (n', [publishParticles P n.odo n.loc.tolBase (env.now 0) n'.loc.pf]) ∧
      env.tf P.mapFrame msg.frame msg.stamp = some t ∧
      n' = { n with map := { n.map with update := none }, loc := { n.loc with pf := n'.loc.pf } } ∧
      n'.loc.pf.particles.length = n.loc.pf.particles.length ∧
      (∀ p ∈ n'.loc.pf.particles, p.prob = 1 / (n.loc.pf.particles.length : ℝ) ∧
        p.state.integLin = 0 ∧ p.state.integAng = 0) ∧
      ∃ T : Fin 6 → Fin 6 → ℝ,
        (((∀ i j : Fin 6, msg.cov ⟨j + i * 6, by omega⟩ = msg.cov ⟨i + j * 6, by omega⟩) →
          (∀ u : Fin 6 → ℝ, 0 ≤ ∑ i : Fin 6, ∑ j : Fin 6, u i * msg.cov ⟨j + i * 6, by omega⟩ * u j) →
          ∀ i j : Fin 6, ∑ k, T i k * T j k = msg.cov ⟨j + i * 6, by omega⟩)) ∧
        ∀ (k : ℕ) (p : Particle), n'.loc.pf.particles[k]? = some p → ∃ x : Fin 6 → ℝ,
          (∀ i, x i = poseVec t msg i + ∑ j, T i j * env.normal 0 (6 * k + j)) ∧
          p.state.pos = ⟨x 0, x 1, x 2⟩ ∧ p.state.rot = Quat.ofRPY ⟨x 3, x 4, x 5⟩ := by
  obtain ⟨t, ht⟩ := Option.ne_none_iff_exists'.1 h.2
  set cov : ℕ → ℝ := fun i => if h : i < 36 then msg.cov ⟨i, h⟩ else 0 with hcov
  have hc : ∀ i j : Fin 6, cov (j + i * 6) = msg.cov ⟨j + i * 6, by omega⟩ := by
    intro i j
    have : (j : ℕ) + i * 6 < 36 := by omega
    simp only [hcov, this, dif_pos]
  obtain ⟨ss, e', hg, hl⟩ := multiNoise_total (env.gauss 0 0 1) lib.solve6
    (State6.ofQuat (t.point msg.pos) (t.rot * msg.rot)) cov n.loc.pf.particles.length 0
  have hd := (drawn _ _ _ _ _ _ hg).2
  set A : Fin 6 → Fin 6 → ℝ := MultiNoise.covMatrix cov with hA
  have hn : ¬ 1 / 10 < |msg.rot.dot msg.rot - 1| := not_lt.2 h.1
  set pf := (n.loc.pf.init (pickNoise ss)).predict resetInteg with hpf
  have hpl : pf.particles.length = n.loc.pf.particles.length := by
    simp [hpf, PF.Filter.init, PF.Filter.predict]
  have hpart : ∀ (k : ℕ) (p : Particle), pf.particles[k]? = some p → p.prob = 1 / (n.loc.pf.particles.length : ℝ) ∧
      ∃ s, ss[k]? = some s ∧ p.state = resetInteg s := by
    intro k p hp
    simp only [hpf, PF.Filter.predict, PF.Filter.init, List.getElem?_map, List.getElem?_mapIdx, Option.map_map,
      Option.map_eq_some_iff] at hp
    obtain ⟨q, hq, rfl⟩ := hp
    have hk : k < ss.length := by
      have := (List.getElem?_eq_some_iff.1 hq).1
      omega
    refine ⟨rfl, pickNoise ss k, ?_, rfl⟩
    simp [pickNoise, List.getD, hk]
  refine ⟨{ n with map := { n.map with update := none }, loc := { n.loc with pf := pf } }, t, ?_, ht, rfl, hpl,
    fun p hp => ?_, MultiNoise.normTransform (lib.solve6 A).1 (lib.solve6 A).2, ?_, fun k p hp => ?_⟩
  · show cbPosition P lib env n msg = _
    unfold cbPosition
    rw [if_neg hn, ht]
    simp only [← hcov, hg, Outcome.bind_ok]
    rfl
  · obtain ⟨k, hk⟩ := List.mem_iff_getElem?.1 hp
    obtain ⟨h1, s, _, h2⟩ := hpart k p hk
    exact ⟨h1, by rw [h2]; rfl, by rw [h2]; rfl⟩
  · intro hsym hpsd i j
    have hs : ∀ i j, MultiNoise.lowerSym A i j = cov (j + i * 6) := by
      intro i j
      simp only [MultiNoise.lowerSym, hA, MultiNoise.covMatrix]
      split_ifs
      · rfl
      · rw [hc, hc]; exact (hsym i j).symm
    have h1 := MultiNoise.vals_nonneg (hsolve A) (fun u => by
      have := hpsd u
      simpa only [hs, hc] using this)
    rw [MultiNoise.transform_sq (hsolve A) h1 i j, hs, hc]
  · obtain ⟨_, s, hs, h2⟩ := hpart k p hp
    obtain ⟨x, hx, hp1, hp2⟩ := hd k s hs
    refine ⟨x, fun i => ?_, by rw [h2]; exact hp1, by rw [h2]; exact hp2⟩
    rw [hx, MultiNoise.noise, MultiNoise.matVec_eq]
    congr 1
    · fin_cases i <;> rfl
    · simp only [Nat.zero_add, hA]

/-- C97 for a pose without uncertainty: every particle is at the transformed position, and has the transformed
orientation unless that points straight up or down. -/
theorem C97_exact {P : Params} {lib : Lib C} {env : Env} {n n' : Node C} {o : List Out} {msg : PoseMsg} {t : Tf}
    (h : |msg.rot.dot msg.rot - 1| ≤ 1 / 10) (ht : env.tf P.mapFrame msg.frame msg.stamp = some t)
    (hsolve : ∀ A, MultiNoise.Solved A (lib.solve6 A).1 (lib.solve6 A).2) (hcov : ∀ i, msg.cov i = 0)
    (hst : step P lib env n (.initialpose msg) = .ok (n', o)) :
    ∀ p ∈ n'.loc.pf.particles, p.state.pos = t.point msg.pos ∧
      ((t.rot * msg.rot).dot (t.rot * msg.rot) = 1 → |((t.rot * msg.rot).rotate ⟨1, 0, 0⟩).z| < 1 →
        Quat.SameRotation p.state.rot (t.rot * msg.rot)) := by
  obtain ⟨n2, t2, e1, e2, _, _, _, T, hT, hp⟩ :=
    C97_accepted (P := P) (lib := lib) (n := n) ⟨h, by rw [ht]; simp⟩ hsolve
  rw [hst] at e1
  rw [ht] at e2
  simp only [Outcome.ok.injEq, Prod.mk.injEq, Option.some.injEq] at e1 e2
  obtain ⟨rfl, _⟩ := e1
  subst e2
  have h0 : ∀ i k, T i k = 0 := by
    intro i k
    have h1 := hT (by simp [hcov]) (by simp [hcov]) i i
    rw [hcov] at h1
    have := (Finset.sum_eq_zero_iff_of_nonneg (fun k _ => mul_self_nonneg (T i k))).1 h1 k (Finset.mem_univ k)
    exact mul_self_eq_zero.1 this
  intro p hpm
  obtain ⟨k, hk⟩ := List.mem_iff_getElem?.1 hpm
  obtain ⟨x, hx, h1, h2⟩ := hp k p hk
  have hx' : ∀ i, x i = poseVec t msg i := by intro i; rw [hx i]; simp [h0]
  rw [h1, h2, hx', hx', hx', hx', hx', hx']
  exact ⟨rfl, fun hu hg => Quat.C34_roundtrip _ hu hg⟩

/-- C97 is not empty: with the default parameters the identity is accepted, by a node whose eigen solver
works; an orientation of norm 2 is not. -/
example : ∃ lib : Lib Unit, (∀ A, MultiNoise.Solved A (lib.solve6 A).1 (lib.solve6 A).2) ∧
    ∃ n, start Demo.P0 lib (Demo.env 0) Demo.motion0 = .ok n ∧ n.loc.pf.particles.length = 64 ∧
      accepted Demo.P0 (Demo.env 1) ⟨1, "map", ⟨1, 2, 3⟩, 1, fun _ => 0⟩ ∧
      ¬ accepted Demo.P0 (Demo.env 1) ⟨1, "map", ⟨1, 2, 3⟩, ⟨0, 0, 0, 2⟩, fun _ => 0⟩ := by
  choose vals vecs hs using MultiNoise.solved_exists (n := 6)
  let lib : Lib Unit := { Demo.lib with solve6 := fun A => (vals A, vecs A) }
  obtain ⟨n, hn⟩ := start_total Demo.P0 lib (Demo.env 0) Demo.motion0 (by simp)
  refine ⟨lib, hs, n, hn, ?_, ⟨by norm_num [Quat.dot], by simp [Demo.env]⟩, fun h => ?_⟩
  · obtain ⟨_, ns, _, rfl⟩ := start_ok hn
    simp [PF.Filter.init, PF.Filter.new]
  · have := h.1
    norm_num [Quat.dot, abs_le] at this

end Node
end Mcl3dl
