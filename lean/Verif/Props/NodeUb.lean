import Verif.Proofs.UbReal
import Verif.Spec.NodeUb

/-!
# C83, C90: accesses of the node to its own buffers, and the division by skip_measure
-/

set_option linter.unusedSectionVars false

namespace Mcl3dl
namespace Node

variable {C : Type}

theorem common_not {bad : List String} (h : ∀ w ∈ ["loop does not end", "unreachable", "null point dereferenced",
    "original_ids_[i] out of range", "points[] out of range", "eigen_values_ is empty", "back() of an empty vector",
    "particles_[i] out of range", "particles_[0] of an empty vector", "dereference of end iterator",
    "negative double converted to size_t", "keys_.front() on an empty vector"], w ∉ bad) : Common (Not bad) := by
  constructor <;> exact h _ (by decide)

theorem casterReasons_not {bad : List String} (h : ∀ w ∈ ["value does not fit int", "point_exists_ index out of range",
    "negative value converted to size_t", "NaN converted to int", "min_p_ read before initialisation",
    "dereferences end()", "pos_ read before initialisation", "points[id] out of range",
    "count_ read before initialisation", "points_ points into a released cloud"], w ∉ bad) : CasterReasons (Not bad) := by
  constructor <;> exact h _ (by decide)

theorem reachable_map {P : Params} {lib : Lib C} {n : Node C} (hn : Reachable P lib n) :
    ∃ v, MapInv P n.map v := by
  obtain ⟨env0, motion0, n0, h, outs, _, _, hs, hr⟩ := hn
  exact ⟨_, mapInv_of_run hs hr⟩

/-- C83: in every state the node can reach, and for every event, the callback does not read a sensor
origin that does not exist, nor an accumulation buffer or map that does not exist.  The ray casters are
the real ones; the kd-tree and the eigen solvers are arbitrary. -/
theorem C83_buffers_exist (P : Params) (flann : List (Vec3 ℝ) → Vec3 ℝ → ℝ → ℕ → List (ℕ × ℝ))
    (solve3 : Matrix (Fin 3) (Fin 3) ℝ → (Fin 3 → ℝ) × Matrix (Fin 3) (Fin 3) ℝ)
    (solve6 : (Fin 6 → Fin 6 → ℝ) → (Fin 6 → ℝ) × (Fin 6 → Fin 6 → ℝ)) {n : Node CastSt}
    (hn : Reachable P (realLib P flann solve3 solve6) n) {env : Env} (hv : env.Valid) (ev : Event) (w : String)
    (h : step P (realLib P flann solve3 solve6) env n ev = .ub w) : w ∉ bufferErrors := by
  obtain ⟨v, hm⟩ := reachable_map hn
  exact step_only (U := Not bufferErrors) (common_not (by decide)) (by decide) (.inr (by decide))
    (realLib_only (casterReasons_not (by decide)) P flann solve3 solve6) hv (reachable_accInv hn) hm ev w h

/-- C83 for any ray caster that does not itself report these errors. -/
theorem C83_buffers_exist_any {P : Params} {lib : Lib C} (hlib : LibOnly (Not bufferErrors) lib) {n : Node C}
    (hn : Reachable P lib n) {env : Env} (hv : env.Valid) (ev : Event) (w : String)
    (h : step P lib env n ev = .ub w) : w ∉ bufferErrors := by
  obtain ⟨v, hm⟩ := reachable_map hn
  exact step_only (U := Not bufferErrors) (common_not (by decide)) (by decide) (.inr (by decide)) hlib hv
    (reachable_accInv hn) hm ev w h

/-- C83: the points kept between callbacks carry labels that are indices into the headers kept with
them, in every reachable state. -/
theorem C83_labels {P : Params} {lib : Lib C} {n : Node C} (hn : Reachable P lib n) (c : List Point)
    (hc : n.acc.cloud = some c) : ∀ p ∈ c, p.attr < n.acc.headers.length :=
  (reachable_accInv hn).labelled c hc

/-- C83: the points given to the beam model have labels that are indices into the list of sensor
origins, whatever is in the accumulation buffer of a reachable state. -/
theorem C83_beam_labels {P : Params} {lib : Lib C} {n : Node C} (hn : Reachable P lib n) {env : Env} (hv : env.Valid)
    {header : Header} {p : Prep} (h : prepare P lib env n.acc n.loc header = .ok (.ready p)) :
    p.origins.length = n.acc.headers.length ∧ ∀ q ∈ p.beamPc, q.attr < p.origins.length :=
  let r := prepare_labels hv (reachable_accInv hn).labelled h
  ⟨r.1, r.2.1⟩

/-! ## C90 -/

namespace Demo

theorem tf0_point (v : Vec3 ℝ) : tf0.point v = v := by
  have h1 := (Quat.C29_one (1 : Quat ℝ) v).2.2
  show (1 : Quat ℝ).rotate v + 0 = v
  rw [h1]
  show (⟨v.x + 0, v.y + 0, v.z + 0⟩ : Vec3 ℝ) = v
  simp

/-- The demo cloud message is accepted. -/
theorem accumCloud_msg (P : Params) (t : ℝ) (header : Header) (x : ℝ) (a : AccSt) (c : List Point)
    (hc : a.cloud = some c) :
    accumCloud P (env t) header (msg x) a = .ok (true, { a with
      cloud := some (c ++ [⟨⟨x, 0, 0⟩, a.headers.length % 2 ^ 32⟩])
      headers := a.headers ++ [header] }) := by
  unfold accumCloud
  have h1 : (env t).tf P.odomFrame header.frame header.stamp = some tf0 := rfl
  rw [h1]
  simp only
  have h2 : ∃ m', transformMsg tf0 (msg x) = .ok m' ∧ Conv.fromROSMsg m' [] = (true, [⟨⟨x, 0, 0⟩, 0, 0⟩]) := by
    refine ⟨_, by simp [transformMsg, msg, List.findIdx?_cons]; rfl, ?_⟩
    simp [Conv.fromROSMsg, Conv.Msg.has, Conv.fromROSMsgImpl, Conv.copyPoint, Conv.rawPoint,
      Conv.Msg.float, Conv.Msg.index, List.findIdx?_cons, Conv.Point.default, tf0_point]
  obtain ⟨m', h2, h3⟩ := h2
  rw [h2, Outcome.bind_ok, h3]
  simp [hc, pointsOf]

/-- A server that sets skip_measure and accum_cloud to 0. -/
def skip0 : Server := fun k =>
  if k = "skip_measure" then some (.int 0) else if k = "accum_cloud" then some (.int 0) else none

/-- The parameters read from it. -/
noncomputable def P1 : Params := Params.loadFrom (fun _ => 0) skip0 false false

theorem load_P1 : Params.load (fun _ => 0) skip0 = some P1 := by
  have h : Params.rename (fun _ => 0) skip0 = skip0 := by
    simp [Params.rename, Params.renames, Compat.paramRename, skip0]
  simp [Params.load, h, P1, Server.boolD, Server.getBool, skip0]

end Demo

/-- C90, a zero is accepted: a server with `skip_measure: 0` (and `accum_cloud: 0`) is accepted, and the first cloud
after a map divides by zero. -/
theorem C90_division_by_zero : ∃ (s : Server) (P : Params), Params.load (fun _ => 0) s = some P ∧
    ∃ (n0 : Node Unit) (h : History), HistValid h ∧ start P Demo.lib (Demo.env 0) Demo.motion0 = .ok n0 ∧
      run P Demo.lib n0 h = .ub divisionError := by
  refine ⟨Demo.skip0, Demo.P1, Demo.load_P1, ?_⟩
  have hnp : Demo.P1.numParticles = 64 := rfl
  have hsk : Demo.P1.skipMeasure = 0 := rfl
  have hac : Demo.P1.accumCloud = 0 := rfl
  obtain ⟨n0, hs⟩ := start_total Demo.P1 Demo.lib (Demo.env 0) Demo.motion0 (by rw [hnp]; norm_num)
  refine ⟨n0, [(.mapcloud 0 (Demo.msg 1), Demo.env 0), (.cloud ⟨"laser", 1⟩ (Demo.msg 1), Demo.env 1)], ?_, hs, ?_⟩
  · intro e he
    rcases List.mem_cons.1 he with rfl | he
    · exact Demo.env_valid 0
    · rw [List.mem_singleton.1 he]; exact Demo.env_valid 1
  · have h1 : ∃ n1 o, step Demo.P1 Demo.lib (Demo.env 0) n0 (.mapcloud 0 (Demo.msg 1)) = .ok (n1, o) := by
      obtain ⟨n1, o, h1, _⟩ := loadMapCloud_spec (P := Demo.P1) (env := Demo.env 0) n0
        (pclStamp (if (0 : ℝ) ≠ 0 then 0 else (Demo.env 0).now 1)) (pointsOf [⟨⟨1, 0, 0⟩, 0, 0⟩])
      refine ⟨n1, o, ?_⟩
      show cbMapcloud Demo.P1 (Demo.env 0) n0 0 (Demo.msg 1) = _
      unfold cbMapcloud
      rw [Demo.fromROSMsg_msg]
      exact h1
    obtain ⟨n1, o, h1⟩ := h1
    have hm : n1.map.hasMap = true := by
      rcases cbMapcloud_ok (show cbMapcloud Demo.P1 (Demo.env 0) n0 0 (Demo.msg 1) = _ from h1) with ⟨h2, _⟩ | ⟨_, h2⟩
      · rw [Demo.fromROSMsg_msg] at h2; cases h2
      · exact (load_frame h2).2.2.2.2.2
    unfold run
    rw [h1, Outcome.bind_ok]
    have h2 : step Demo.P1 Demo.lib (Demo.env 1) n1 (.cloud ⟨"laser", 1⟩ (Demo.msg 1)) = .ub divisionError := by
      show cbCloud Demo.P1 Demo.lib (Demo.env 1) n1 ⟨"laser", 1⟩ (Demo.msg 1) = _
      rw [cbCloud_eq hm, if_pos hac]
      have h3 := Demo.accumCloud_msg Demo.P1 1 ⟨"laser", 1⟩ 1 (accumClear n1.acc) [] rfl
      have h4 : (accumClear (freshen (Demo.env 1) n1).acc) = accumClear n1.acc := rfl
      simp only [CloudAccum.pushPassThrough, callbacks, Outcome.bind_ok, h4, h3]
      simp [measure, measureCore, hsk, Params.toSize, divisionError]
    unfold run
    rw [h2]
    rfl

/-- C90: with a `skip_measure` that is not a multiple of 2^64 (in particular with every
nonzero `int`) there is never a division by zero. -/
theorem C90_nonzero (P : Params) (hP : Params.toSize P.skipMeasure ≠ 0)
    (flann : List (Vec3 ℝ) → Vec3 ℝ → ℝ → ℕ → List (ℕ × ℝ))
    (solve3 : Matrix (Fin 3) (Fin 3) ℝ → (Fin 3 → ℝ) × Matrix (Fin 3) (Fin 3) ℝ)
    (solve6 : (Fin 6 → Fin 6 → ℝ) → (Fin 6 → ℝ) × (Fin 6 → Fin 6 → ℝ)) {n : Node CastSt}
    (hn : Reachable P (realLib P flann solve3 solve6) n) {env : Env} (hv : env.Valid) (ev : Event) :
    step P (realLib P flann solve3 solve6) env n ev ≠ .ub divisionError := by
  intro h
  obtain ⟨v, hm⟩ := reachable_map hn
  exact step_only (U := Not [divisionError]) (common_not (by decide)) (by decide) (.inl hP)
    (realLib_only (casterReasons_not (by decide)) P flann solve3 solve6) hv (reachable_accInv hn) hm ev _ h
    (by decide)

/-- Every nonzero value of the C++ type `int` qualifies. -/
theorem C90_int (i : ℤ) (h : i ≠ 0) (h1 : -2 ^ 31 ≤ i) (h2 : i < 2 ^ 31) : Params.toSize i ≠ 0 := by
  unfold Params.toSize
  have := Int.emod_nonneg i (show (2 ^ 64 : ℤ) ≠ 0 by norm_num)
  intro h3
  have h4 : i % 2 ^ 64 = 0 := by omega
  omega

/-- The initial state is a reachable one, with the real library. -/
example : ∃ n, Reachable Demo.P0 (realLib Demo.P0 (fun _ _ _ _ => []) (fun _ => (0, 0)) (fun _ => (0, 0))) n := by
  obtain ⟨n, hn⟩ := start_total Demo.P0 (realLib Demo.P0 (fun _ _ _ _ => []) (fun _ => (0, 0)) (fun _ => (0, 0)))
    (Demo.env 0) Demo.motion0 (by simp)
  exact ⟨n, Demo.env 0, Demo.motion0, n, [], [], Demo.env_valid 0, (fun e he => by cases he), hn, rfl⟩

/-- The default `skip_measure` qualifies for `C90_nonzero`. -/
example : Params.toSize Demo.P0.skipMeasure ≠ 0 := C90_int _ (by simp) (by simp) (by simp)

end Node
end Mcl3dl
