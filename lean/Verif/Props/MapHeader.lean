import Verif.Model.NodeFrames
import Verif.Spec.MapHeader
import Verif.Props.NodeMap

/-!
# C164: the header of the published map
-/

set_option linter.unusedSectionVars false

namespace Mcl3dl
namespace Node

variable {C : Type}

theorem pclStamp_spec {t : ℝ} (h : 0 ≤ t) : Microseconds t (pclStamp t) := by
  have h0 : (0:ℝ) ≤ t * 1000000 := by positivity
  refine ⟨?_, ?_⟩
  · rw [div_le_iff₀ (by norm_num)]
    exact Nat.floor_le h0
  · rw [lt_div_iff₀ (by norm_num)]
    exact Nat.lt_floor_add_one _

/-- The frames belong to the clouds, and that of the map in use is the given one. -/
def FrameInv (m : MapSt) (fr : Frames) (f : Option String) : Prop :=
  fr.length = m.heap.length ∧ m.base.bind (fun b => fr[b]?) = f

theorem framesTimer_spec {P : Params} {env : Env} {m m' : MapSt} {v : MapView} {fr : Frames} {f : Option String} {o : List Out}
    (hm : MapInv P m v) (hf : FrameInv m fr f) (h : mapTimer P env m = .ok (m', o)) :
    FrameInv m' (framesTimer m fr) f ∧
      ∀ pts, Out.updatedMap pts ∈ o → ∃ s, f = some s ∧
        mapHeader m' (framesTimer m fr) = some ⟨s, pclStamp (env.now 0)⟩ := by
  obtain ⟨ha, hu, hk, hd⟩ := hm
  obtain ⟨hl, hb'⟩ := hf
  unfold mapTimer at h
  unfold framesTimer
  cases hav : m.hasMap with
  | false =>
    rw [if_neg (by simp [hav])] at h
    cases h
    simp only [Bool.false_eq_true, if_false]
    exact ⟨⟨hl, hb'⟩, by simp⟩
  | true =>
    rw [if_pos hav] at h
    rw [if_pos rfl]
    rcases hd with ⟨_, _, _, h4, _⟩ | ⟨b, c, hb, hmg, hkc, hh, hc⟩
    · rw [← ha, hav] at h4; cases h4
    · have hlt : b < m.heap.length := by
        by_contra hge
        rw [List.getElem?_eq_none (by omega)] at hh
        cases hh
      have hltf : b < fr.length := by omega
      cases hp : m.update with
      | none =>
        rw [hp, hmg] at h
        cases h
        exact ⟨⟨hl, hb'⟩, by simp⟩
      | some u =>
        rw [hp, hmg, hb] at h
        simp only [Option.bind_some, hh, Option.getD_some] at h
        cases h
        rw [hb] at hb'
        simp only [Option.bind_some] at hb'
        have hf0 : fr[b]? = some fr[b] := List.getElem?_eq_getElem hltf
        simp only [hmg, hb, Option.bind_some, hf0, Option.getD_some]
        refine ⟨⟨by simp [hl], ?_⟩, fun pts _ => ⟨fr[b], by rw [← hb', hf0], ?_⟩⟩
        · simp [hltf, ← hb']
        · simp [mapHeader, hltf, hlt]

theorem framesLoad_spec {P : Params} {env : Env} {n n' : Node C} {fr : Frames} {f : Option String} {o : List Out}
    {stamp : ℕ} {pts : List Point} (frame : String) (hf : FrameInv n.map fr f)
    (h : loadMapCloud P env n stamp pts = .ok (n', o)) :
    FrameInv n'.map (framesLoad n.map fr frame) (some frame) ∧
      mapHeader n'.map (framesLoad n.map fr frame) = some ⟨frame, stamp⟩ := by
  obtain ⟨hl, _⟩ := hf
  unfold loadMapCloud mapTimer at h
  simp only [if_true] at h
  have : (n.map.heap ++ [(⟨stamp, env.voxel P.mapDownsample pts⟩ : MapCloud)])[n.map.heap.length]? =
      some ⟨stamp, env.voxel P.mapDownsample pts⟩ := by simp
  rw [this] at h
  simp only [Outcome.bind_ok] at h
  cases h
  unfold framesLoad framesTimer
  simp only [if_true]
  refine ⟨⟨by simp [hl], ?_⟩, ?_⟩
  · simp [← hl]
  · simp [mapHeader, ← hl]

theorem cloud_no_map {P : Params} {lib : Lib C} {env : Env} {n n' : Node C} {header : Header} {msg : Conv.Msg} {o : List Out}
    (h : step P lib env n (.cloud header msg) = .ok (n', o)) (pts : List Point) : Out.updatedMap pts ∉ o := by
  intro hp
  obtain ⟨_, _, _, _, h5⟩ := cbCloud_loc h
  rcases h5 with ⟨_, _, rfl⟩ | ⟨_, acc, c, h5⟩
  · simp at hp
  · obtain ⟨_, _, h6⟩ := measureCore_ok h5
    rcases h6 with ⟨_, _, _, rfl⟩ | ⟨_, hmeas⟩
    · simp at hp
    · generalize n'.loc = loc2 at hmeas
      cases hmeas with
      | noHeader => simp at hp
      | noTf => simp at hp
      | noOrigin => simp at hp
      | noPoints => simp [publishStatus] at hp
      | localized header p loc' outs _ _ _ hl =>
        obtain ⟨r, -, -, -, -, -, hmo, -, -, -, -, -, rfl⟩ := localize_ok hl
        have hmo' : ∀ x ∈ r.mo.2, ∀ pts, x ≠ .updatedMap pts := by
          exact matchOutput_kinds hmo
        simp only [List.mem_cons, List.mem_append, publishParticles, publishStatus, List.not_mem_nil, or_false,
          reduceCtorEq, false_or] at hp
        rcases hp with (hp | hp)
        · by_cases hpt : P.publishTf = true <;> simp [hpt] at hp
        · exact hmo' _ hp pts rfl

/-- Each callback keeps the frames right, and publishes the map with the right header. -/
theorem framesStep_spec {P : Params} {lib : Lib C} {env : Env} {n n' : Node C} {ev : Event} {o : List Out}
    {v : MapView} {fr : Frames} {f : Option String} (frame : String) (hi : MapInv P n.map v)
    (hf : FrameInv n.map fr f) (h : step P lib env n ev = .ok (n', o)) :
    FrameInv n'.map (framesStep P n fr ev frame) (frameAfter P f (ev, frame)) ∧
      ∀ pts, Out.updatedMap pts ∈ o → ∃ s, frameAfter P f (ev, frame) = some s ∧
        mapHeader n'.map (framesStep P n fr ev frame) = some ⟨s, pclStamp (timeOfMap env ev)⟩ := by
  cases ev with
  | mapcloud stamp msg =>
    have hval := fromROSMsg_valid msg
    rcases cbMapcloud_ok h with ⟨h1, rfl, rfl⟩ | ⟨h1, hl⟩
    · simp only [framesStep, frameAfter, ← hval, h1, Bool.false_eq_true, if_false]
      exact ⟨hf, by simp⟩
    · simp only [framesStep, frameAfter, ← hval, h1, if_true]
      obtain ⟨g1, g2⟩ := framesLoad_spec frame hf hl
      refine ⟨g1, fun _ _ => ⟨_, rfl, ?_⟩⟩
      rw [g2, timeOfMap]
      by_cases h0 : stamp = 0 <;> simp [h0]
  | loadPcd file =>
    rcases cbLoadPcd_ok h with ⟨rfl, rfl, rfl⟩ | ⟨pts, o1, rfl, hl, rfl⟩
    · exact ⟨hf, by simp⟩
    · obtain ⟨g1, g2⟩ := framesLoad_spec P.mapFrame hf hl
      exact ⟨g1, fun _ _ => ⟨_, rfl, g2⟩⟩
  | timer =>
    simp only [step] at h
    obtain ⟨⟨m', o'⟩, h1, h2⟩ := Outcome.bind_eq_ok_iff.1 h
    simp only [Outcome.ok.injEq, Prod.mk.injEq] at h2
    obtain ⟨rfl, rfl⟩ := h2
    exact framesTimer_spec hi hf h1
  | mapcloudUpdate msg =>
    simp only [step, Outcome.ok.injEq, Prod.mk.injEq] at h
    obtain ⟨rfl, rfl⟩ := h
    refine ⟨?_, by simp⟩
    simp only [framesStep, frameAfter, cbMapcloudUpdate]
    rcases Conv.fromROSMsg msg [] with ⟨_ | _, pts⟩ <;> exact hf
  | initialpose msg =>
    rcases cbPosition_ok h with ⟨rfl, rfl, _⟩ | ⟨_, t, st, _, rfl, rfl⟩
    · exact ⟨hf, by simp⟩
    · exact ⟨hf, by simp [publishParticles]⟩
  | cloud header msg =>
    obtain ⟨h1, _⟩ := cbCloud_loc h
    refine ⟨?_, fun pts hp => ?_⟩
    · rw [h1]; exact hf
    · exact absurd hp (cloud_no_map h pts)
  | odom msg =>
    obtain ⟨h1, _, _, _, _, _, h7⟩ := sensor_frame _ h
    rw [h1]
    refine ⟨hf, fun pts hp => ?_⟩
    rcases h7 _ hp with h | h <;> cases h
  | imu msg =>
    obtain ⟨h1, _, _, _, _, _, h7⟩ := sensor_frame _ h
    rw [h1]
    refine ⟨hf, fun pts hp => ?_⟩
    rcases h7 _ hp with h | h <;> cases h
  | landmark msg =>
    obtain ⟨pf, _, rfl, rfl⟩ := cbLandmark_ok h
    exact ⟨hf, by simp [publishParticles]⟩
  | resize size =>
    obtain ⟨pf, _, rfl, rfl⟩ := cbResize_ok h
    exact ⟨hf, by simp [publishParticles]⟩
  | expansionReset =>
    obtain ⟨pf, _, rfl, rfl⟩ := cbExpansionReset_ok h
    exact ⟨hf, by simp [publishParticles]⟩
  | globalLocalization =>
    rcases cbGlobalLocalization_ok h with ⟨_, rfl, rfl⟩ | ⟨_, c, pf, ps, _, _, _, rfl, rfl⟩ <;>
      exact ⟨hf, by simp⟩
  | reconfigure w =>
    simp only [step, Outcome.ok.injEq, Prod.mk.injEq] at h
    obtain ⟨rfl, rfl⟩ := h
    exact ⟨hf, by simp⟩

theorem framesRun_spec {P : Params} {lib : Lib C} {h : List ((Event × Env) × String)} {n n' : Node C} {fr fr' : Frames}
    {v : MapView} {f : Option String} (hi : MapInv P n.map v) (hf : FrameInv n.map fr f)
    (hr : framesRun P lib n fr h = .ok (n', fr')) :
    (∃ v', MapInv P n'.map v') ∧ FrameInv n'.map fr' ((h.map fun e => (e.1.1, e.2)).foldl (frameAfter P) f) := by
  induction h generalizing n fr v f with
  | nil =>
    cases hr
    exact ⟨⟨v, hi⟩, hf⟩
  | cons e h ih =>
    obtain ⟨⟨n1, o⟩, h1, h2⟩ := Outcome.bind_eq_ok_iff.1 hr
    exact ih (step_map hi h1).1 (framesStep_spec e.2 hi hf h1).1 h2

/-- C164: the frames do not matter for what the node does: with any frames it goes through the same states. -/
theorem C164_unread (P : Params) (lib : Lib C) (n : Node C) (fr : Frames) (h : List ((Event × Env) × String)) :
    ((framesRun P lib n fr h).bind fun r => .ok r.1) = (run P lib n (h.map Prod.fst)).bind fun r => .ok r.1 := by
  induction h generalizing n fr with
  | nil => rfl
  | cons e h ih =>
    simp only [framesRun, List.map_cons, run]
    cases step P lib e.1.2 n e.1.1 with
    | throws m => rfl
    | ub m => rfl
    | ok r =>
      simp only [Outcome.bind_ok]
      rw [ih]
      cases run P lib r.1 (h.map Prod.fst) <;> rfl

/-- C164: whenever a map is published, in any history, its frame is that of the cloud last accepted as the map (the
map frame if that was a file), updates being merged or not, and its stamp is that of the message or the present, in
whole microseconds. -/
theorem C164_header {P : Params} {lib : Lib C} {env0 env : Env} {motion0 : Motion ℝ} {n0 n n' : Node C} {fr : Frames}
    {h : List ((Event × Env) × String)} {ev : Event} {frame : String} {o : List Out} {pts : List Point}
    (hs : start P lib env0 motion0 = .ok n0) (hr : framesRun P lib n0 [] h = .ok (n, fr))
    (hst : step P lib env n ev = .ok (n', o)) (hp : Out.updatedMap pts ∈ o) (ht : 0 ≤ timeOfMap env ev) :
    ∃ s stamp, mapHeader n'.map (framesStep P n fr ev frame) = some ⟨s, stamp⟩ ∧
      frameOfMap P (h ++ [((ev, env), frame)]) = some s ∧ Microseconds (timeOfMap env ev) stamp := by
  have h0 : MapInv P n0.map MapView.init ∧ FrameInv n0.map [] none := by
    obtain ⟨_, ns, _, rfl⟩ := start_ok hs
    exact ⟨mapInv_init P, rfl, rfl⟩
  obtain ⟨⟨v, hv⟩, hf⟩ := framesRun_spec h0.1 h0.2 hr
  obtain ⟨_, h2⟩ := framesStep_spec frame hv hf hst
  obtain ⟨s, h3, h4⟩ := h2 pts hp
  refine ⟨s, _, h4, ?_, pclStamp_spec ht⟩
  rw [frameOfMap, List.map_append, List.foldl_append]
  exact h3

/-- C164 (finding): a map in any frame is taken as it is.  In any state the coordinates of a valid message are used and
published untransformed, whatever its frame and whatever transforms are known, and published in that frame. -/
theorem C164_untransformed {P : Params} {lib : Lib C} {env0 env : Env} {motion0 : Motion ℝ} {n0 n : Node C} {fr : Frames}
    {h : List ((Event × Env) × String)} (hs : start P lib env0 motion0 = .ok n0)
    (hr : framesRun P lib n0 [] h = .ok (n, fr)) (stamp : ℝ) (msg : Conv.Msg) (hv : validCloud msg = true) (frame : String) :
    ∃ n', step P lib env n (.mapcloud stamp msg) = .ok (n', [.updatedMap (env.voxel P.mapDownsample (cloudPoints msg))]) ∧
      (mapHeader n'.map (framesStep P n fr (.mapcloud stamp msg) frame)).map MapHeader.frame = some frame ∧
      ∀ p r, search P lib n'.map p r = ChunkedKdtree.radiusSearch (kdCfg P)
        (ChunkedKdtree.setInputCloud (kdCfg P) ((env.voxel P.mapDownsample (cloudPoints msg)).map Pt.pos)) lib.flann p r 1 := by
  have h0 : MapInv P n0.map MapView.init ∧ FrameInv n0.map [] none := by
    obtain ⟨_, ns, _, rfl⟩ := start_ok hs
    exact ⟨mapInv_init P, rfl, rfl⟩
  obtain ⟨⟨v, hv'⟩, hf⟩ := framesRun_spec h0.1 h0.2 hr
  have hval := fromROSMsg_valid msg
  rw [hv] at hval
  have hpts : pointsOf (Conv.fromROSMsg msg []).2 = cloudPoints msg := rfl
  set c := Conv.fromROSMsg msg [] with hc
  have hcase : cbMapcloud P env n stamp msg =
      loadMapCloud P env n (pclStamp (if stamp ≠ 0 then stamp else env.now 1)) (cloudPoints msg) := by
    unfold cbMapcloud
    rw [← hc, ← hpts]
    rcases c with ⟨b, pts⟩
    cases hval
    rfl
  have hload : ∃ n', loadMapCloud P env n (pclStamp (if stamp ≠ 0 then stamp else env.now 1)) (cloudPoints msg) =
      .ok (n', [.updatedMap (env.voxel P.mapDownsample (cloudPoints msg))]) := by
    unfold loadMapCloud mapTimer
    simp only [if_true]
    rw [List.getElem?_concat_length]
    exact ⟨_, rfl⟩
  obtain ⟨n', hn'⟩ := hload
  refine ⟨n', hcase.trans hn', ?_, fun p r => ?_⟩
  · have := (framesLoad_spec frame hf hn').2
    simp only [framesStep, ← hc, hval, if_true]
    rw [this]; rfl
  · obtain ⟨n2, o2, h2, hm, _⟩ := loadMapCloud_spec (P := P) (env := env) n
      (pclStamp (if stamp ≠ 0 then stamp else env.now 1)) (cloudPoints msg)
    rw [hn'] at h2
    cases h2
    unfold search
    rw [hm.2.2.1]

/-- The hypotheses are met: two maps from different frames, then an update that is merged into the second. -/
example : ∃ (n0 n n' : Node Unit) (fr : Frames) (h : List ((Event × Env) × String)) (o : List Out) (pts : List Point),
    start Demo.P0 Demo.lib (Demo.env 0) Demo.motion0 = .ok n0 ∧ framesRun Demo.P0 Demo.lib n0 [] h = .ok (n, fr) ∧
    h.length = 3 ∧ step Demo.P0 Demo.lib (Demo.env 0) n .timer = .ok (n', o) ∧ Out.updatedMap pts ∈ o ∧
    0 ≤ timeOfMap (Demo.env 0) .timer ∧ frameOfMap Demo.P0 (h ++ [((.timer, Demo.env 0), "")]) = some "elsewhere" := by
  have hval : ∀ x, validCloud (Demo.msg x) = true := fun x => by
    rw [← fromROSMsg_valid, Demo.fromROSMsg_msg]
  obtain ⟨n0, hs⟩ := start_total Demo.P0 Demo.lib (Demo.env 0) Demo.motion0 (by simp)
  obtain ⟨n1, h1, _⟩ := C164_untransformed (env := Demo.env 0) (h := []) hs rfl 1 (Demo.msg 1) (hval 1) "map"
  obtain ⟨n2, h2, _⟩ := C164_untransformed (env := Demo.env 0) (h := [((.mapcloud 1 (Demo.msg 1), Demo.env 0), "map")]) hs
    (Outcome.bind_eq_ok_iff.2 ⟨_, h1, rfl⟩) 2 (Demo.msg 2) (hval 2) "elsewhere"
  have h3 : step Demo.P0 Demo.lib (Demo.env 0) n2 (.mapcloudUpdate (Demo.msg 3)) =
      .ok (cbMapcloudUpdate Demo.P0 (Demo.env 0) n2 (Demo.msg 3), []) := rfl
  have hrun : ∃ fr, framesRun Demo.P0 Demo.lib n0 [] [((.mapcloud 1 (Demo.msg 1), Demo.env 0), "map"),
      ((.mapcloud 2 (Demo.msg 2), Demo.env 0), "elsewhere"), ((.mapcloudUpdate (Demo.msg 3), Demo.env 0), "odom")] =
      .ok (cbMapcloudUpdate Demo.P0 (Demo.env 0) n2 (Demo.msg 3), fr) :=
    ⟨_, Outcome.bind_eq_ok_iff.2 ⟨_, h1, Outcome.bind_eq_ok_iff.2 ⟨_, h2, Outcome.bind_eq_ok_iff.2 ⟨_, h3, rfl⟩⟩⟩⟩
  obtain ⟨fr, hrun⟩ := hrun
  have hplain : ∃ outs, run Demo.P0 Demo.lib n0 [(.mapcloud 1 (Demo.msg 1), Demo.env 0),
      (.mapcloud 2 (Demo.msg 2), Demo.env 0), (.mapcloudUpdate (Demo.msg 3), Demo.env 0)] =
      .ok (cbMapcloudUpdate Demo.P0 (Demo.env 0) n2 (Demo.msg 3), outs) := by
    have := C164_unread Demo.P0 Demo.lib n0 [] [((.mapcloud 1 (Demo.msg 1), Demo.env 0), "map"),
      ((.mapcloud 2 (Demo.msg 2), Demo.env 0), "elsewhere"), ((.mapcloudUpdate (Demo.msg 3), Demo.env 0), "odom")]
    rw [hrun] at this
    obtain ⟨⟨m, outs⟩, g1, g2⟩ := Outcome.bind_eq_ok_iff.1 this.symm
    cases g2
    exact ⟨outs, g1⟩
  obtain ⟨outs, hplain⟩ := hplain
  have hm := mapInv_of_run hs hplain
  obtain ⟨m', o, g1, _, _, g4⟩ := mapTimer_spec (env := Demo.env 0) hm
  have hv : (mapView Demo.P0 [(.mapcloud 1 (Demo.msg 1), Demo.env 0), (.mapcloud 2 (Demo.msg 2), Demo.env 0),
      (.mapcloudUpdate (Demo.msg 3), Demo.env 0)]).available = true ∧
      (mapView Demo.P0 [(.mapcloud 1 (Demo.msg 1), Demo.env 0), (.mapcloud 2 (Demo.msg 2), Demo.env 0),
      (.mapcloudUpdate (Demo.msg 3), Demo.env 0)]).pending ≠ none := by
    simp [mapView, MapView.step, hval]
  have ho := g4 hv.1 hv.2
  refine ⟨n0, _, { cbMapcloudUpdate Demo.P0 (Demo.env 0) n2 (Demo.msg 3) with map := m' }, fr, _, o, _, hs, hrun, rfl,
    Outcome.bind_eq_ok_iff.2 ⟨_, g1, rfl⟩, by rw [ho]; exact List.mem_singleton.2 rfl, ?_, ?_⟩
  · simp [timeOfMap, Demo.env]
  · simp [frameOfMap, frameAfter, hval]

end Node
end Mcl3dl
