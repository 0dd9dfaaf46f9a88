import Verif.Proofs.NodeDemo
import Verif.Proofs.NodeTotal
import Verif.Spec.NodeMap

/-!
# C82, C84, C85: the node's map
-/

set_option linter.unusedSectionVars false

namespace Mcl3dl
namespace Node

variable {C : Type}

theorem fromROSMsg_valid (m : Conv.Msg) : (Conv.fromROSMsg m []).1 = validCloud m := by
  unfold Conv.fromROSMsg validCloud
  cases m.has "x" <;> cases m.has "y" <;> cases m.has "z" <;> simp
  unfold Conv.fromROSMsgImpl
  by_cases h : m.size = 0
  · simp [h]
  · cases m.has "intensity" <;> cases m.has "label" <;> simp [h]

/-- The relation between the members of the node and the user's view of the map. -/
def MapInv (P : Params) (m : MapSt) (v : MapView) : Prop :=
  m.hasMap = v.available ∧ m.update = v.pending ∧
  m.kd = ChunkedKdtree.setInputCloud (kdCfg P) (v.active.map Pt.pos) ∧
  ((m.base = none ∧ m.merged = none ∧ m.kdCloud = none ∧ v.available = false ∧ v.active = []) ∨
    ∃ b c, m.base = some b ∧ m.merged = some b ∧ m.kdCloud = some b ∧ m.heap[b]? = some c ∧
      c.points = v.active)

theorem mapInv_init (P : Params) : MapInv P ⟨false, [], none, none, none, fun _ => [], none, 0⟩ MapView.init :=
  ⟨rfl, rfl, rfl, .inl ⟨rfl, rfl, rfl, rfl, rfl⟩⟩

/-- The timer does what it should, and never touches a null pointer. -/
theorem mapTimer_spec {P : Params} {env : Env} {m : MapSt} {v : MapView} (h : MapInv P m v) :
    ∃ m' o, mapTimer P env m = .ok (m', o) ∧ MapInv P m' (v.step P (.timer, env)) ∧
      (∀ x ∈ o, x = .updatedMap (v.step P (.timer, env)).active) ∧
      (v.available = true → v.pending ≠ none → o = [.updatedMap (v.step P (.timer, env)).active]) := by
  obtain ⟨ha, hu, hk, hd⟩ := h
  unfold mapTimer MapView.step
  cases hav : v.available with
  | false =>
    rw [hav] at ha
    rw [if_neg (by simp [ha])]
    refine ⟨m, [], rfl, ?_, by simp, by simp⟩
    simp only [Bool.false_eq_true, if_false]
    exact ⟨ha.trans hav.symm, hu, hk, hd⟩
  | true =>
    rw [hav] at ha
    rw [if_pos ha]
    rcases hd with ⟨_, _, _, h4, _⟩ | ⟨b, c, hb, hm, hkc, hh, hc⟩
    · rw [hav] at h4; cases h4
    · cases hp : v.pending with
      | none =>
        rw [hu, hp, hm]
        refine ⟨m, [], rfl, ?_, by simp, by simp⟩
        simp only [if_true, Option.getD_none, List.append_nil]
        exact ⟨ha, hu.trans hp, hk, .inr ⟨b, c, hb, hm, hkc, hh, hc⟩⟩
      | some u =>
        rw [hu, hp, hm, hb]
        simp only [Option.bind_some, hh, Option.getD_some, if_true]
        refine ⟨_, _, rfl, ⟨by simp [ha], rfl, by simp [hc],
          .inr ⟨b, ⟨pclStamp (env.now 0), c.points ++ u⟩, rfl, rfl, rfl, ?_, by simp [hc]⟩⟩,
          by simp [hc], by simp [hc]⟩
        have hlt : b < m.heap.length := by
          by_contra hge
          rw [List.getElem?_eq_none (by omega)] at hh
          cases hh
        rw [List.getElem?_set_self hlt]

/-- Loading a map does what it should. -/
theorem loadMapCloud_spec {P : Params} {env : Env} (n : Node C) (stamp : ℕ) (pts : List Point) :
    ∃ n' o, loadMapCloud P env n stamp pts = .ok (n', o) ∧
      MapInv P n'.map ⟨true, none, env.voxel P.mapDownsample pts⟩ ∧
      (∀ x ∈ o, x = .updatedMap (env.voxel P.mapDownsample pts)) := by
  unfold loadMapCloud mapTimer
  simp only [if_true]
  have : (n.map.heap ++ [(⟨stamp, env.voxel P.mapDownsample pts⟩ : MapCloud)])[n.map.heap.length]? =
      some ⟨stamp, env.voxel P.mapDownsample pts⟩ := by simp
  rw [this]
  exact ⟨_, _, rfl, ⟨rfl, rfl, rfl, .inr ⟨n.map.heap.length, _, rfl, rfl, rfl, this, rfl⟩⟩, by simp⟩

theorem matchOutput_kinds {P : Params} {lib : Lib C} {env : Env} {m : MapSt} {stamp last : ℝ}
    {pts : List Point} {r : ℝ × List Out} (h : matchOutput P lib env m stamp last pts = .ok r) :
    ∀ x ∈ r.2, ∀ pts, x ≠ .updatedMap pts := by
  unfold matchOutput at h
  by_cases hc : (last + P.matchOutputInterval < stamp ∨ stamp + 1 < last) ∧
      (env.subMatched = true ∨ env.subUnmatched = true)
  · rw [if_pos hc] at h
    obtain ⟨s, _, h⟩ := Outcome.bind_eq_ok_iff.1 h
    simp only [Outcome.ok.injEq] at h
    rw [← h]
    cases env.subMatched <;> cases env.subUnmatched <;> simp
  · rw [if_neg hc] at h
    simp only [Outcome.ok.injEq] at h
    rw [← h]; simp

/-- Each callback does to the map what it should. -/
theorem step_map {P : Params} {lib : Lib C} {env : Env} {n n' : Node C} {ev : Event} {o : List Out}
    {v : MapView} (hi : MapInv P n.map v) (h : step P lib env n ev = .ok (n', o)) :
    MapInv P n'.map (v.step P (ev, env)) ∧ ∀ pts, .updatedMap pts ∈ o → pts = (v.step P (ev, env)).active := by
  have hmem : ∀ {l : List Out} {A : List Point}, (∀ x ∈ l, x = .updatedMap A) →
      ∀ pts, .updatedMap pts ∈ l → pts = A := by
    intro l A hl pts hp
    have := hl _ hp
    simpa using this
  cases ev with
  | mapcloud stamp msg =>
    have hval := fromROSMsg_valid msg
    rcases cbMapcloud_ok h with ⟨h1, rfl, rfl⟩ | ⟨h1, hl⟩
    · rw [hval] at h1
      simp only [MapView.step, h1, Bool.false_eq_true, if_false]
      refine ⟨⟨rfl, hi.2.1, hi.2.2.1, ?_⟩, by simp⟩
      rcases hi.2.2.2 with ⟨a, b, c, d, e⟩ | hx
      · exact .inl ⟨a, b, c, rfl, e⟩
      · exact .inr hx
    · rw [hval] at h1
      simp only [MapView.step, h1, if_true]
      obtain ⟨n2, o2, h2, hm, ho⟩ := loadMapCloud_spec (P := P) (env := env) n
        (pclStamp (if stamp ≠ 0 then stamp else env.now 1)) (pointsOf (Conv.fromROSMsg msg []).2)
      rw [h2] at hl
      simp only [Outcome.ok.injEq, Prod.mk.injEq] at hl
      obtain ⟨rfl, rfl⟩ := hl
      exact ⟨hm, hmem ho⟩
  | mapcloudUpdate msg =>
    have hval := fromROSMsg_valid msg
    simp only [step, Outcome.ok.injEq, Prod.mk.injEq] at h
    obtain ⟨rfl, rfl⟩ := h
    simp only [MapView.step, cbMapcloudUpdate]
    rcases hc : Conv.fromROSMsg msg [] with ⟨_ | _, pts⟩
    · rw [hc] at hval
      rw [if_neg (by simp [← hval])]
      exact ⟨hi, by simp⟩
    · rw [hc] at hval
      rw [if_pos hval.symm]
      refine ⟨⟨hi.1, ?_, hi.2.2⟩, by simp⟩
      simp [cloudPoints, pointsOf, hc]
  | loadPcd file =>
    rcases cbLoadPcd_ok h with ⟨rfl, rfl, rfl⟩ | ⟨pts, o1, rfl, hl, rfl⟩
    · simp only [MapView.step]
      refine ⟨⟨rfl, hi.2.1, hi.2.2.1, ?_⟩, by simp⟩
      rcases hi.2.2.2 with ⟨a, b, c, d, e⟩ | hx
      · exact .inl ⟨a, b, c, rfl, e⟩
      · exact .inr hx
    · simp only [MapView.step]
      obtain ⟨n2, o2, h2, hm, ho⟩ := loadMapCloud_spec (P := P) (env := env) n (pclStamp (env.now 1)) pts
      rw [h2] at hl
      simp only [Outcome.ok.injEq, Prod.mk.injEq] at hl
      obtain ⟨rfl, rfl⟩ := hl
      refine ⟨hm, fun pts hp => ?_⟩
      rcases List.mem_append.1 hp with hp | hp
      · exact hmem ho pts hp
      · simp at hp
  | timer =>
    obtain ⟨m', o', h1, h2, h3, _⟩ := mapTimer_spec (env := env) hi
    simp only [step, h1, Outcome.bind_ok, Outcome.ok.injEq, Prod.mk.injEq] at h
    obtain ⟨rfl, rfl⟩ := h
    exact ⟨h2, hmem h3⟩
  | cloud header msg =>
    obtain ⟨h1, _, _, _, h5⟩ := cbCloud_loc h
    rw [h1]
    refine ⟨hi, fun pts hp => ?_⟩
    rcases h5 with ⟨_, _, rfl⟩ | ⟨_, acc, c, h5⟩
    · simp at hp
    · exfalso
      obtain ⟨_, _, h6⟩ := measureCore_ok h5
      rcases h6 with ⟨_, _, _, rfl⟩ | ⟨_, hmeas⟩
      · simp at hp
      · generalize n'.loc = loc2 at hmeas
        cases hmeas with
        | noHeader => simp at hp
        | noTf => simp at hp
        | noOrigin => simp at hp
        | noPoints => simp [publishStatus] at hp
        | localized header p loc' outs _ _ _ hl =>
          obtain ⟨r, -, -, -, -, -, hmo, -, -, -, -, -, rfl⟩ := localize_ok hl
          have hmo' : ∀ x ∈ r.mo.2, ∀ pts, x ≠ .updatedMap pts := by
            exact matchOutput_kinds hmo
          simp only [List.mem_cons, List.mem_append, publishParticles, publishStatus, List.not_mem_nil, or_false,
            reduceCtorEq, false_or] at hp
          rcases hp with (hp | hp)
          · by_cases hpt : P.publishTf = true <;> simp [hpt] at hp
          · exact hmo' _ hp pts rfl
  | odom msg =>
    obtain ⟨h1, _, _, _, _, _, h7⟩ := sensor_frame _ h
    rw [h1]
    refine ⟨hi, fun pts hp => ?_⟩
    rcases h7 _ hp with h | h <;> cases h
  | imu msg =>
    obtain ⟨h1, _, _, _, _, _, h7⟩ := sensor_frame _ h
    rw [h1]
    refine ⟨hi, fun pts hp => ?_⟩
    rcases h7 _ hp with h | h <;> cases h
  | initialpose msg =>
    simp only [MapView.step]
    rcases cbPosition_ok h with ⟨rfl, rfl, hrej⟩ | ⟨hacc, t, st, ht, rfl, rfl⟩
    · rw [if_neg]
      · exact ⟨hi, by simp⟩
      · rintro ⟨h1, h2⟩
        rcases hrej with hrej | hrej
        · exact absurd hrej (not_lt.2 h1)
        · exact h2 hrej
    · rw [if_pos ⟨not_lt.1 hacc, by simp [ht]⟩]
      exact ⟨⟨hi.1, rfl, hi.2.2⟩, by simp [publishParticles]⟩
  | landmark msg =>
    obtain ⟨pf, _, rfl, rfl⟩ := cbLandmark_ok h
    exact ⟨hi, by simp [publishParticles]⟩
  | resize size =>
    obtain ⟨pf, _, rfl, rfl⟩ := cbResize_ok h
    exact ⟨hi, by simp [publishParticles]⟩
  | expansionReset =>
    obtain ⟨pf, _, rfl, rfl⟩ := cbExpansionReset_ok h
    exact ⟨hi, by simp [publishParticles]⟩
  | globalLocalization =>
    rcases cbGlobalLocalization_ok h with ⟨_, rfl, rfl⟩ | ⟨_, c, pf, ps, _, _, _, rfl, rfl⟩ <;>
      exact ⟨hi, by simp⟩
  | reconfigure w =>
    simp only [step, Outcome.ok.injEq, Prod.mk.injEq] at h
    obtain ⟨rfl, rfl⟩ := h
    exact ⟨hi, by simp⟩

theorem run_map {P : Params} {lib : Lib C} {h : History} {n n' : Node C} {outs : List (List Out)}
    {v : MapView} (hi : MapInv P n.map v) (hr : run P lib n h = .ok (n', outs)) :
    MapInv P n'.map (h.foldl (MapView.step P) v) := by
  induction h generalizing n outs v with
  | nil =>
    simp only [run, Outcome.ok.injEq, Prod.mk.injEq] at hr
    rw [← hr.1]; exact hi
  | cons e h ih =>
    obtain ⟨ev, env⟩ := e
    obtain ⟨n1, o, os, h1, h2, _⟩ := run_cons_ok hr
    exact ih (step_map hi h1).1 h2

theorem mapInv_of_run {P : Params} {lib : Lib C} {env0 : Env} {motion0 : Motion ℝ} {n0 n : Node C}
    {h : History} {outs : List (List Out)} (hs : start P lib env0 motion0 = .ok n0)
    (hr : run P lib n0 h = .ok (n, outs)) : MapInv P n.map (mapView P h) := by
  refine run_map ?_ hr
  obtain ⟨_, ns, _, rfl⟩ := start_ok hs
  exact mapInv_init P

theorem mapView_available (P : Params) (h : History) :
    (mapView P h).available = (h.map Prod.fst).foldl mapAvailable false := by
  have key : ∀ v : MapView, (h.foldl (MapView.step P) v).available =
      (h.map Prod.fst).foldl mapAvailable v.available := by
    induction h with
    | nil => intro v; rfl
    | cons e h ih =>
      intro v
      simp only [List.foldl_cons, List.map_cons, ih]
      congr 1
      obtain ⟨ev, env⟩ := e
      cases ev with
      | loadPcd f => cases f <;> rfl
      | mapcloud stamp m => simp only [MapView.step, mapAvailable]; split_ifs with h <;> simp [h]
      | mapcloudUpdate m => simp only [MapView.step, mapAvailable]; split_ifs <;> rfl
      | timer => simp only [MapView.step, mapAvailable]; split_ifs <;> rfl
      | initialpose m => simp only [MapView.step, mapAvailable]; split_ifs <;> rfl
      | _ => rfl
  exact key _

/-! ## C82 -/

/-- C82: after any history whose last attempt to load a map failed (or that has none), a cloud changes
nothing but the status members, publishes nothing, and is neither accumulated nor measured. -/
theorem C82_cloud_ignored_without_map {P : Params} {lib : Lib C} {env0 : Env} {motion0 : Motion ℝ}
    {n0 n : Node C} {h : History} {outs : List (List Out)} (hs : start P lib env0 motion0 = .ok n0)
    (hr : run P lib n0 h = .ok (n, outs)) (hno : (h.map Prod.fst).foldl mapAvailable false = false)
    (env : Env) (header : Header) (msg : Conv.Msg) :
    step P lib env n (.cloud header msg) =
      .ok ({ n with loc := { n.loc with status := Status.fresh (env.now 0) } }, []) := by
  have hi := mapInv_of_run hs hr
  rw [← mapView_available P h] at hno
  exact cbCloud_noMap (hi.1.trans hno)

/-- The hypotheses are met: a map was loaded, then another load failed. -/
example : ∃ (n0 n : Node Unit) (outs : List (List Out)),
    start Demo.P0 Demo.lib (Demo.env 0) Demo.motion0 = .ok n0 ∧
    run Demo.P0 Demo.lib n0 [(.mapcloud 0 (Demo.msg 1), Demo.env 0), (.loadPcd none, Demo.env 1)] = .ok (n, outs) ∧
    ([.mapcloud 0 (Demo.msg 1), .loadPcd none] : List Event).foldl mapAvailable false = false ∧
    (mapView Demo.P0 [(.mapcloud 0 (Demo.msg 1), Demo.env 0)]).available = true := by
  obtain ⟨n0, hs⟩ := start_total Demo.P0 Demo.lib (Demo.env 0) Demo.motion0 (by simp)
  have hval : validCloud (Demo.msg 1) = true := by rw [← fromROSMsg_valid, Demo.fromROSMsg_msg]
  obtain ⟨n1, o1, h1, _⟩ := loadMapCloud_spec (P := Demo.P0) (env := Demo.env 0) n0
    (pclStamp (if (0 : ℝ) ≠ 0 then 0 else (Demo.env 0).now 1)) (pointsOf [⟨⟨1, 0, 0⟩, 0, 0⟩])
  refine ⟨n0, { n1 with map := { n1.map with hasMap := false } }, [o1, [.response false]], hs, ?_, rfl, ?_⟩
  · simp only [run, step, cbMapcloud, Demo.fromROSMsg_msg, h1, Outcome.bind_ok, cbLoadPcd]
  · simp [mapView, MapView.step, hval]

/-! ## C85 -/

/-- C85: after any history, a map is available exactly if the view says so, nearest neighbour searches
are answered from the loaded map followed by the merged updates, and the ray caster sees the same
points. -/
theorem C85_active_map {P : Params} {lib : Lib C} {env0 : Env} {motion0 : Motion ℝ}
    {n0 n : Node C} {h : History} {outs : List (List Out)} (hs : start P lib env0 motion0 = .ok n0)
    (hr : run P lib n0 h = .ok (n, outs)) :
    n.map.hasMap = (mapView P h).available ∧
    (∀ p r, search P lib n.map p r = ChunkedKdtree.radiusSearch (kdCfg P)
      (ChunkedKdtree.setInputCloud (kdCfg P) ((mapView P h).active.map Pt.pos)) lib.flann p r 1) ∧
    ((mapView P h).available = true →
      ∃ c, n.map.input = some c ∧ c.pts = (mapView P h).active.map fun p => (p.pos, p.attr)) := by
  obtain ⟨ha, hu, hk, hd⟩ := mapInv_of_run hs hr
  refine ⟨ha, fun p r => by unfold search; rw [hk], fun hav => ?_⟩
  rcases hd with ⟨_, _, _, h4, _⟩ | ⟨b, c, hb, hm, hkc, hh, hc⟩
  · rw [hav] at h4; cases h4
  · exact ⟨⟨n.map.version, c.stamp, c.points.map fun p => (p.pos, p.attr)⟩,
      by simp only [MapSt.input, hkc, Option.bind_some, hh, Option.map_some], by simp [hc]⟩

/-- C85: every map the node publishes is the active map at that moment. -/
theorem C85_published_map {P : Params} {lib : Lib C} {env0 : Env} {motion0 : Motion ℝ}
    {n0 n n' : Node C} {h : History} {outs : List (List Out)} {ev : Event} {env : Env} {o : List Out}
    (hs : start P lib env0 motion0 = .ok n0) (hr : run P lib n0 h = .ok (n, outs))
    (hstep : step P lib env n ev = .ok (n', o)) (pts : List Point) (hp : .updatedMap pts ∈ o) :
    pts = (mapView P (h ++ [(ev, env)])).active := by
  have := (step_map (mapInv_of_run hs hr) hstep).2 pts hp
  rw [this]
  simp [mapView, List.foldl_append]

/-- C85: loading a map succeeds in any state and discards all earlier maps, the pending update, the
clouds accumulated so far with their headers, and the state of the accumulation; nothing else
changes except the output accumulated for writing a file. -/
theorem C85_load_discards (P : Params) (lib : Lib C) (n : Node C) (h : History) (ev : Event) (env : Env)
    (pts : List Point)
    (hev : ev = .loadPcd (some pts) ∨
      ∃ stamp m, ev = .mapcloud stamp m ∧ validCloud m = true ∧ pts = cloudPoints m) :
    ∃ n' o, step P lib env n ev = .ok (n', o) ∧
      mapView P (h ++ [(ev, env)]) = ⟨true, none, env.voxel P.mapDownsample pts⟩ ∧
      MapInv P n'.map ⟨true, none, env.voxel P.mapDownsample pts⟩ ∧
      n'.acc = ⟨CloudAccum.St.init, some [], []⟩ ∧
      n' = { n with map := n'.map, acc := n'.acc, loc := { n.loc with allAccum := some [] } } := by
  have key : ∀ stamp : ℕ, ∃ n' o, loadMapCloud P env n stamp pts = .ok (n', o) ∧
      MapInv P n'.map ⟨true, none, env.voxel P.mapDownsample pts⟩ ∧
      n'.acc = ⟨CloudAccum.St.init, some [], []⟩ ∧
      n' = { n with map := n'.map, acc := n'.acc, loc := { n.loc with allAccum := some [] } } := by
    intro stamp
    obtain ⟨n', o, h1, h2, _⟩ := loadMapCloud_spec (P := P) (env := env) n stamp pts
    refine ⟨n', o, h1, h2, ?_⟩
    obtain ⟨m, _, rfl⟩ := loadMapCloud_ok h1
    exact ⟨rfl, rfl⟩
  rcases hev with rfl | ⟨stamp, m, rfl, hm, rfl⟩
  · obtain ⟨n', o, h1, h2, h3, h4⟩ := key (pclStamp (env.now 1))
    refine ⟨n', o ++ [.response true], ?_, by simp [mapView, List.foldl_append, MapView.step], h2, h3, h4⟩
    simp only [step, cbLoadPcd, h1, Outcome.bind_ok]
  · obtain ⟨n', o, h1, h2, h3, h4⟩ := key (pclStamp (if stamp ≠ 0 then stamp else env.now 1))
    refine ⟨n', o, ?_, by simp [mapView, List.foldl_append, MapView.step, hm], h2, h3, h4⟩
    simp only [step, cbMapcloud]
    have hval := fromROSMsg_valid m
    rcases hc : Conv.fromROSMsg m [] with ⟨_ | _, pts⟩
    · rw [hc] at hval; rw [← hval] at hm; cases hm
    · simp only
      rw [cloudPoints, hc] at h1
      exact h1

/-! ## C84 -/

/-- Events that do not concern the map. -/
def quiet : Event → Bool
  | .mapcloud _ _ | .mapcloudUpdate _ | .loadPcd _ | .timer | .initialpose _ => false
  | _ => true

theorem foldl_quiet (P : Params) (v : MapView) (h : History) (hq : ∀ e ∈ h, quiet e.1 = true) :
    h.foldl (MapView.step P) v = v := by
  induction h with
  | nil => rfl
  | cons e h ih =>
    have he := hq e List.mem_cons_self
    have : v.step P e = v := by
      obtain ⟨ev, env⟩ := e
      cases ev <;> first | rfl | simp [quiet] at he
    rw [List.foldl_cons, this]
    exact ih fun e he => hq e (List.mem_cons_of_mem _ he)

/-- C84: the first update merged after a map has been loaded makes the active map the loaded
map plus the update, and this is what is published.  (Later updates come on top: C85, `C84_second_update_example`.) -/
theorem C84_first_update {P : Params} {lib : Lib C} {env0 : Env} {motion0 : Motion ℝ}
    {n0 n n' : Node C} {before mid1 mid2 : History} {outs : List (List Out)} {o : List Out}
    {base : List Point} {upd : Conv.Msg} {e1 e2 e3 : Env} (hupd : validCloud upd = true)
    (hq1 : ∀ e ∈ mid1, quiet e.1 = true) (hq2 : ∀ e ∈ mid2, quiet e.1 = true)
    (hs : start P lib env0 motion0 = .ok n0)
    (hr : run P lib n0 (before ++ [(.loadPcd (some base), e1)] ++ mid1 ++ [(.mapcloudUpdate upd, e2)] ++ mid2) =
      .ok (n, outs))
    (ht : step P lib e3 n .timer = .ok (n', o)) :
    o = [.updatedMap (e1.voxel P.mapDownsample base ++ e2.voxel P.updateDownsample (cloudPoints upd))] ∧
    ∀ p r, search P lib n'.map p r = ChunkedKdtree.radiusSearch (kdCfg P)
      (ChunkedKdtree.setInputCloud (kdCfg P)
        ((e1.voxel P.mapDownsample base ++ e2.voxel P.updateDownsample (cloudPoints upd)).map Pt.pos))
      lib.flann p r 1 := by
  have hi := mapInv_of_run hs hr
  have hv : mapView P (before ++ [(.loadPcd (some base), e1)] ++ mid1 ++ [(.mapcloudUpdate upd, e2)] ++ mid2) =
      ⟨true, some (e2.voxel P.updateDownsample (cloudPoints upd)), e1.voxel P.mapDownsample base⟩ := by
    simp only [mapView, List.foldl_append, foldl_quiet _ _ mid1 hq1, foldl_quiet _ _ mid2 hq2]
    simp [MapView.step, hupd]
  rw [hv] at hi
  obtain ⟨m', o', h1, h2, _, h4⟩ := mapTimer_spec (env := e3) hi
  simp only [step, h1, Outcome.bind_ok, Outcome.ok.injEq, Prod.mk.injEq] at ht
  obtain ⟨rfl, rfl⟩ := ht
  refine ⟨h4 rfl (by simp), fun p r => ?_⟩
  unfold search
  simp only
  rw [h2.2.2.1]
  rfl

/-- The hypotheses are met. -/
example : ∃ (n0 n n' : Node Unit) (outs : List (List Out)) (o : List Out),
    start Demo.P0 Demo.lib (Demo.env 0) Demo.motion0 = .ok n0 ∧ validCloud (Demo.msg 1) = true ∧
    run Demo.P0 Demo.lib n0 ([] ++ [(.loadPcd (some [⟨⟨0, 0, 0⟩, 0⟩]), Demo.env 0)] ++
      [(.reconfigure 0, Demo.env 1)] ++ [(.mapcloudUpdate (Demo.msg 1), Demo.env 2)] ++ []) = .ok (n, outs) ∧
    step Demo.P0 Demo.lib (Demo.env 3) n .timer = .ok (n', o) := by
  obtain ⟨n0, hs⟩ := start_total Demo.P0 Demo.lib (Demo.env 0) Demo.motion0 (by simp)
  obtain ⟨n1, o1, h1, _⟩ := C85_load_discards Demo.P0 Demo.lib n0 [] (.loadPcd (some [⟨⟨0, 0, 0⟩, 0⟩]))
    (Demo.env 0) [⟨⟨0, 0, 0⟩, 0⟩] (.inl rfl)
  have hr : run Demo.P0 Demo.lib n0 ([] ++ [(.loadPcd (some [⟨⟨0, 0, 0⟩, 0⟩]), Demo.env 0)] ++
      [(.reconfigure 0, Demo.env 1)] ++ [(.mapcloudUpdate (Demo.msg 1), Demo.env 2)] ++ []) =
      .ok (cbMapcloudUpdate Demo.P0 (Demo.env 2) { n1 with stdWarn := 0 } (Demo.msg 1), [o1, [], []]) := by
    simp only [List.nil_append, List.append_nil, List.cons_append, run, h1, Outcome.bind_ok]
    rfl
  obtain ⟨m', o', h2, _⟩ := mapTimer_spec (env := Demo.env 3) (mapInv_of_run hs hr)
  exact ⟨n0, _, _, _, o', hs, by rw [← fromROSMsg_valid, Demo.fromROSMsg_msg], hr,
    by simp only [step, h2, Outcome.bind_ok]; rfl⟩

/-- C84, the second update: the merged map is written over the base map (both members point to the same cloud after
a map has been loaded), so a second update comes on top of the first: the published map is not the base map
with the latest update. -/
theorem C84_second_update_example :
    ∃ (h : History) (n0 n : Node Unit) (outs : List (List Out)) (pts base : List Point) (latest : Conv.Msg),
      HistValid h ∧ start Demo.P0 Demo.lib (Demo.env 0) Demo.motion0 = .ok n0 ∧
      h.map Prod.fst = [.loadPcd (some base), .mapcloudUpdate (Demo.msg 1), .timer, .mapcloudUpdate latest, .timer] ∧
      run Demo.P0 Demo.lib n0 h = .ok (n, outs) ∧ outs.getLast? = some [.updatedMap pts] ∧
      (∀ leaf l, (Demo.env 0).voxel leaf l = l) ∧ pts ≠ base ++ cloudPoints latest ∧
      pts = base ++ cloudPoints (Demo.msg 1) ++ cloudPoints latest := by
  obtain ⟨n0, hs⟩ := start_total Demo.P0 Demo.lib (Demo.env 0) Demo.motion0 (by simp)
  obtain ⟨n1, o1, h1, -, hm1, -⟩ := C85_load_discards Demo.P0 Demo.lib n0 [] (.loadPcd (some [⟨⟨0, 0, 0⟩, 0⟩]))
    (Demo.env 0) [⟨⟨0, 0, 0⟩, 0⟩] (.inl rfl)
  have hval : ∀ x, validCloud (Demo.msg x) = true := fun x => by
    rw [← fromROSMsg_valid, Demo.fromROSMsg_msg]
  have upd : ∀ (n : Node Unit) (v : MapView) x, MapInv Demo.P0 n.map v → v.available = true → v.pending = none →
      ∃ n1 n2, run Demo.P0 Demo.lib n [(.mapcloudUpdate (Demo.msg x), Demo.env 0), (.timer, Demo.env 0)] =
          .ok (n2, [[], [.updatedMap (v.active ++ cloudPoints (Demo.msg x))]]) ∧
        step Demo.P0 Demo.lib (Demo.env 0) n (.mapcloudUpdate (Demo.msg x)) = .ok (n1, []) ∧
        MapInv Demo.P0 n2.map ⟨true, none, v.active ++ cloudPoints (Demo.msg x)⟩ := by
    intro n v x hi hav hpe
    have h2 : step Demo.P0 Demo.lib (Demo.env 0) n (.mapcloudUpdate (Demo.msg x)) =
        .ok (cbMapcloudUpdate Demo.P0 (Demo.env 0) n (Demo.msg x), []) := rfl
    have h3 := (step_map hi h2).1
    simp only [MapView.step, hval, if_true] at h3
    obtain ⟨m', o', h4, h5, h6, h7⟩ := mapTimer_spec (env := Demo.env 0) h3
    refine ⟨_, { cbMapcloudUpdate Demo.P0 (Demo.env 0) n (Demo.msg x) with map := m' }, ?_, h2, ?_⟩
    · have h8 := h7 hav (by simp)
      simp only [run, Outcome.bind_ok, step, h4, h8]
      simp [MapView.step, hav, Demo.env]
    · simpa [MapView.step, hav, Demo.env] using h5
  obtain ⟨-, n3, h3, -, hm3⟩ := upd n1 _ 1 hm1 rfl rfl
  obtain ⟨-, n5, h5, -, hm5⟩ := upd n3 _ 2 hm3 rfl rfl
  refine ⟨[(.loadPcd (some [⟨⟨0, 0, 0⟩, 0⟩]), Demo.env 0)] ++
    ([(.mapcloudUpdate (Demo.msg 1), Demo.env 0), (.timer, Demo.env 0)] ++
      [(.mapcloudUpdate (Demo.msg 2), Demo.env 0), (.timer, Demo.env 0)]), n0, n5,
    o1 :: ([[], [.updatedMap ([⟨⟨0, 0, 0⟩, 0⟩] ++ cloudPoints (Demo.msg 1))]] ++
      [[], [.updatedMap ([⟨⟨0, 0, 0⟩, 0⟩] ++ cloudPoints (Demo.msg 1) ++ cloudPoints (Demo.msg 2))]]), _,
    [⟨⟨0, 0, 0⟩, 0⟩], Demo.msg 2, ?_, hs, rfl, ?_, rfl, fun _ _ => rfl, ?_, rfl⟩
  · intro e he
    simp only [List.cons_append, List.nil_append, List.mem_cons, List.not_mem_nil, or_false] at he
    rcases he with rfl | rfl | rfl | rfl | rfl <;> exact Demo.env_valid 0
  · rw [run_append]
    have hr1 : run Demo.P0 Demo.lib n0 [(.loadPcd (some [⟨⟨0, 0, 0⟩, 0⟩]), Demo.env 0)] = .ok (n1, [o1]) := by
      simp only [run, h1, Outcome.bind_ok]
    rw [hr1, Outcome.bind_ok, run_append]
    simp only
    rw [h3, Outcome.bind_ok]
    simp only
    rw [h5]
    rfl
  · simp [cloudPoints, Demo.fromROSMsg_msg]

end Node
end Mcl3dl
