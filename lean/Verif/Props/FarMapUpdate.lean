import Verif.Props.FarMap
import Verif.Props.Agree

/-! # C180 for a map update, with a concrete case -/

set_option linter.unusedSectionVars false

namespace Mcl3dl
namespace Node

variable {C : Type}

/-- An update of the map and the timer that merges it change nothing but the map. -/
theorem update_only_map {P : Params} {lib : Lib C} {env0 : Env} {motion0 : Motion ℝ} {h : History} {n0 n : Node C}
    {outs : List (List Out)} (hs : start P lib env0 motion0 = .ok n0) (hr : run P lib n0 h = .ok (n, outs))
    (upd : Conv.Msg) (eu et : Env) :
    ∃ n' outs', run P lib n0 (h ++ [(.mapcloudUpdate upd, eu), (.timer, et)]) = .ok (n', outs') ∧ n' = { n with map := n'.map } := by
  have h1 : run P lib n0 (h ++ [(.mapcloudUpdate upd, eu)]) = .ok (cbMapcloudUpdate P eu n upd, outs ++ [[]]) := by
    rw [run_append, hr, Outcome.bind_ok]
    simp only [run, step, Outcome.bind_ok]
  have hm : cbMapcloudUpdate P eu n upd = { n with map := (cbMapcloudUpdate P eu n upd).map } := by
    unfold cbMapcloudUpdate
    cases Conv.fromROSMsg upd [] with
    | mk a b => cases a <;> rfl
  obtain ⟨m', o, h2, _⟩ := mapTimer_spec (env := et) (mapInv_of_run hs h1)
  refine ⟨{ n with map := m' }, outs ++ [[]] ++ [o], ?_, rfl⟩
  have : h ++ [(.mapcloudUpdate upd, eu), (.timer, et)] = (h ++ [(.mapcloudUpdate upd, eu)]) ++ [(.timer, et)] := by simp
  rw [this, run_append, h1, Outcome.bind_ok]
  simp only [run, step]
  rw [h2]
  simp only [Outcome.bind_ok]
  rw [hm]

section
variable {P : Params} {flann : List (Vec3 ℝ) → Vec3 ℝ → ℝ → ℕ → List (ℕ × ℝ)}
    {solve3 : Matrix (Fin 3) (Fin 3) ℝ → (Fin 3 → ℝ) × Matrix (Fin 3) (Fin 3) ℝ}
    {solve6 : (Fin 6 → Fin 6 → ℝ) → (Fin 6 → ℝ) × (Fin 6 → Fin 6 → ℝ)}

/-- **C180** for an update: a node with a map that gets an update, which the timer merges into the map, deals with the next
cloud as if it had not got the update, if the measurement does not see the difference. -/
theorem C180_update (hM : Measures P) (hdda : P.useDda = false) {w : Vec3 ℝ} (hw : 1 ≤ w.x ∧ 1 ≤ w.y ∧ 1 ≤ w.z)
    (hfl : ∀ pts q r num, ExactSearch pts (weightedDist w q) r num (flann pts q r num))
    (hg : 0 < P.mapDownsample.x ∧ 0 < P.mapDownsample.y ∧ 0 < P.mapDownsample.z)
    {env0 : Env} (hv0 : env0.Valid) {motion0 : Motion ℝ} {h : History} {n0 n : Node CastSt} {outs : List (List Out)}
    (hv : HistValid h) (hs : start P (realLib P flann solve3 solve6) env0 motion0 = .ok n0)
    (hr : run P (realLib P flann solve3 solve6) n0 h = .ok (n, outs)) (ha : (mapView P h).available = true)
    (upd : Conv.Msg) (eu et : Env) :
    ∃ n' outs', run P (realLib P flann solve3 solve6) n0 (h ++ [(.mapcloudUpdate upd, eu), (.timer, et)]) = .ok (n', outs') ∧
      n' = { n with map := n'.map } ∧
      ∀ {env : Env} {header : Header} {msg : Conv.Msg} {n1 : Node CastSt} {o : List Out}, env.Valid →
        env.subMatched = false ∧ env.subUnmatched = false → RegularClouds (h ++ [(.cloud header msg, env)]) →
        step P (realLib P flann solve3 solve6) env n (.cloud header msg) = .ok (n1, o) →
        (∀ b s t, Measuring P h (.cloud header msg, env) b s → env.tf P.baseFrame P.odomFrame s.header.stamp = some t →
          (∀ q ∈ n.loc.pf.particles, LooksAlike P w (mapView P h).active
            (mapView P (h ++ [(.mapcloudUpdate upd, eu), (.timer, et)])).active env (b ++ [s]) s.header.stamp t q.state) ∧
          LooksAlike P w (mapView P h).active (mapView P (h ++ [(.mapcloudUpdate upd, eu), (.timer, et)])).active env (b ++ [s])
            s.header.stamp t n1.loc.statePrev) →
        step P (realLib P flann solve3 solve6) env n' (.cloud header msg) = .ok ({ n1 with map := n'.map }, o) := by
  obtain ⟨n', outs', hr', hn⟩ := update_only_map hs hr upd eu et
  refine ⟨n', outs', hr', hn, ?_⟩
  intro env header msg n1 o hve hsub hreg h1 hsame
  refine C180_cloud hM hdda hw hfl hg hv0 hv hs hr hs hr' hn ha ?_ hve hsub hreg h1 hsame
  simp only [mapView, List.foldl_append, List.foldl_cons, List.foldl_nil] at ha ⊢
  generalize h.foldl (MapView.step P) MapView.init = v at ha ⊢
  simp only [MapView.step]
  by_cases h1 : validCloud upd = true
  · rw [if_pos h1, if_pos (show ({ v with pending := _ } : MapView).available = true from ha)]; exact ha
  · rw [if_neg h1, if_pos ha]; exact ha

end

namespace Demo

/-- The cloud of the quiet history is measured, and its pose published. -/
theorem quiet_pose {L : Lib C} {n0 n : Node C} {outs : List (List Out)} {o : List Out}
    (hs : start P0 L (env 0) motion0 = .ok n0) (hr : run P0 L n0 quietHistory = .ok (n, outs ++ [o])) :
    ∃ pos rot cov, .pose 3 P0.mapFrame pos rot cov ∈ o := by
  have hv : HistValid quietHistory := fun e he => (quietHistory_ok e he).1
  have hb := poseHistory_view 2 2 3
  have hstep : (batchStep P0 (batchView P0 (poseHistory 2 2 3)).1 (batchView P0 (poseHistory 2 2 3)).2 quietCloud).1 =
      some ([] ++ [⟨⟨"laser", 3⟩, [⟨2, 0, 0⟩, ⟨3, 0, 0⟩]⟩]) := by
    rw [hb]
    simp [batchStep, completes_one (3 : ℝ), quietCloud]
  have hm : batches [o] = [true] := by
    rcases C111_batches quietHistory_regular hs hr with ⟨h3, _⟩ | ⟨_, _, _, h3 | h3⟩
    · rw [hstep] at h3; cases h3
    · exact h3
    · exfalso
      obtain ⟨n1, os, o1, g1, g2, g3⟩ := run_snoc_ok hr
      obtain ⟨_, ho1⟩ := List.append_inj' g3 rfl
      simp only [List.cons.injEq, and_true] at ho1
      subst ho1
      rcases (step_view (by simp) quiet_valid g2).batch with ⟨hbn, _⟩ | ⟨_, _, ⟨hne, _⟩ | ⟨_, hbt⟩⟩
      · rw [h3] at hbn; cases hbn
      · exact hne (by simp [Params.toSize, Nat.mod_one])
      · rw [h3] at hbt; cases hbt
  have hC := (C112_measured (P := P0) (by
    simp [P0, Params.loadFrom, Params.loadLike, Server.intD, Server.getInt, Params.toSize]) (env_valid 0) hv quietHistory_regular
    hs hr hstep hm).2
  obtain ⟨⟨pos, rot, cov, hp⟩, _⟩ := (hC ⟨by simp [quietCloud, env], fun _ _ => by simp [quietCloud, env]⟩ tf0 rfl).2
    (usable_msg2 4 3 2 3 (by norm_num) (by norm_num))
  refine ⟨pos, rot, cov, ?_⟩
  have : Out.pose 3 P0.mapFrame pos rot cov ∈ o.filter (fun x => (Out.poseCov x).isSome) := by rw [hp]; simp
  exact (List.mem_filter.1 this).1

theorem sameRotation_normalized {q : Quat ℝ} (h : Quat.SameRotation q 1) (v : Vec3 ℝ) : q.normalized.rotate v = v := by
  have : q.dot q = 1 := by
    rcases h with rfl | rfl
    · show (0:ℝ) * 0 + 0 * 0 + 0 * 0 + 1 * 1 = 1; norm_num
    · show (-0:ℝ) * -0 + -0 * -0 + -0 * -0 + -1 * -1 = 1; norm_num
  rw [Quat.C31_normalized_unit _ this]
  exact sameRotation_one h v

/-- A point far away makes no difference for a robot at the origin that sees points at 2 and 3. -/
theorem far_alike {s : State6 ℝ} (hp : s.pos = 0) (hr : Quat.SameRotation s.rot 1) :
    LooksAlike P0 ⟨1, 1, 5⟩ [⟨⟨2, 0, 0⟩, 0⟩] [⟨⟨2, 0, 0⟩, 0⟩, ⟨⟨100, 0, 0⟩, 0⟩] quietCloud.2
      ([] ++ [⟨⟨"laser", 3⟩, [⟨2, 0, 0⟩, ⟨3, 0, 0⟩]⟩]) 3 tf0 s := by
  have hpts : ∀ q ∈ quietCloud.2.voxel P0.downsample ((labelled ([] ++ [⟨⟨"laser", 3⟩, [⟨2, 0, 0⟩, ⟨3, 0, 0⟩]⟩])).map
      fun p => { p with pos := tf0.point p.pos }), (q.pos = ⟨2, 0, 0⟩ ∨ q.pos = ⟨3, 0, 0⟩) ∧ q.attr = 0 := by
    intro q hq
    simp only [List.nil_append, labelled_single, List.map_cons, List.map_nil, tf0_point] at hq
    have hq : q ∈ [(⟨⟨2, 0, 0⟩, 0⟩ : Point), ⟨⟨3, 0, 0⟩, 0⟩] := hq
    simp only [List.mem_cons, List.not_mem_nil, or_false] at hq
    rcases hq with rfl | rfl <;> simp
  have hmin : P0.like.matchDistMin = 1 / 5 := by
    norm_num [P0, Params.loadFrom, Params.loadLike, Server.dblD, Server.getDouble]
  have hcfg : rayCfg P0 = ⟨1 / 10, 1 / 10, 1 / 10, 3 / 10⟩ := by
    norm_num [rayCfg, P0, Params.loadFrom, Params.loadBeam, Server.dblD, Server.getDouble]
  have hstep : KDRay.stepOf (rayCfg P0) = 1 / 10 := by rw [hcfg, KDRay.stepOf_eq]; simp [KDRay.Cfg.gridMin]
  have hlarge : KDRay.largest (rayCfg P0) = 1 / 10 := by rw [hcfg, KDRay.largest_eq]; simp [KDRay.Cfg.gridMax]
  have hreach : KDRay.reachOf (rayCfg P0) ^ 2 ≤ 1 ^ 2 := by
    unfold KDRay.reachOf
    rw [hstep, hlarge]
    have h1 : (1:ℝ) ≤ Real.sqrt 2 := by rw [Real.one_le_sqrt]; norm_num
    have h2 : 1 / 10 / Real.sqrt 2 ≤ 1 / 10 := by rw [div_le_iff₀ (by linarith)]; linarith
    have h3 : 0 ≤ 1 / 10 / Real.sqrt 2 := by positivity
    nlinarith
  have see : ∀ v : Vec3 ℝ, s.rot.normalized.rotate v + s.pos = v := by
    intro v
    rw [sameRotation_normalized hr, hp]
    ext <;> simp [Vec3.add_x, Vec3.add_y, Vec3.add_z, show (0 : Vec3 ℝ) = ⟨0, 0, 0⟩ from rfl]
  refine ⟨fun q hq _ m hm => ?_, fun q hq _ scan _ t' ht' => ?_⟩
  · rw [see, hmin] at hm
    have hfar : m ≠ ⟨100, 0, 0⟩ := by
      rintro rfl
      rcases (hpts q hq).1 with e | e <;> rw [e] at hm <;> norm_num [weightedDist] at hm
    simp [hfar]
  · have ht : t' = tf0 := (Option.some.inj ht').symm
    have hb : s.pos + s.rot.rotate t'.trans = ⟨0, 0, 0⟩ := by
      rw [sameRotation_one hr, hp, ht]
      ext <;> simp [tf0, Vec3.add_x, Vec3.add_y, Vec3.add_z, show (0 : Vec3 ℝ) = ⟨0, 0, 0⟩ from rfl]
    rw [hb, see]
    have hx : ∃ x : ℝ, q.pos = ⟨x, 0, 0⟩ ∧ 0 < x ∧ x ≤ 3 := by
      rcases (hpts q hq).1 with e | e
      · exact ⟨2, e, by norm_num, by norm_num⟩
      · exact ⟨3, e, by norm_num, by norm_num⟩
    obtain ⟨x, hx, h0, h3⟩ := hx
    have hlen : DDA.len ((⟨x, 0, 0⟩ : Vec3 ℝ) - ⟨0, 0, 0⟩) = x := by
      simp only [DDA.len, Vec3.sub_x, Vec3.sub_y, Vec3.sub_z]
      rw [show (x - 0) ^ 2 + ((0:ℝ) - 0) ^ 2 + (0 - 0) ^ 2 = x ^ 2 by ring, Real.sqrt_sq h0.le]
    have hray : ∀ t, DDA.rayPoint (⟨0, 0, 0⟩ : Vec3 ℝ) ⟨x, 0, 0⟩ t = ⟨t, 0, 0⟩ := by
      intro t
      simp only [DDA.rayPoint, hlen]
      ext <;> simp [h0.ne']
    rw [hx]
    refine ⟨fun t _ h2 m hm => ?_, fun k m m' _ _ h1 h2 => ?_⟩
    · have hfar : m ≠ (⟨100, 0, 0⟩, 0) := by
        rintro rfl
        have hd := lt_of_lt_of_le hm hreach
        rw [hlen, hcfg] at h2
        rw [hray] at hd
        simp only [weightedDist] at hd
        norm_num at h2 hd
        linarith [(abs_lt.1 hd).2]
      simp [labelledPoints, hfar]
    · have e1 := h1.1
      have e2 := h2.1
      simp only [labelledPoints, List.map_cons, List.map_nil, List.mem_singleton] at e1 e2
      rw [e1, e2]

/-- The hypotheses of C180 are met: with the default parameters and the ray caster of the node, a point that an update adds
at a distance of 100 m does not change the pose that is published, although the map is different. -/
example : ∃ n0 n n' n1 outs outs' o pos rot cov, start P0 (realLib P0 exactFlann lib.solve3 lib.solve6) (env 0) motion0 = .ok n0 ∧
    run P0 (realLib P0 exactFlann lib.solve3 lib.solve6) n0 (poseHistory 2 2 3) = .ok (n, outs) ∧
    run P0 (realLib P0 exactFlann lib.solve3 lib.solve6) n0
      (poseHistory 2 2 3 ++ [(.mapcloudUpdate (msg 100), env 3), (.timer, env 3)]) = .ok (n', outs') ∧
    (mapView P0 (poseHistory 2 2 3 ++ [(.mapcloudUpdate (msg 100), env 3), (.timer, env 3)])).active =
      [⟨⟨2, 0, 0⟩, 0⟩, ⟨⟨100, 0, 0⟩, 0⟩] ∧
    step P0 (realLib P0 exactFlann lib.solve3 lib.solve6) quietCloud.2 n quietCloud.1 = .ok (n1, o) ∧
    .pose 3 P0.mapFrame pos rot cov ∈ o ∧
    step P0 (realLib P0 exactFlann lib.solve3 lib.solve6) quietCloud.2 n' quietCloud.1 = .ok ({ n1 with map := n'.map }, o) := by
  obtain ⟨n0, n1, outs1, hs, hr1, _⟩ := quietHistory_runs
  obtain ⟨n, outs, o, g1, g2, rfl⟩ := run_snoc_ok hr1
  obtain ⟨pos, rot, cov, hpose⟩ := quiet_pose hs hr1
  have hv := poseHistory_valid 2 2 3
  have hmap := poseHistory_map 2 2 3
  have hmap' : (mapView P0 (poseHistory 2 2 3 ++ [(.mapcloudUpdate (msg 100), env 3), (.timer, env 3)])).active =
      [⟨⟨2, 0, 0⟩, 0⟩, ⟨⟨100, 0, 0⟩, 0⟩] := by
    simp [mapView, poseHistory, MapView.step, validCloud_msg, cloudPoints, fromROSMsg_msg, env]
  obtain ⟨n', outs', hr', _, hall⟩ := C180_update measures
    (by simp [P0, Params.loadFrom, Server.boolD, Server.getBool]) (w := ⟨1, 1, 5⟩) (by norm_num) exactFlann_spec
    (by norm_num [P0, Params.loadFrom, Server.dblD, Server.getDouble]) (env_valid 0) hv hs g1
    (by simp [mapView, poseHistory, MapView.step, validCloud_msg]) (msg 100) (env 3) (env 3)
  refine ⟨n0, n, n', n1, outs, outs', o, pos, rot, cov, hs, g1, hr', hmap', g2, hpose, ?_⟩
  refine hall quiet_valid ⟨rfl, rfl⟩ quietHistory_regular g2 fun b s t hmeas ht => ?_
  have hstep : (batchStep P0 (batchView P0 (poseHistory 2 2 3)).1 (batchView P0 (poseHistory 2 2 3)).2 quietCloud).1 =
      some ([] ++ [⟨⟨"laser", 3⟩, [⟨2, 0, 0⟩, ⟨3, 0, 0⟩]⟩]) := by
    rw [poseHistory_view]
    simp [batchStep, completes_one (3 : ℝ), quietCloud]
  have hbs : b ++ [s] = [] ++ [⟨⟨"laser", 3⟩, [⟨2, 0, 0⟩, ⟨3, 0, 0⟩]⟩] := Option.some.inj (hmeas.symm.trans hstep)
  obtain ⟨rfl, hs1⟩ := List.append_inj' hbs rfl
  obtain rfl : s = ⟨⟨"laser", 3⟩, [⟨2, 0, 0⟩, ⟨3, 0, 0⟩]⟩ := by simpa using hs1
  obtain rfl : t = tf0 := (Option.some.inj ht).symm
  obtain ⟨_, hor, _⟩ := poseHistory_run hs g1
  obtain ⟨e1, e2⟩ := C114_node (P := P0) (by rw [P0_divYaw]; norm_num)
    (by simp [P0, Params.loadFrom, Params.loadBeam, Server.dblD, Server.getDouble])
    (by simp [P0, Params.loadFrom, Params.loadLike, Server.dblD, Server.getDouble])
    (by norm_num [P0, Params.loadFrom, Server.dblD, Server.getDouble])
    (by norm_num [P0, Params.loadFrom, Server.dblD, Server.getDouble])
    (env_valid 0) hv hs g1 g2 hpose 0 1 (by show (0:ℝ) * 0 + 0 * 0 + 0 * 0 + 1 * 1 = 1; norm_num) hor
  have e2 := e2.2 fun h => absurd (show (1 : ℝ) = 0 from h.1) one_ne_zero
  rw [hmap, hmap']
  exact ⟨fun q hq => far_alike (hor q hq).1 (hor q hq).2, far_alike e1 e2⟩

end Demo
end Node
end Mcl3dl
