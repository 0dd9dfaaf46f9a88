import Verif.Props.NodeResample

/-! # C127: the points saved at shutdown -/

set_option linter.unusedSectionVars false

namespace Mcl3dl
namespace Node

variable {C : Type}

/-- C127: a callback that publishes a pose adds the points it used for the likelihood field, placed at that pose,
to what is saved at shutdown. -/
theorem C127_added {P : Params} (hP : Measures P) (hout : P.outputPcd = true)
    {lib : Lib C} {w : Vec3 ℝ} (hw : 1 ≤ w.x ∧ 1 ≤ w.y ∧ 1 ≤ w.z)
    (hfl : ∀ pts q r num, ExactSearch pts (weightedDist w q) r num (lib.flann pts q r num))
    {env0 : Env} (hv0 : env0.Valid) {motion0 : Motion ℝ} {h : History} {e : Event × Env} (hv : HistValid (h ++ [e]))
    (hreg : RegularClouds (h ++ [e])) {n0 n1 n : Node C} {outs : List (List Out)} {o : List Out}
    (hs : start P lib env0 motion0 = .ok n0) (hr1 : run P lib n0 h = .ok (n1, outs))
    (hr : run P lib n0 (h ++ [e]) = .ok (n, outs ++ [o]))
    {b : List Scan} {s : Scan} (hb : (batchStep P (batchView P h).1 (batchView P h).2 e).1 = some (b ++ [s]))
    {t : Tf} (ht : e.2.tf P.baseFrame P.odomFrame s.header.stamp = some t)
    {stamp : ℝ} {frame : String} {pos : Vec3 ℝ} {rot : Quat ℝ} {cov : ℕ → ℕ → ℝ}
    (hp : .pose stamp frame pos rot cov ∈ o) :
    ∃ (model : Lidar.Beam) (origins : List (Vec3 ℝ)) (beamSel sel : List Point) (like : List ℝ) (saved : List Point),
      Selection P e.2 t (b ++ [s]) s.header.stamp n1.loc.pf.particles.length origins beamSel sel ∧
      List.Forall₂ (fun (q : Particle) l =>
        LikelihoodOf P model (caster P lib n1.map) w (mapView P h).active origins beamSel sel q.state l)
        n1.loc.pf.particles like ∧
      shutdown P n1 = some saved ∧
      shutdown P n = some (saved ++ sel.map fun q => { q with pos := rot.normalized.rotate q.pos + pos }) := by
  obtain ⟨header, p, outs', r, _, ho, hdone, hlen, hpb, _, hsel, hlk⟩ := measurement hP hw hfl hv0 hv hreg hs hr1 hr hb ht hp
  have hpe : pos = (r.smooth P n1.odo (freshen e.2 n1).loc).pos ∧ rot = (r.smooth P n1.odo (freshen e.2 n1).loc).rot := by
    have hmem : Out.pose stamp frame pos rot cov ∈ outs' := by
      rw [ho] at hp
      simpa using hp
    rw [hdone.outs_eq] at hmem
    have hmo : Out.pose stamp frame pos rot cov ∉ r.mo.2 := by
      intro hx
      obtain ⟨s, l, hc | hc⟩ := matchOutput_only hdone.mo _ hx <;> cases hc
    have : .pose stamp frame pos rot cov ∉ (if P.publishTf = true then
        [Out.transforms (transformsOf P (outStamp P n1.odo (freshen e.2 n1).loc.tolBase (e.2.now 1))
          (r.smooth P n1.odo (freshen e.2 n1).loc))] else []) := by split_ifs <;> simp
    simp only [List.mem_append, List.mem_cons, List.not_mem_nil, or_false, publishParticles, publishStatus, reduceCtorEq,
      false_or, hmo, this, Out.pose.injEq] at hmem
    exact ⟨hmem.2.2.1, hmem.2.2.2.1⟩
  have hacc := hdone.accum
  unfold accumAll at hacc
  rw [if_pos hout] at hacc
  cases hold : (freshen e.2 n1).loc.allAccum with
  | none => rw [hold] at hacc; simp at hacc
  | some saved =>
    rw [hold] at hacc
    simp only [Outcome.ok.injEq] at hacc
    refine ⟨p.beam, p.origins, p.beamPc, p.likePc, r.w.1, saved, hsel, hlk, ?_, ?_⟩
    · rw [shutdown, if_pos hout]; exact hold
    · rw [shutdown, if_pos hout, hdone.all, ← hacc, hpe.1, hpe.2]
      rfl

/-- The event loads a map. -/
def LoadsMap (ev : Event) : Prop :=
  ∃ pts, ev = .loadPcd (some pts) ∨ ∃ stamp m, ev = .mapcloud stamp m ∧ validCloud m = true ∧ pts = cloudPoints m

/-- C127: loading a map discards what would be saved. -/
theorem C127_discarded {P : Params} (hout : P.outputPcd = true) (lib : Lib C) (env : Env) (n : Node C) {ev : Event}
    (hev : LoadsMap ev) : ∃ n' o, step P lib env n ev = .ok (n', o) ∧ shutdown P n' = some [] := by
  obtain ⟨pts, hev⟩ := hev
  obtain ⟨n', o, h1, _, _, _, h2⟩ := C85_load_discards P lib n [] ev env pts hev
  refine ⟨n', o, h1, ?_⟩
  rw [shutdown, if_pos hout, h2]

/-- C127: a callback that neither publishes a pose nor loads a map does not change what is saved. -/
theorem C127_kept {P : Params} {lib : Lib C} {env : Env} {n n' : Node C} {ev : Event} {o : List Out}
    (h : step P lib env n ev = .ok (n', o)) (hev : ¬ LoadsMap ev)
    (hp : ∀ stamp frame pos rot cov, Out.pose stamp frame pos rot cov ∉ o) : shutdown P n' = shutdown P n := by
  have key : n'.loc.allAccum = n.loc.allAccum := by
    cases ev with
    | mapcloud stamp msg =>
      rcases cbMapcloud_ok h with ⟨_, rfl, _⟩ | ⟨hm, hl⟩
      · rfl
      · exact absurd ⟨_, .inr ⟨stamp, msg, rfl, by rw [← fromROSMsg_valid]; exact hm, rfl⟩⟩ hev
    | mapcloudUpdate msg =>
      simp only [step, Outcome.ok.injEq, Prod.mk.injEq] at h
      rw [← h.1]
      simp only [cbMapcloudUpdate]
      rcases Conv.fromROSMsg msg [] with ⟨_ | _, pts⟩ <;> rfl
    | loadPcd file =>
      rcases cbLoadPcd_ok h with ⟨_, rfl, _⟩ | ⟨pts, _, hf, hl, _⟩
      · rfl
      · exact absurd ⟨pts, .inl (by rw [hf])⟩ hev
    | cloud header msg =>
      obtain ⟨hm, _, _, _, ⟨hl, _, _⟩ | ⟨_, acc, c, hc⟩⟩ := cbCloud_loc h
      · rw [hl]; rfl
      · obtain ⟨_, _, ⟨_, _, hl, _⟩ | ⟨_, hme⟩⟩ := measureCore_ok hc
        · rw [hl]; rfl
        · generalize n'.loc = loc' at hme ⊢
          cases hme with
          | noHeader _ => rfl
          | noTf _ _ _ => rfl
          | noOrigin _ _ _ _ => rfl
          | noPoints _ _ _ _ _ => rfl
          | localized header p l o' _ _ _ hl =>
            obtain ⟨r, hd⟩ := localize_done hl
            have := hp header.stamp P.mapFrame (r.smooth P n.odo (freshen env n).loc).pos
              (r.smooth P n.odo (freshen env n).loc).rot r.cov
            rw [hd.outs_eq] at this
            simp at this
    | timer =>
      obtain ⟨r, _, h⟩ := Outcome.bind_eq_ok_iff.1 h
      simp only [Outcome.ok.injEq, Prod.mk.injEq] at h
      rw [← h.1]
    | odom msg =>
      obtain ⟨_, _, h3, _, h5, _⟩ := sensor_frame _ h
      rw [h5]
    | imu msg =>
      obtain ⟨_, _, h3, _, h5, _⟩ := sensor_frame _ h
      rw [h5]
    | initialpose msg =>
      rcases cbPosition_ok h with ⟨rfl, _⟩ | ⟨_, t, st, _, rfl, _⟩ <;> rfl
    | landmark msg =>
      obtain ⟨pf, _, rfl, _⟩ := cbLandmark_ok h; rfl
    | resize size =>
      obtain ⟨pf, _, rfl, _⟩ := cbResize_ok h; rfl
    | expansionReset =>
      obtain ⟨pf, _, rfl, _⟩ := cbExpansionReset_ok h; rfl
    | globalLocalization =>
      rcases cbGlobalLocalization_ok h with ⟨_, rfl, _⟩ | ⟨_, c, pf, ps, _, _, _, rfl, _⟩ <;> rfl
    | reconfigure w =>
      simp only [step, Outcome.ok.injEq, Prod.mk.injEq] at h
      rw [← h.1]
  unfold shutdown
  rw [key]

/-- C127: without `output_pcd` nothing is ever saved, and nothing is saved before a map arrived. -/
theorem C127_off {P : Params} (n : Node C) :
    (P.outputPcd = false → shutdown P n = none) ∧
    ∀ (lib : Lib C) (env0 : Env) (motion0 : Motion ℝ), start P lib env0 motion0 = .ok n → shutdown P n = none := by
  refine ⟨fun h => by simp [shutdown, h], fun lib env0 motion0 hs => ?_⟩
  obtain ⟨_, _, _, rfl⟩ := start_ok hs
  simp [shutdown]

namespace Demo

/-- The default parameters, with `output_pcd` set. -/
noncomputable def Psave : Params := { P0 with outputPcd := true }

theorem sane_Psave : Sane Psave := by
  obtain ⟨⟨h1, h2, h3, h4, h5, h6, h7, h8⟩, h9⟩ := sane_P0
  exact ⟨⟨h1, h2, h3, h4, h5, h6, h7, h8⟩, h9⟩

theorem works_Psave : Works Psave exactLib fun _ => True := by
  obtain ⟨h1, h2, h3⟩ := exactWorks
  exact ⟨h1, h2, h3⟩

theorem measures_Psave : Measures Psave := by
  obtain ⟨h1, h2, h3, h4, h5, h6, h7, h8, h9, h10, h11⟩ := measures
  exact ⟨h1, h2, h3, h4, h5, h6, h7, h8, h9, h10, h11⟩

theorem batchStep_Psave (a : Bool) (l : List Scan) (e : Event × Env) : batchStep Psave a l e = batchStep P0 a l e := rfl

theorem batchView_Psave (h : History) : batchView Psave h = batchView P0 h := rfl

/-- The node with `output_pcd` localizes. -/
theorem saving_runs : ∃ n0 n1 n outs o pos rot cov, start Psave exactLib (env 0) motion0 = .ok n0 ∧
    run Psave exactLib n0 evenHistory = .ok (n1, outs) ∧
    run Psave exactLib n0 (evenHistory ++ [lastCloud]) = .ok (n, outs ++ [o]) ∧
    .pose 3 Psave.mapFrame pos rot cov ∈ o := by
  have hx : ∀ x, HasXYZ (msg x) := by simp [HasXYZ, msg]
  have hx2 : ∀ x y, HasXYZ (msg2 x y) := by simp [HasXYZ, msg2]
  have hok : ∀ e ∈ evenHistory ++ [lastCloud], e.2.Valid ∧ KeepsPoints e.2 ∧ SafeEvent e.1 := by
    simp [evenHistory, lastCloud, SafeEvent, hx, hx2, env_valid, keeps]
  obtain ⟨n0, hs, n, outs, hr, hl⟩ := C110_no_crash sane_Psave works_Psave (env 0) motion0 _ hok
  obtain ⟨n1, os, o, g1, g2, rfl⟩ := run_snoc_ok hr
  have hv : HistValid (evenHistory ++ [lastCloud]) := fun e he => (hok e he).1
  have hstep : (batchStep Psave (batchView Psave evenHistory).1 (batchView Psave evenHistory).2 lastCloud).1 =
      some ([] ++ [⟨⟨"laser", 3⟩, [⟨10, 0, 0⟩, ⟨10, 0, 0⟩]⟩]) := by
    rw [batchView_Psave, batchStep_Psave, evenHistory_view]
    simp [batchStep, Demo.completes_one, Demo.lastCloud]
  have hm : batches [o] = [true] := by
    rcases C111_batches evenHistory_regular hs hr with ⟨h3, _⟩ | ⟨_, _, _, h3 | h3⟩
    · rw [hstep] at h3; cases h3
    · exact h3
    · exfalso
      rcases (step_view (show 0 ≤ Psave.numParticles from by simp [Psave]) (env_valid 4) g2).batch with ⟨hbn, _⟩ | ⟨_, _, ⟨hne, _⟩ | ⟨_, hbt⟩⟩
      · rw [h3] at hbn; cases hbn
      · exact hne (by simp [Psave, Params.toSize, Nat.mod_one])
      · rw [h3] at hbt; cases hbt
  have hC := (C112_measured (P := Psave) (by
    simp [Psave, P0, Params.loadFrom, Params.loadLike, Server.intD, Server.getInt, Params.toSize]) (env_valid 0) hv
    evenHistory_regular hs hr hstep hm).2
  obtain ⟨⟨pos, rot, cov, hp⟩, _⟩ := (hC ⟨by simp [lastCloud, env], fun _ _ => by simp [lastCloud, env]⟩ tf0 rfl).2
    (usable_msg2 4 3 10 10 (by norm_num) (by norm_num))
  have hpm : .pose 3 Psave.mapFrame pos rot cov ∈ o := by
    have : Out.pose 3 Psave.mapFrame pos rot cov ∈ o.filter (fun x => (Out.poseCov x).isSome) := by rw [hp]; simp
    exact (List.mem_filter.1 this).1
  exact ⟨n0, n1, n, os, o, pos, rot, cov, hs, g1, hr, hpm⟩

end Demo

/-- The hypotheses of C127 are met: after a map and two clouds the points of the first one are saved. -/
example : ∃ n0 n outs pts, start Demo.Psave Demo.exactLib (Demo.env 0) Demo.motion0 = .ok n0 ∧
    run Demo.Psave Demo.exactLib n0 (Demo.evenHistory ++ [Demo.lastCloud]) = .ok (n, outs) ∧
    shutdown Demo.Psave n = some pts ∧ pts ≠ [] := by
  obtain ⟨n0, n1, n, outs, o, pos, rot, cov, hs, hr, hr', hp⟩ := Demo.saving_runs
  have hv : HistValid (Demo.evenHistory ++ [Demo.lastCloud]) := by
    simp [HistValid, Demo.evenHistory, Demo.lastCloud, Demo.env_valid]
  obtain ⟨model, origins, beamSel, sel, like, saved, hsel, _, _, h2⟩ := C127_added Demo.measures_Psave rfl
    (w := ⟨1, 1, 5⟩) (by norm_num) (fun pts q r num => Demo.exactFlann_spec pts q r num) (Demo.env_valid 0) hv
    Demo.evenHistory_regular hs hr hr' (b := []) (s := ⟨⟨"laser", 3⟩, [⟨10, 0, 0⟩, ⟨10, 0, 0⟩]⟩)
    (by rw [Demo.batchView_Psave, Demo.batchStep_Psave, Demo.evenHistory_view]
        simp [batchStep, Demo.completes_one, Demo.lastCloud]) (t := Demo.tf0) rfl hp
  refine ⟨n0, n, _, _, hs, hr', h2, ?_⟩
  have := hsel.some
  simp [this]

end Node
end Mcl3dl
