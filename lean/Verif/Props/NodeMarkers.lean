import Verif.Spec.NodeMarkers
import Verif.Props.NodeResample

/-! # C125: the debug markers show what was measured -/

set_option linter.unusedSectionVars false

namespace Mcl3dl
namespace Node

variable {C : Type}

theorem rayColors_hue (st : Lidar.BeamStatus) :
    rayColors st = [hue st (opacity st (1 / 2)), hue st (opacity st (4 / 5))] := by
  cases st <;> simp [rayColors, hue, opacity] <;> norm_num

theorem collisionColor_hue {st : Lidar.BeamStatus} (h : st ≠ .long) :
    collisionColor st = hue st (opacity st (4 / 5)) := by
  cases st <;> first | exact absurd rfl h | (simp [collisionColor, hue, opacity]; norm_num)

theorem rayMarkers_spec {b : Lidar.Beam} {c : Lidar.Caster C} {origins : List (Vec3 ℝ)} {e : State6 ℝ}
    {pts : List Point} {id : ℕ} {w : C} {r : List Marker × C} (h : rayMarkers b c origins e pts id w = .ok r) :
    ∃ sts, Lidar.Statuses b c origins e pts w sts r.2 ∧ r.1.map Marker.id = List.range' id r.1.length ∧
      ofKind .sample r.1 = [] ∧
      List.Forall₂ (fun (a : Point × Lidar.BeamStatus) m => ∃ o, origins[a.1.attr]? = some o ∧
        ShowsRay (e.pos + e.rot.rotate o) a.1.pos a.2 m) (pts.zip sts) (ofKind .ray r.1) ∧
      (ofKind .collision r.1).map Marker.colors =
        (sts.filter (fun st => decide (st ≠ .long))).map fun st => [hue st (opacity st (4 / 5))] := by
  induction pts generalizing id w r with
  | nil =>
    simp only [rayMarkers, Outcome.ok.injEq] at h
    subst h
    exact ⟨[], .nil, by simp, by simp [ofKind], by simp [ofKind], by simp [ofKind]⟩
  | cons p ps ih =>
    rw [rayMarkers] at h
    cases ho : origins[p.attr]? with
    | none => rw [ho] at h; simp at h
    | some o =>
      rw [ho] at h
      simp only at h
      obtain ⟨⟨st, w1⟩, h1, h⟩ := Outcome.bind_eq_ok_iff.1 h
      obtain ⟨⟨ms, w2⟩, h2, h⟩ := Outcome.bind_eq_ok_iff.1 h
      simp only [Outcome.ok.injEq] at h
      subst h
      obtain ⟨sts, g1, g2, g3, g4, g5⟩ := ih h2
      refine ⟨st :: sts, .cons ho h1 g1, ?_, ?_, ?_, ?_⟩
      · simp only at g2 ⊢
        by_cases hl : st = .long
        · simp [hl, g2, List.range'_succ]
        · simp [hl, g2, List.range'_succ]
      · simp only [ofKind] at g3 ⊢
        by_cases hl : st = .long <;> simp [hl, g3]
      · have e1 : ofKind .ray ((if st = .long then ([] : List Marker) else [⟨id, .collision, [], [collisionColor st]⟩]) ++
            (⟨id + (if st = .long then ([] : List Marker) else [⟨id, .collision, [], [collisionColor st]⟩]).length, .ray,
              [e.pos + e.rot.rotate o, p.pos], rayColors st⟩ : Marker) :: ms) =
            (⟨id + (if st = .long then ([] : List Marker) else [⟨id, .collision, [], [collisionColor st]⟩]).length, .ray,
              [e.pos + e.rot.rotate o, p.pos], rayColors st⟩ : Marker) :: ofKind .ray ms := by
          by_cases hl : st = .long <;> simp [ofKind, hl]
        simp only
        rw [e1, List.zip_cons_cons]
        exact .cons ⟨o, ho, rfl, rayColors_hue st⟩ g4
      · simp only [ofKind] at g5 ⊢
        by_cases hl : st = .long
        · simpa [hl] using g5
        · simpa [hl, collisionColor_hue hl] using g5

theorem sampleMarkers_spec (pts : List Point) (id : ℕ) :
    (sampleMarkers pts id).map Marker.id = List.range' id pts.length ∧ (sampleMarkers pts id).length = pts.length ∧
    (∀ k, k ≠ .sample → ofKind k (sampleMarkers pts id) = []) ∧
    (ofKind .sample (sampleMarkers pts id)).map Marker.pts = pts.map fun p => [p.pos] := by
  induction pts generalizing id with
  | nil => simp [sampleMarkers, ofKind]
  | cons p ps ih =>
    obtain ⟨h1, h2, h3, h4⟩ := ih (id + 1)
    refine ⟨by simp [sampleMarkers, h1, List.range'_succ], by simp [sampleMarkers, h2], fun k hk => ?_, ?_⟩
    · have := h3 k hk
      simp only [ofKind] at this
      simp [sampleMarkers, ofKind, hk.symm, this]
    · simp only [ofKind] at h4
      simp [sampleMarkers, ofKind, h4]

/-- C125: a callback that publishes a pose publishes one array of markers, numbered in order.  For each beam point
used there is a ray from the sensor's place to the point, seen from the new estimate, coloured by the status of the
beam; for each beam that is not LONG there is a collision marker of the same colour, and for each point used for the
likelihood field a sample marker at the point. -/
theorem C125_markers {P : Params} (hP : Measures P) {lib : Lib C} {w : Vec3 ℝ} (hw : 1 ≤ w.x ∧ 1 ≤ w.y ∧ 1 ≤ w.z)
    (hfl : ∀ pts q r num, ExactSearch pts (weightedDist w q) r num (lib.flann pts q r num))
    {env0 : Env} (hv0 : env0.Valid) {motion0 : Motion ℝ} {h : History} {e : Event × Env} (hv : HistValid (h ++ [e]))
    (hreg : RegularClouds (h ++ [e])) {n0 n1 n : Node C} {outs : List (List Out)} {o : List Out}
    (hs : start P lib env0 motion0 = .ok n0) (hr1 : run P lib n0 h = .ok (n1, outs))
    (hr : run P lib n0 (h ++ [e]) = .ok (n, outs ++ [o]))
    {b : List Scan} {s : Scan} (hb : (batchStep P (batchView P h).1 (batchView P h).2 e).1 = some (b ++ [s]))
    {t : Tf} (ht : e.2.tf P.baseFrame P.odomFrame s.header.stamp = some t)
    {stamp : ℝ} {frame : String} {pos : Vec3 ℝ} {rot : Quat ℝ} {cov : ℕ → ℕ → ℝ}
    (hp : .pose stamp frame pos rot cov ∈ o) :
    ∃ (model : Lidar.Beam) (origins : List (Vec3 ℝ)) (beamSel sel : List Point) (like : List ℝ) (ms : List Marker)
      (sts : List Lidar.BeamStatus) (c c' : C),
      Lidar.Beam.Reach P.beam model ∧
      Selection P e.2 t (b ++ [s]) s.header.stamp n1.loc.pf.particles.length origins beamSel sel ∧
      List.Forall₂ (fun (q : Particle) l =>
        LikelihoodOf P model (caster P lib n1.map) w (mapView P h).active origins beamSel sel q.state l)
        n1.loc.pf.particles like ∧
      (∀ ms', .markers ms' ∈ o ↔ ms' = ms) ∧
      (let est := n.loc.statePrev
       let place := fun q : Point => est.rot.normalized.rotate q.pos + est.pos
       Lidar.Statuses model (caster P lib n1.map) origins est (beamSel.map fun q => { q with pos := place q }) c sts c' ∧
       ms.map Marker.id = List.range ms.length ∧
       List.Forall₂ (fun (a : Point × Lidar.BeamStatus) m => ∃ org, origins[a.1.attr]? = some org ∧
         ShowsRay (est.pos + est.rot.rotate org) (place a.1) a.2 m) (beamSel.zip sts) (ofKind .ray ms) ∧
       (ofKind .collision ms).map Marker.colors =
         (sts.filter (fun st => decide (st ≠ .long))).map (fun st => [hue st (opacity st (4 / 5))]) ∧
       (ofKind .sample ms).map Marker.pts = sel.map fun q => [place q]) := by
  obtain ⟨header, p, outs', r, _, ho, hdone, hlen, hpb, _, hsel, hlk⟩ := measurement hP hw hfl hv0 hv hreg hs hr1 hr hb ht hp
  have hmk := hdone.marks
  rw [markersOf] at hmk
  obtain ⟨⟨rays, c'⟩, h1, h2⟩ := Outcome.bind_eq_ok_iff.1 hmk
  simp only [Outcome.ok.injEq] at h2
  obtain ⟨sts, g1, g2, g3, g4, g5⟩ := rayMarkers_spec h1
  simp only at g1 g2 g3 g4 g5
  obtain ⟨k1, k2, k3, k4⟩ := sampleMarkers_spec ((r.est P (freshen e.2 n1).loc).transform p.likePc) rays.length
  have hms : r.marks.1 = rays ++ sampleMarkers ((r.est P (freshen e.2 n1).loc).transform p.likePc) rays.length := by
    rw [← h2]
  have hkind : ∀ k, ofKind k r.marks.1 = ofKind k rays ++
      ofKind k (sampleMarkers ((r.est P (freshen e.2 n1).loc).transform p.likePc) rays.length) := by
    intro k; rw [hms]; simp [ofKind]
  refine ⟨p.beam, p.origins, p.beamPc, p.likePc, r.w.1, r.marks.1, sts, r.w.2.caster, c', hpb, hsel, hlk, ?_, ?_⟩
  · intro ms'
    rw [ho, hdone.outs_eq]
    have hmo : Out.markers ms' ∉ r.mo.2 := by
      intro hx
      obtain ⟨s, l, hc | hc⟩ := matchOutput_only hdone.mo _ hx <;> cases hc
    have : Out.markers ms' ∉ (if P.publishTf = true then
        [Out.transforms (transformsOf P (outStamp P n1.odo (freshen e.2 n1).loc.tolBase (e.2.now 1))
          (r.smooth P n1.odo (freshen e.2 n1).loc))] else []) := by split_ifs <;> simp
    simp only [List.mem_append, List.mem_cons, List.not_mem_nil, or_false, publishParticles, publishStatus, reduceCtorEq,
      false_or, hmo, this, Out.markers.injEq]
  · simp only
    rw [hdone.prev]
    have hz : (p.beamPc.zip sts).map (fun a => (({ a.1 with pos := (r.est P (freshen e.2 n1).loc).rot.normalized.rotate a.1.pos +
        (r.est P (freshen e.2 n1).loc).pos } : Point), a.2)) = ((r.est P (freshen e.2 n1).loc).transform p.beamPc).zip sts := by
      simp only [State6.transform, List.zip_map_left]
      rfl
    refine ⟨g1, ?_, ?_, ?_, ?_⟩
    · rw [hms, List.map_append, g2, k1, List.length_append, k2, List.range_eq_range']
      have := List.range'_append (s := 0) (m := rays.length)
        (n := ((r.est P (freshen e.2 n1).loc).transform p.likePc).length) (step := 1)
      simpa using this
    · rw [hkind, k3 _ (by simp), List.append_nil]
      rw [← hz] at g4
      exact List.forall₂_map_left_iff.1 g4
    · rw [hkind, k3 _ (by simp), List.append_nil, g5]
    · rw [hkind, g3, List.nil_append, k4]
      simp [State6.transform]

/-- The hypotheses of C125 are met: a node that localizes shows a sample marker. -/
example : ∃ n0 n outs o ms, start Demo.P0 Demo.exactLib (Demo.env 0) Demo.motion0 = .ok n0 ∧
    run Demo.P0 Demo.exactLib n0 (Demo.evenHistory ++ [Demo.lastCloud]) = .ok (n, outs ++ [o]) ∧
    .markers ms ∈ o ∧ ofKind .sample ms ≠ [] := by
  obtain ⟨n0, n1, n, outs, o, pos, rot, cov, hs, hr, hr', hp, hn⟩ := Demo.even_runs
  have hv : HistValid (Demo.evenHistory ++ [Demo.lastCloud]) := by
    simp [HistValid, Demo.evenHistory, Demo.lastCloud, Demo.env_valid]
  obtain ⟨model, origins, beamSel, sel, like, ms, sts, c, c', _, hsel, _, hm, _, _, _, _, h5⟩ := C125_markers Demo.measures
    (w := ⟨1, 1, 5⟩) (by norm_num) (fun pts q r num => Demo.exactFlann_spec pts q r num) (Demo.env_valid 0) hv
    Demo.evenHistory_regular hs hr hr' (b := []) (s := ⟨⟨"laser", 3⟩, [⟨10, 0, 0⟩, ⟨10, 0, 0⟩]⟩)
    (by rw [Demo.evenHistory_view]; simp [batchStep, Demo.completes_one, Demo.lastCloud]) (t := Demo.tf0) rfl hp
  refine ⟨n0, n, outs, o, ms, hs, hr', (hm ms).2 rfl, fun h0 => ?_⟩
  rw [h0] at h5
  have := hsel.some
  simp only [List.map_nil] at h5
  exact this (List.map_eq_nil_iff.1 h5.symm)

end Node
end Mcl3dl
