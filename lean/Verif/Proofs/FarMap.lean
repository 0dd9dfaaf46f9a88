import Verif.Spec.FarMap
import Verif.Proofs.NodeReal
import Verif.Props.MapLocal
import Verif.Props.RayLocal
import Verif.Props.Display

/-! # Two nodes that differ only in the map -/

set_option linter.unusedSectionVars false

namespace Mcl3dl
namespace Node
open Lidar (getBeamStatus)

/-- The state of the kd-tree caster. -/
def IsKd (c : CastSt) : Prop := ∃ x, c = .inr x

section
variable {P : Params} {flann : List (Vec3 ℝ) → Vec3 ℝ → ℝ → ℕ → List (ℕ × ℝ)}
  {solve3 : Matrix (Fin 3) (Fin 3) ℝ → (Fin 3 → ℝ) × Matrix (Fin 3) (Fin 3) ℝ}
  {solve6 : (Fin 6 → Fin 6 → ℝ) → (Fin 6 → ℝ) × (Fin 6 → Fin 6 → ℝ)}

theorem beam_kd {b : Lidar.Beam} {m : MapSt} {l e : Vec3 ℝ} {c c' : CastSt} {st : Lidar.BeamStatus} (hc : IsKd c)
    (h : getBeamStatus b (caster P (realLib P flann solve3 solve6) m) l e c = .ok (st, c')) : IsKd c' := by
  refine Lidar.getBeamStatus_inv (I := IsKd) ?_ ?_ hc h
  · rintro c c' l s ⟨x, rfl⟩ h
    obtain ⟨y, _, h⟩ := Outcome.bind_eq_ok_iff.1 h
    cases h; exact ⟨_, rfl⟩
  · rintro c c' r ⟨x, rfl⟩ h
    obtain ⟨y, _, h⟩ := Outcome.bind_eq_ok_iff.1 h
    cases h; exact ⟨_, rfl⟩

theorem beamLoop_kd {b : Lidar.Beam} {m : MapSt} {origins : List (Vec3 ℝ)} {s : State6 ℝ} {pc : List Point} {x : ℝ} {c : CastSt}
    {r : ℝ × CastSt} (hc : IsKd c)
    (h : Lidar.beamLoop b (caster P (realLib P flann solve3 solve6) m) origins s pc x c = .ok r) : IsKd r.2 := by
  induction pc generalizing x c with
  | nil => cases h; exact hc
  | cons q qs ih =>
    unfold Lidar.beamLoop at h
    cases ho : origins[q.attr]? with
    | none => rw [ho] at h; cases h
    | some o =>
      rw [ho] at h
      obtain ⟨r', h1, h2⟩ := Outcome.bind_eq_ok_iff.1 h
      exact ih (beam_kd hc h1) h2

theorem measure_kd {b : Lidar.Beam} {m : MapSt} {origins : List (Vec3 ℝ)} {s : State6 ℝ} {pc : Option (List Point)} {c : CastSt}
    {r : Lidar.Result × CastSt} (hc : IsKd c)
    (h : b.measure (caster P (realLib P flann solve3 solve6) m) pc origins s c = .ok r) : IsKd r.2 := by
  unfold Lidar.Beam.measure at h
  cases pc with
  | none => cases h; exact hc
  | some pc =>
    simp only at h
    split_ifs at h
    · cases h; exact hc
    · obtain ⟨r', h1, h2⟩ := Outcome.bind_eq_ok_iff.1 h
      cases h2
      exact beamLoop_kd hc h1

theorem weighLoop_kd {m : MapSt} {p : Prep} {ps : List Particle} {w : WeighSt CastSt} {r : List ℝ × WeighSt CastSt}
    (hc : IsKd w.caster) (h : weighLoop P (realLib P flann solve3 solve6) m p ps w = .ok r) : IsKd r.2.caster := by
  induction ps generalizing w r with
  | nil => cases h; exact hc
  | cons q qs ih =>
    rw [weighLoop] at h
    obtain ⟨r1, h1, h⟩ := Outcome.bind_eq_ok_iff.1 h
    obtain ⟨r2, h2, h⟩ := Outcome.bind_eq_ok_iff.1 h
    simp only [Outcome.ok.injEq] at h
    rw [← h]
    refine ih (r := r2) ?_ h2
    unfold particleLikelihood at h1
    obtain ⟨rb, hb, h1⟩ := Outcome.bind_eq_ok_iff.1 h1
    obtain ⟨rl, _, h1⟩ := Outcome.bind_eq_ok_iff.1 h1
    cases h1
    exact measure_kd hc hb

theorem rayMarkers_kd {b : Lidar.Beam} {m : MapSt} {origins : List (Vec3 ℝ)} {s : State6 ℝ} {pc : List Point} {i : ℕ} {c : CastSt}
    {r : List Marker × CastSt} (hc : IsKd c)
    (h : rayMarkers b (caster P (realLib P flann solve3 solve6) m) origins s pc i c = .ok r) : IsKd r.2 := by
  induction pc generalizing i c r with
  | nil => cases h; exact hc
  | cons q qs ih =>
    unfold rayMarkers at h
    cases ho : origins[q.attr]? with
    | none => rw [ho] at h; cases h
    | some o =>
      rw [ho] at h
      obtain ⟨r', h1, h2⟩ := Outcome.bind_eq_ok_iff.1 h
      obtain ⟨r'', h3, h4⟩ := Outcome.bind_eq_ok_iff.1 h2
      simp only [Outcome.ok.injEq] at h4
      rw [← h4]
      exact ih (r := r'') (beam_kd hc h1) h3

/-- Without DDA the caster of a reachable node is the kd-tree one. -/
theorem reachable_kd (hdda : P.useDda = false) {n : Node CastSt} (hn : Reachable P (realLib P flann solve3 solve6) n) :
    IsKd n.loc.caster := by
  refine reachable_inv (I := fun n => IsKd n.loc.caster) ?_ ?_ hn
  · intro env m n _ h
    obtain ⟨_, _, _, rfl⟩ := start_ok h
    exact ⟨none, by simp [realLib, hdda]⟩
  · intro n ev env n' o hi _ h
    by_cases hc : ∃ header msg, ev = .cloud header msg
    · obtain ⟨header, msg, rfl⟩ := hc
      obtain ⟨_, _, _, _, hcase⟩ := cbCloud_loc h
      rcases hcase with ⟨hl, _, _⟩ | ⟨_, acc, c, hcore⟩
      · rw [hl]; exact hi
      obtain ⟨_, _, ⟨_, _, hl, _⟩ | ⟨_, hme⟩⟩ := measureCore_ok hcore
      · rw [hl]; exact hi
      generalize n'.loc = loc2 at hme
      cases hme with
      | noHeader _ => exact hi
      | noTf _ _ _ => exact hi
      | noOrigin _ _ _ _ => exact hi
      | noPoints _ p _ hp _ => exact hi
      | localized _ p _ _ _ hp _ hl =>
        obtain ⟨r, h1, _, h3, _, _, _, _, _, _, _, rfl, _⟩ := localize_ok hl
        obtain ⟨r', h4, h5⟩ := Outcome.bind_eq_ok_iff.1 h3
        have hw : IsKd r.w.2.caster := weighLoop_kd (w := ⟨(freshen env n).loc.caster, 1, 0⟩) hi h1
        have := rayMarkers_kd hw h4
        show IsKd r.marks.2
        simp only [Outcome.ok.injEq] at h5
        rw [← h5]
        exact this
    · push _root_.Not at hc
      show IsKd n'.loc.caster
      rw [(step_loc h hc).1]
      exact hi

/-! ## The same results over two maps -/

/-- The beams from the pose `s` to the points have the same result over both maps. -/
def BeamsSame (P : Params) (lib : Lib CastSt) (m m' : MapSt) (b : Lidar.Beam) (origins : List (Vec3 ℝ)) (pc : List Point)
    (s : State6 ℝ) : Prop :=
  ∀ q ∈ pc, ∀ o, origins[q.attr]? = some o → ∀ c, IsKd c →
    getBeamStatus b (caster P lib m') (s.pos + s.rot.rotate o) (s.rot.normalized.rotate q.pos + s.pos) c =
      getBeamStatus b (caster P lib m) (s.pos + s.rot.rotate o) (s.rot.normalized.rotate q.pos + s.pos) c

theorem beamsSame_measure {m m' : MapSt} {b : Lidar.Beam} {origins : List (Vec3 ℝ)} {pc : List Point} {s : State6 ℝ}
    (h : BeamsSame P (realLib P flann solve3 solve6) m m' b origins pc s) {c : CastSt} (hc : IsKd c) :
    b.measure (caster P (realLib P flann solve3 solve6) m') (some pc) origins s c =
      b.measure (caster P (realLib P flann solve3 solve6) m) (some pc) origins s c := by
  have hloop : ∀ (qs : List Point) (score : ℝ) (c : CastSt), IsKd c → (∀ p ∈ qs, ∀ o, origins[p.attr]? = some o → ∀ c, IsKd c →
      getBeamStatus b (caster P (realLib P flann solve3 solve6) m') (s.pos + s.rot.rotate o) p.pos c =
        getBeamStatus b (caster P (realLib P flann solve3 solve6) m) (s.pos + s.rot.rotate o) p.pos c) →
      Lidar.beamLoop b (caster P (realLib P flann solve3 solve6) m') origins s qs score c =
        Lidar.beamLoop b (caster P (realLib P flann solve3 solve6) m) origins s qs score c := by
    intro qs
    induction qs with
    | nil => intro _ _ _ _; rfl
    | cons q qs ih =>
      intro score c hc hq
      unfold Lidar.beamLoop
      cases ho : origins[q.attr]? with
      | none => rfl
      | some o =>
        simp only
        rw [hq q List.mem_cons_self o ho c hc]
        cases hg : getBeamStatus b (caster P (realLib P flann solve3 solve6) m) (s.pos + s.rot.rotate o) q.pos c with
        | throws e => rfl
        | ub e => rfl
        | ok r =>
          rw [Outcome.bind_ok, Outcome.bind_ok]
          exact ih _ _ (beam_kd hc (show _ = Outcome.ok (r.1, r.2) from hg)) fun p hp => hq p (List.mem_cons_of_mem _ hp)
  unfold Lidar.Beam.measure
  simp only
  rw [hloop (s.transform pc) 1 c hc]
  intro q hq o ho
  unfold State6.transform at hq
  obtain ⟨p, hp, rfl⟩ := List.mem_map.1 hq
  exact h p hp o ho

theorem beamsSame_markers {m m' : MapSt} {b : Lidar.Beam} {origins : List (Vec3 ℝ)} {pc : List Point} {s : State6 ℝ}
    (h : BeamsSame P (realLib P flann solve3 solve6) m m' b origins pc s) {c : CastSt} (hc : IsKd c) :
    rayMarkers b (caster P (realLib P flann solve3 solve6) m') origins s (s.transform pc) 0 c =
      rayMarkers b (caster P (realLib P flann solve3 solve6) m) origins s (s.transform pc) 0 c := by
  have hloop : ∀ (qs : List Point) (i : ℕ) (c : CastSt), IsKd c → (∀ p ∈ qs, ∀ o, origins[p.attr]? = some o → ∀ c, IsKd c →
      getBeamStatus b (caster P (realLib P flann solve3 solve6) m') (s.pos + s.rot.rotate o) p.pos c =
        getBeamStatus b (caster P (realLib P flann solve3 solve6) m) (s.pos + s.rot.rotate o) p.pos c) →
      rayMarkers b (caster P (realLib P flann solve3 solve6) m') origins s qs i c =
        rayMarkers b (caster P (realLib P flann solve3 solve6) m) origins s qs i c := by
    intro qs
    induction qs with
    | nil => intro _ _ _ _; rfl
    | cons q qs ih =>
      intro score c hc hq
      unfold rayMarkers
      cases ho : origins[q.attr]? with
      | none => rfl
      | some o =>
        simp only
        rw [hq q List.mem_cons_self o ho c hc]
        cases hg : getBeamStatus b (caster P (realLib P flann solve3 solve6) m) (s.pos + s.rot.rotate o) q.pos c with
        | throws e => rfl
        | ub e => rfl
        | ok r =>
          rw [Outcome.bind_ok, Outcome.bind_ok]
          rw [ih _ _ (beam_kd hc (show _ = Outcome.ok (r.1, r.2) from hg)) fun p hp => hq p (List.mem_cons_of_mem _ hp)]
  refine hloop (s.transform pc) 0 c hc ?_
  intro q hq o ho
  unfold State6.transform at hq
  obtain ⟨p, hp, rfl⟩ := List.mem_map.1 hq
  exact h p hp o ho

theorem weighLoop_same {m m' : MapSt} {p : Prep} {ps : List Particle}
    (hb : ∀ q ∈ ps, BeamsSame P (realLib P flann solve3 solve6) m m' p.beam p.origins p.beamPc q.state)
    (hl : ∀ q ∈ ps, p.like.measure (search P (realLib P flann solve3 solve6) m') (some p.likePc) q.state =
      p.like.measure (search P (realLib P flann solve3 solve6) m) (some p.likePc) q.state)
    {w : WeighSt CastSt} (hc : IsKd w.caster) :
    weighLoop P (realLib P flann solve3 solve6) m' p ps w = weighLoop P (realLib P flann solve3 solve6) m p ps w := by
  induction ps generalizing w with
  | nil => rfl
  | cons q qs ih =>
    rw [weighLoop, weighLoop]
    have h1 : particleLikelihood P (realLib P flann solve3 solve6) m' p q.state w =
        particleLikelihood P (realLib P flann solve3 solve6) m p q.state w := by
      unfold particleLikelihood
      rw [beamsSame_measure (hb q List.mem_cons_self) hc, hl q List.mem_cons_self]
    rw [h1]
    cases hp : particleLikelihood P (realLib P flann solve3 solve6) m p q.state w with
    | throws e => rfl
    | ub e => rfl
    | ok r =>
      rw [Outcome.bind_ok, Outcome.bind_ok,
        ih (fun q hq => hb q (List.mem_cons_of_mem _ hq)) (fun q hq => hl q (List.mem_cons_of_mem _ hq))]
      unfold particleLikelihood at hp
      obtain ⟨rb, hb, hp⟩ := Outcome.bind_eq_ok_iff.1 hp
      obtain ⟨rl, _, hp⟩ := Outcome.bind_eq_ok_iff.1 hp
      cases hp
      exact measure_kd hc hb

/-- The localization over another map with the same results. -/
theorem localize_same {env : Env} (hsub : env.subMatched = false ∧ env.subUnmatched = false) {m m' : MapSt} {odo : OdoSt}
    {warn : Vec3 ℝ} {loc loc' : LocSt CastSt} {header : Header} {p : Prep} {outs : List Out} (hc : IsKd loc.caster)
    (h : localize P (realLib P flann solve3 solve6) env m odo warn loc header p = .ok (loc', outs))
    (hb : ∀ q ∈ loc.pf.particles, BeamsSame P (realLib P flann solve3 solve6) m m' p.beam p.origins p.beamPc q.state)
    (hb' : BeamsSame P (realLib P flann solve3 solve6) m m' p.beam p.origins p.beamPc loc'.statePrev)
    (hl : ∀ q ∈ loc.pf.particles, p.like.measure (search P (realLib P flann solve3 solve6) m') (some p.likePc) q.state =
      p.like.measure (search P (realLib P flann solve3 solve6) m) (some p.likePc) q.state) :
    localize P (realLib P flann solve3 solve6) env m' odo warn loc header p = .ok (loc', outs) := by
  obtain ⟨r, h1, h2, h3, h4, h5, h6, h7, h8, h9, h10, e1, e2⟩ := localize_ok h
  have hest : loc'.statePrev = r.est P loc := by rw [e1]
  rw [hest] at hb'
  have hw : IsKd r.w.2.caster := weighLoop_kd (w := ⟨loc.caster, 1, 0⟩) hc h1
  have h1' : weighLoop P (realLib P flann solve3 solve6) m' p loc.pf.particles ⟨loc.caster, 1, 0⟩ = .ok r.w := by
    rw [weighLoop_same hb hl hc]; exact h1
  have h3' : markersOf P (realLib P flann solve3 solve6) m' p (r.est P loc) r.w.2.caster = .ok r.marks := by
    unfold markersOf
    rw [beamsSame_markers hb' hw]
    exact h3
  have h6' : matchOutput P (realLib P flann solve3 solve6) env m' header.stamp loc.matchLast ((r.final P odo loc).transform p.full) =
      .ok r.mo := by
    unfold matchOutput at h6 ⊢
    rw [if_neg (by simp [hsub])] at h6 ⊢
    exact h6
  rw [localize_of r h1' h2 h3' h4 h5 h6' h7 h8 h9 h10, e1, e2]

/-- The measurement over another map with the same results. -/
theorem measureCore_same {C : Type} {lib : Lib C} {env : Env} {m m' : MapSt} {odo : OdoSt}
    {warn : Vec3 ℝ} {acc : AccSt} {loc : LocSt C} {cnt : ℕ} {r : ℕ × Option (List Point) × LocSt C × List Out}
    (h : measureCore P lib env m odo warn acc loc cnt = .ok r)
    (hl : ∀ header p outs, acc.headers.getLast? = some header → prepare P lib env acc loc header = .ok (.ready p) → p.likePc ≠ [] →
      localize P lib env m odo warn loc header p = .ok (r.2.2.1, outs) →
      localize P lib env m' odo warn loc header p = .ok (r.2.2.1, outs)) :
    measureCore P lib env m' odo warn acc loc cnt = .ok r := by
  unfold measureCore at h ⊢
  simp only at h ⊢
  by_cases h0 : Params.toSize P.skipMeasure = 0
  · rw [if_pos h0] at h; cases h
  rw [if_neg h0] at h ⊢
  by_cases h1 : (cnt + 1) % 2 ^ 64 % Params.toSize P.skipMeasure ≠ 0
  · rw [if_pos h1] at h ⊢; exact h
  rw [if_neg h1] at h ⊢
  cases hh : acc.headers.getLast? with
  | none => rw [hh] at h; exact h
  | some header =>
    rw [hh] at h
    simp only at h ⊢
    cases hp : prepare P lib env acc loc header with
    | throws e => rw [hp] at h; cases h
    | ub e => rw [hp] at h; cases h
    | ok x =>
      rw [hp, Outcome.bind_ok] at h
      rw [Outcome.bind_ok]
      cases x with
      | noTf => exact h
      | noOrigin cloud => exact h
      | ready p =>
        simp only at h ⊢
        by_cases hne : p.likePc.length = 0
        · rw [if_pos hne] at h ⊢; exact h
        · rw [if_neg hne] at h ⊢
          obtain ⟨y, hy, h⟩ := Outcome.bind_eq_ok_iff.1 h
          cases h
          rw [hl header p y.2 hh hp (fun e => hne (by rw [e]; rfl)) hy, Outcome.bind_ok]

/-- The cloud callback over another map with the same results. -/
theorem cbCloud_same {C : Type} {lib : Lib C} {env : Env} {n n1 : Node C} {m' : MapSt} (hm : n.map.hasMap = true)
    (hm' : m'.hasMap = true) {header : Header} {msg : Conv.Msg} {o : List Out}
    (h : cbCloud P lib env n header msg = .ok (n1, o))
    (hl : ∀ a header' p loc' outs,
      (P.accumCloud = 0 ∧ accumCloud P env header msg (accumClear n.acc) = .ok (true, a) ∨
        P.accumCloud ≠ 0 ∧ a = n.acc ∧ ((accCfg P).accumMax ≤ n.acc.logic.keys.length ∨
          n.acc.logic.keys.head? = some header.frame ∧ (accCfg P).accum ≤ n.acc.logic.cnt)) →
      a.headers.getLast? = some header' →
      prepare P lib env a (freshen env n).loc header' = .ok (.ready p) → p.likePc ≠ [] → loc'.statePrev = n1.loc.statePrev →
      localize P lib env n.map n.odo n.stdWarn (freshen env n).loc header' p = .ok (loc', outs) →
      localize P lib env m' n.odo n.stdWarn (freshen env n).loc header' p = .ok (loc', outs)) :
    cbCloud P lib env { n with map := m' } header msg = .ok ({ n1 with map := m' }, o) := by
  have hmeas : ∀ a r, (P.accumCloud = 0 ∧ accumCloud P env header msg (accumClear n.acc) = .ok (true, a) ∨
        P.accumCloud ≠ 0 ∧ a = n.acc ∧ ((accCfg P).accumMax ≤ n.acc.logic.keys.length ∨
          n.acc.logic.keys.head? = some header.frame ∧ (accCfg P).accum ≤ n.acc.logic.cnt)) →
      r.1.loc.statePrev = n1.loc.statePrev →
      measure P lib env { freshen env n with acc := a } = .ok r →
      measure P lib env { freshen env n with acc := a, map := m' } = .ok ({ r.1 with map := m' }, r.2) := by
    intro a r ha hst hr
    unfold measure at hr ⊢
    obtain ⟨x, hx, hr⟩ := Outcome.bind_eq_ok_iff.1 hr
    cases hr
    refine Outcome.bind_eq_ok_iff.2 ⟨x, ?_, rfl⟩
    exact measureCore_same hx fun header' p outs q1 q2 q3 q4 => hl a header' p _ outs ha q1 q2 q3 hst q4
  by_cases hP : P.accumCloud = 0
  · rw [cbCloud_form0 hm hP] at h
    rw [cbCloud_form0 (n := { n with map := m' }) hm' hP]
    obtain ⟨x, h1, h⟩ := Outcome.bind_eq_ok_iff.1 h
    refine Outcome.bind_eq_ok_iff.2 ⟨x, h1, ?_⟩
    obtain ⟨b, a⟩ := x
    cases b
    · simp only [Bool.false_eq_true, if_false] at h ⊢
      cases h
      rfl
    · simp only [if_true] at h ⊢
      exact hmeas a (n1, o) (.inl ⟨hP, h1⟩) rfl h
  · rw [cbCloud_form hm hP] at h
    rw [cbCloud_form (n := { n with map := m' }) hm' hP]
    have hadd : ∀ c, addTo P env n header msg c = .ok (n1, o) →
        addTo P env { n with map := m' } header msg c = .ok ({ n1 with map := m' }, o) := by
      intro c h
      unfold addTo at h ⊢
      obtain ⟨x, h1, h⟩ := Outcome.bind_eq_ok_iff.1 h
      refine Outcome.bind_eq_ok_iff.2 ⟨x, h1, ?_⟩
      cases h
      rfl
    have hre : ((accCfg P).accumMax ≤ n.acc.logic.keys.length ∨
          n.acc.logic.keys.head? = some header.frame ∧ (accCfg P).accum ≤ n.acc.logic.cnt) →
        restartWith P lib env n header msg = .ok (n1, o) →
        restartWith P lib env { n with map := m' } header msg = .ok ({ n1 with map := m' }, o) := by
      intro hk h
      unfold restartWith at h ⊢
      obtain ⟨r, h1, h⟩ := Outcome.bind_eq_ok_iff.1 h
      obtain ⟨x, h2, h⟩ := Outcome.bind_eq_ok_iff.1 h
      cases h
      refine Outcome.bind_eq_ok_iff.2 ⟨_, hmeas n.acc r (.inr ⟨hP, rfl, hk⟩) rfl h1, ?_⟩
      exact Outcome.bind_eq_ok_iff.2 ⟨x, h2, rfl⟩
    simp only at h ⊢
    by_cases h1 : n.acc.logic.keys.length < (accCfg P).accumMax
    · rw [if_pos h1] at h ⊢
      by_cases h2 : n.acc.logic.keys.length = 0 ∨ n.acc.logic.keys.head? ≠ some header.frame
      · rw [if_pos h2] at h ⊢
        exact hadd _ h
      · rw [if_neg h2] at h ⊢
        by_cases h3 : n.acc.logic.cnt < (accCfg P).accum
        · rw [if_pos h3] at h ⊢
          exact hadd _ h
        · rw [if_neg h3] at h ⊢
          push _root_.Not at h2
          exact hre (.inr ⟨h2.2, not_lt.1 h3⟩) h
    · rw [if_neg h1] at h ⊢
      by_cases h2 : n.acc.logic.keys = []
      · rw [if_pos h2] at h; cases h
      · rw [if_neg h2] at h ⊢
        exact hre (.inl (not_lt.1 h1)) h

end
end Node
end Mcl3dl
