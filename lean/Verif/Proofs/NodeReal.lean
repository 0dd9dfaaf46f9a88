import Verif.Proofs.NodeSafe
import Verif.Spec.NodeReal
import Verif.Props.NodeWeights
import Verif.Props.NodeUnit
import Verif.Props.KDRayHits
import Verif.Props.LidarBeam
import Verif.Props.DDA

/-! # Histories in which the rays can be cast -/

set_option linter.unusedSectionVars false

namespace Mcl3dl
namespace Node

variable {C : Type}

theorem estimate_unit {P : Params} (hM : Measures P) {n : Node C} {like : List ℝ}
    (hlen : like.length = n.loc.pf.particles.length) (ha : ¬ Ambiguous P n like) :
    UnitQ (estimate (biasFilter P n.loc.statePrev (measureWith n.loc.pf like))).rot := by
  have h := (estimate_votes hM.biasDist hM.biasAng n.loc.statePrev (f := n.loc.pf) hlen).2
  rw [h]
  have hu := Quat.C38_unit _ _ ha
  show Quat.dot _ _ = 1
  rw [Quat.C31_normalized_unit _ hu]
  exact hu

/-- What a measurement may find: the collected clouds. -/
theorem hmeas_batch {P : Params} {env : Env} {n : Node C} {v : Bool × List Scan} (hi : BInv P v n)
    (hm : n.map.hasMap = true) {header : Header} {msg : Conv.Msg} (hreg : Regular msg) {a : AccSt}
    (h : P.accumCloud = 0 ∧ accumCloud P env header msg (accumClear n.acc) = .ok (true, a) ∨
        P.accumCloud ≠ 0 ∧ a = n.acc ∧ ((accCfg P).accumMax ≤ n.acc.logic.keys.length ∨
          n.acc.logic.keys.head? = some header.frame ∧ (accCfg P).accum ≤ n.acc.logic.cnt)) :
    ∃ bb, (batchStep P v.1 v.2 (.cloud header msg, env)).1 = some bb ∧ a.headers = bb.map Scan.header ∧
      a.cloud = some (labelled bb) := by
  have hv : v.1 = true := by rw [← hi.map, hm]
  rcases h with ⟨h0, ha⟩ | ⟨h0, rfl, hc⟩
  · obtain ⟨h1, h2, h3, _⟩ := accumCloud_clear hreg ha
    obtain ⟨s, hs⟩ := Option.isSome_iff_exists.1 h1.symm
    rw [hs] at h2 h3
    exact ⟨[s], by simp [batchStep, hv, h0, hs], h2, h3⟩
  · obtain ⟨hg, hh, hk, hcl⟩ := hi.acc h0
    have hcomp : completes P v.2 header.frame := by
      rw [← keysComplete_iff, ← hk]
      rcases hc with hc | ⟨hc1, hc2⟩
      · exact .inl hc
      · right
        cases hks : n.acc.logic.keys with
        | nil => rw [hks] at hc1; simp at hc1
        | cons k t =>
          have hcnt := hg k t hks
          rw [hks] at hc1 hcnt
          simp only [List.head?_cons, Option.some.injEq] at hc1
          subst hc1
          exact ⟨t, rfl, by rw [← hcnt]; exact hc2⟩
    exact ⟨v.2, by simp [batchStep, hv, h0, hcomp], hh, hcl hv⟩

/-- One event: it is dealt with, or a particle is at a bad position, or the orientation is ambiguous. -/
theorem step_real {P : Params} (hP : Sane P) (hM : Measures P) (hmw : 0 ≤ P.like.matchWeight) {lib : Lib C} {w : Vec3 ℝ}
    (hw : 1 ≤ w.x ∧ 1 ≤ w.y ∧ 1 ≤ w.z)
    (hfl : ∀ pts q r num, ExactSearch pts (weightedDist w q) r num (lib.flann pts q r num))
    {I : C → Prop} {ok : Vec3 ℝ → Vec3 ℝ → Prop} (H : Set (Vec3 ℝ × ℝ)) {env0 : Env} {motion0 : Motion ℝ}
    {h : History} {e : Event × Env} (hv : HistValid h) (hve : e.2.Valid) (hk : KeepsPoints e.2) (he : SafeEvent e.1)
    (hreg : RegularClouds (h ++ [e])) (hu : UnitMessages h) {n0 n : Node C} {outs : List (List Out)}
    (hs : start P lib env0 motion0 = .ok n0) (hr : run P lib n0 h = .ok (n, outs)) (hsafe : Safe P I n (mapView P h))
    (hcast : (mapView P h).available = true → ∀ model, Lidar.Beam.Reach P.beam model →
      CastsRays model (caster P lib n.map) I ok)
    (hray : ∀ (s : State6 ℝ) last frame stamp t p, UnitQ s.rot → (∀ a ∈ H, a.1.dot s.pos ≤ a.2) →
      e.2.tfFull P.baseFrame last frame stamp P.odomFrame = some t → inClip P.beam.clip p →
      ok (s.pos + s.rot.rotate t.trans) (s.rot.rotate p + s.pos)) :
    (∃ n' o, step P lib e.2 n e.1 = .ok (n', o) ∧ Safe P I n' (mapView P (h ++ [e]))) ∨
    (∃ b s, Measuring P h e b s ∧ ∃ q ∈ n.loc.pf.particles, ∃ a ∈ H, a.2 < a.1.dot q.state.pos) ∨
    ∃ like, Weighed P lib w h e n like ∧ Ambiguous P n like := by
  by_cases hbad : (∃ b s, Measuring P h e b s ∧ ∃ q ∈ n.loc.pf.particles, ∃ a ∈ H, a.2 < a.1.dot q.state.pos)
  · exact .inr (.inl hbad)
  by_cases hamb : ∃ like, Weighed P lib w h e n like ∧ Ambiguous P n like
  · exact .inr (.inr hamb)
  left
  have hsound : FlannSound lib.flann w := by
    intro pts q r k e he
    obtain ⟨p, h1, _, h3⟩ := (hfl pts q r k).sound e he
    exact ⟨p, h1, h3⟩
  have hview : mapView P (h ++ [e]) = (mapView P h).step P e := by simp [mapView]
  rw [hview]
  refine step_safe' hP.toSensible ⟨w, hw.2.2, hsound⟩ hve hk hsafe he fun header msg hev => ?_
  obtain ⟨ev, env⟩ := e
  simp only at hev hve hk he hray hamb hbad hcast ⊢
  subst hev
  have hb := run_batchView (fun e he => hreg e (List.mem_append_left _ he)) hr (start_batch hs)
  have hregm : Regular msg := hreg (.cloud header msg, env) (by simp) header msg rfl
  refine cbCloud_total hP.toSensible hsafe.acc hsafe.loc header he fun hm a hl hc hprov => ?_
  obtain ⟨bb, hbb, hhead, hcloud⟩ := hmeas_batch hb hm hregm hprov
  have hav : (mapView P h).available = true := by rw [← hsafe.map.1, hm]
  have hlo : LocOk P I (freshen env n).loc := ⟨hsafe.loc.1, hsafe.loc.2, hsafe.loc.3, hsafe.loc.4⟩
  refine measure_total (ok := ok) hP.toSensible hsound.ids hve (n := { freshen env n with acc := a })
    (fun _ _ => prepare_total hP.uniform hve hc) (hsafe.acc.all hm) hlo ?_
  intro header' p hlast hpr hne rb
  simp only at hlast hpr
  rw [hhead, List.getLast?_map, Option.map_eq_some_iff] at hlast
  obtain ⟨s, hsl, rfl⟩ := hlast
  obtain ⟨b, rfl⟩ : ∃ b, bb = b ++ [s] := by
    obtain ⟨b, hb⟩ := List.getLast?_eq_some_iff.1 hsl
    exact ⟨b, hb⟩
  have hmsr : Measuring P h (.cloud header msg, env) b s := hbb
  obtain ⟨_, t, _, ht, _⟩ := prepare_ready hpr
  obtain ⟨hpb, hpl, _, hsel⟩ := prepare_selection hM hve (loc1 := (freshen env n).loc) hsafe.loc.like hsafe.loc.beam
    hhead hcloud ht hpr hne
  obtain ⟨_, hlab, _⟩ := prepare_labels hve hl hpr
  have hunit := C126_unit hv hu hs hr
  -- rays of a good state
  have rays : ∀ st : State6 ℝ, UnitQ st.rot → (∀ a ∈ H, a.1.dot st.pos ≤ a.2) → RaysOk ok p.origins st p.beamPc := by
    intro st h1 h2 q hq
    unfold State6.transform at hq
    obtain ⟨q', hq', rfl⟩ := List.mem_map.1 hq
    refine ⟨_, List.getElem?_eq_getElem (hlab q' hq'), ?_⟩
    obtain ⟨_, t', h3, h4⟩ := forall₂_right hsel.origin _ (List.getElem_mem (hlab q' hq'))
    rw [h4]
    simp only
    rw [Quat.C31_normalized_unit _ h1]
    exact hray st _ _ _ t' q'.pos h1 h2 h3 (hsel.beam q' hq').2
  have hgoodH : ∀ q ∈ n.loc.pf.particles, ∀ a ∈ H, a.1.dot q.state.pos ≤ a.2 := by
    intro q hq a ha
    by_contra hlt
    exact hbad ⟨b, s, hmsr, q, hq, a, ha, not_le.1 hlt⟩
  refine ⟨hcast hav p.beam rb, fun q hq => rays _ (hunit q hq) (hgoodH q hq), fun wt hwt => ?_⟩
  have hwt' : weighLoop P lib n.map p n.loc.pf.particles ⟨(freshen env n).loc.caster, 1, 0⟩ = .ok wt := hwt
  have hkd : n.map.kd = ChunkedKdtree.setInputCloud (kdCfg P) ((mapView P h).active.map Pt.pos) := hsafe.map.2.2.1
  have hlk := weigh_likelihoods hM hw hfl hkd hpb hpl hne hwt'
  have hlen := weighLoop_length hwt'
  have hna : ¬ Ambiguous P n wt.1 := fun ham => hamb ⟨wt.1, ⟨b, s, t, p.beam, p.origins, p.beamPc, p.likePc, hmsr, ht, hpb, hsel, hlk⟩, ham⟩
  refine rays _ (estimate_unit hM hlen hna) fun a ha => ?_
  obtain ⟨hnn, hsum⟩ := C115_weights hP.divYaw hv hs hr
  have hpne := hsafe.loc.pf
  obtain ⟨v1, v2⟩ := weigh_votes (f := n.loc.pf) hM.beamMin.le hmw hpb.facts.1 (like_fields hpl).1 hwt' hnn (by
    rcases hsum hpne with e | ⟨_, e⟩
    · rw [show (n.loc.pf.particles.map PF.Particle.prob).sum = 1 from e]; exact one_pos
    · rw [show (n.loc.pf.particles.map PF.Particle.prob).sum = P.divYaw from e]; exact_mod_cast hP.divYaw) hpne
    n.loc.statePrev
  refine C113_hull _ v1 v2 a.1 a.2 fun q hq => ?_
  have hst : (biasFilter P n.loc.statePrev (measureWith n.loc.pf wt.1)).particles.map PF.Particle.state =
      n.loc.pf.particles.map PF.Particle.state := pf1_states hlen
  have hmem : q.state ∈ (biasFilter P n.loc.statePrev (measureWith n.loc.pf wt.1)).particles.map PF.Particle.state :=
    List.mem_map_of_mem hq
  rw [hst] at hmem
  obtain ⟨q', hq', e⟩ := List.mem_map.1 hmem
  rw [← e]
  exact hgoodH q' hq' a ha

/-- What can go wrong at the event `e` after the history `h`. -/
def Wrong (P : Params) (lib : Lib C) (w : Vec3 ℝ) (H : Set (Vec3 ℝ × ℝ)) (h : History) (e : Event × Env) (n : Node C) : Prop :=
  n.loc.pf.particles ≠ [] ∧
  ((∃ b s, Measuring P h e b s ∧ ∃ q ∈ n.loc.pf.particles, ∃ a ∈ H, a.2 < a.1.dot q.state.pos) ∨
    ∃ like, Weighed P lib w h e n like ∧ Ambiguous P n like)

theorem run_real {P : Params} (hP : Sane P) (hM : Measures P) (hmw : 0 ≤ P.like.matchWeight) {lib : Lib C} {w : Vec3 ℝ}
    (hw : 1 ≤ w.x ∧ 1 ≤ w.y ∧ 1 ≤ w.z)
    (hfl : ∀ pts q r num, ExactSearch pts (weightedDist w q) r num (lib.flann pts q r num))
    {I : C → Prop} {ok : History → Vec3 ℝ → Vec3 ℝ → Prop} (H : Set (Vec3 ℝ × ℝ)) {env0 : Env} {motion0 : Motion ℝ}
    {h : History} (hv : ∀ e ∈ h, e.2.Valid ∧ KeepsPoints e.2 ∧ SafeEvent e.1) (hreg : RegularClouds h)
    (hu : UnitMessages h) (hI : I lib.caster0)
    (hcast : ∀ h1 h2 n0 n outs, h = h1 ++ h2 → start P lib env0 motion0 = .ok n0 → run P lib n0 h1 = .ok (n, outs) →
      (mapView P h1).available = true → ∀ model, Lidar.Beam.Reach P.beam model →
      CastsRays model (caster P lib n.map) I (ok h1))
    (hray : ∀ h1 e h2, h = h1 ++ e :: h2 → ∀ (s : State6 ℝ) last frame stamp t p, UnitQ s.rot → (∀ a ∈ H, a.1.dot s.pos ≤ a.2) →
      e.2.tfFull P.baseFrame last frame stamp P.odomFrame = some t → inClip P.beam.clip p →
      ok h1 (s.pos + s.rot.rotate t.trans) (s.rot.rotate p + s.pos)) :
    ∃ n0, start P lib env0 motion0 = .ok n0 ∧
      ((∃ n outs, run P lib n0 h = .ok (n, outs) ∧ outs.length = h.length ∧ Safe P I n (mapView P h)) ∨
        ∃ h1 e h2 n outs, h = h1 ++ e :: h2 ∧ run P lib n0 h1 = .ok (n, outs) ∧ Wrong P lib w H h1 e n) := by
  obtain ⟨n0, hs⟩ := start_total P lib env0 motion0 (le_of_lt hP.particles)
  refine ⟨n0, hs, ?_⟩
  induction h using List.reverseRecOn with
  | nil =>
    left
    refine ⟨n0, [], rfl, rfl, start_accInv hs, ?_, ?_, by simp [mapView, MapView.init]⟩
    · obtain ⟨_, ns, _, rfl⟩ := start_ok hs
      exact mapInv_init P
    · obtain ⟨_, ns, _, rfl⟩ := start_ok hs
      refine ⟨.make, .make, hI, ?_⟩
      have := hP.particles
      intro hn
      have h1 := congrArg List.length hn
      simp [PF.Filter.init, PF.Filter.new] at h1
      omega
  | append_singleton h e ih =>
    rcases ih (fun e he => hv e (List.mem_append_left _ he)) (fun e he => hreg e (List.mem_append_left _ he))
      (fun e he => hu e (List.mem_append_left _ he))
      (fun h1 h2 n0 n outs hh => hcast h1 (h2 ++ [e]) n0 n outs (by rw [hh]; simp))
      (fun h1 e' h2 hh => hray h1 e' (h2 ++ [e]) (by rw [hh]; simp)) with
      ⟨n, outs, hr, hl, hsafe⟩ | ⟨h1, e', h2, n, outs, hh, hr, hbad⟩
    · obtain ⟨hve, hk, he⟩ := hv e (by simp)
      rcases step_real hP hM hmw hw hfl H (env0 := env0) (motion0 := motion0)
        (fun e he => (hv e (List.mem_append_left _ he)).1) hve hk he hreg
        (fun e he => hu e (List.mem_append_left _ he)) hs hr hsafe
        (hcast h [e] n0 n outs rfl hs hr) (hray h e [] rfl) with ⟨n', o, hst, hs'⟩ | hbad
      · left
        refine ⟨n', outs ++ [o], ?_, by simp [hl], hs'⟩
        rw [run_append, hr, Outcome.bind_ok]
        obtain ⟨ev, env⟩ := e
        simp only [run]
        rw [hst]
        rfl
      · exact .inr ⟨h, e, [], n, outs, rfl, hr, hsafe.loc.pf, hbad⟩
    · exact .inr ⟨h1, e', h2 ++ [e], n, outs, by rw [hh]; simp, hr, hbad⟩

/-! ## The kd-tree caster -/

theorem iterO_map {S S' R R' : Type*} (φ : S → S') (ψ : R → R') {step : S → Outcome (S ⊕ R)} {step' : S' → Outcome (S' ⊕ R')}
    (h : ∀ s, step' (φ s) = (step s).bind fun x => .ok (x.map φ ψ)) (n : ℕ) (s : S) :
    iterO step' n (φ s) = (iterO step n s).bind fun x => .ok (x.map φ ψ) := by
  induction n generalizing s with
  | zero => rfl
  | succ n ih =>
    rw [iterO_succ, iterO_succ, h]
    cases step s with
    | throws m => rfl
    | ub m => rfl
    | ok x =>
      cases x with
      | inl s' => exact ih s'
      | inr r => rfl

/-- A loop over embedded states. -/
theorem loopO_map {S S' R R' : Type*} (φ : S → S') (ψ : R → R') {step : S → Outcome (S ⊕ R)} {step' : S' → Outcome (S' ⊕ R')}
    (h : ∀ s, step' (φ s) = (step s).bind fun x => .ok (x.map φ ψ)) (s : S) :
    loopO step' (φ s) = (loopO step s).bind fun r => .ok (ψ r) := by
  classical
  have hend : ∀ n, (iterO step' n (φ s)).Ended ↔ (iterO step n s).Ended := by
    intro n
    rw [iterO_map φ ψ h]
    rcases iterO step n s with (_ | _) | _ | _ <;> rfl
  by_cases hn : ∃ n, (iterO step n s).Ended
  · have h1 := Nat.find_spec hn
    have h2 : ∀ m < Nat.find hn, ¬ (iterO step m s).Ended := fun m hm => Nat.find_min hn hm
    rw [loopO_first h1 h2, loopO_first ((hend _).2 h1) (fun m hm => fun h3 => h2 m hm ((hend m).1 h3)), iterO_map φ ψ h]
    rcases iterO step (Nat.find hn) s with (_ | _) | _ | _ <;> rfl
  · push _root_.Not at hn
    rw [loopO_not_ended hn, loopO_not_ended fun n h3 => hn n ((hend n).1 h3)]
    rfl

/-- Evaluating a beam with an embedded caster. -/
theorem getBeamStatus_map {C C' : Type} (φ : C → C') {b : Lidar.Beam} {c : Lidar.Caster C} {c' : Lidar.Caster C'}
    (h1 : ∀ s l e, c'.setRay (φ s) l e = (c.setRay s l e).bind fun x => .ok (φ x))
    (h2 : ∀ s, c'.next (φ s) = (c.next s).bind fun x => .ok (x.1, φ x.2)) (l e : Vec3 ℝ) (s : C) :
    Lidar.getBeamStatus b c' l e (φ s) = (Lidar.getBeamStatus b c l e s).bind fun r => .ok (r.1, φ r.2) := by
  unfold Lidar.getBeamStatus
  rw [h1]
  cases c.setRay s l e with
  | throws m => rfl
  | ub m => rfl
  | ok s1 =>
    simp only [Outcome.bind_ok]
    refine loopO_map φ (fun r : Lidar.BeamStatus × C => (r.1, φ r.2)) ?_ s1
    intro s
    unfold Lidar.beamRound
    rw [h2]
    cases c.next s with
    | throws m => rfl
    | ub m => rfl
    | ok r =>
      obtain ⟨o, s'⟩ := r
      simp only [Outcome.bind_ok]
      cases o with
      | none => rfl
      | some res =>
        obtain ⟨col, sin, point⟩ := res
        rcases point with _ | ⟨q, label⟩ <;> simp only <;> split_ifs <;> rfl

theorem input_of_inv {P : Params} {m : MapSt} {v : MapView} (h : MapInv P m v) (hv : v.available = true) :
    ∃ version stamp, m.input = some ⟨version, stamp, v.active.map fun p => (p.pos, p.attr)⟩ := by
  obtain ⟨_, _, _, ⟨_, _, _, h4, _⟩ | ⟨b, c, _, _, hk, hh, hc⟩⟩ := h
  · rw [hv] at h4; cases h4
  · exact ⟨m.version, c.stamp, by simp [MapSt.input, hk, hh, hc]⟩

theorem kdCfg_range (P : Params) : 4 * max (max P.mapDownsample.x P.mapDownsample.y) P.mapDownsample.z ≤
    (kdCfg P).maxSearchRadius := by
  simp only [kdCfg, cmax_eq]
  refine le_trans (le_trans ?_ (le_max_right _ _)) (le_max_left _ _)
  linarith

/-- The node's kd-tree caster deals with rays of positive and not absurd length. -/
theorem kd_casts {P : Params} (hM : Measures P) {flann : List (Vec3 ℝ) → Vec3 ℝ → ℝ → ℕ → List (ℕ × ℝ)} {w : Vec3 ℝ}
    (hw : 1 ≤ w.x ∧ 1 ≤ w.y ∧ 1 ≤ w.z)
    (hfl : ∀ pts q r num, ExactSearch pts (weightedDist w q) r num (flann pts q r num))
    {solve3 : Matrix (Fin 3) (Fin 3) ℝ → (Fin 3 → ℝ) × Matrix (Fin 3) (Fin 3) ℝ}
    {solve6 : (Fin 6 → Fin 6 → ℝ) → (Fin 6 → ℝ) × (Fin 6 → Fin 6 → ℝ)}
    (hg : 0 < P.mapDownsample.x ∧ 0 < P.mapDownsample.y ∧ 0 < P.mapDownsample.z) (hr : 0 ≤ P.beam.hitRange) {D : ℝ}
    (hD : (D + P.beam.hitRange) / min (min P.mapDownsample.x P.mapDownsample.y) P.mapDownsample.z < 2 ^ 31)
    {m : MapSt} {v : MapView} (hm : MapInv P m v) (hv : v.available = true) {model : Lidar.Beam}
    (hb : Lidar.Beam.Reach P.beam model) :
    CastsRays model (caster P (realLib P flann solve3 solve6) m) (fun c => ∃ s, c = .inr s)
      fun l e => 0 < DDA.len (e - l) ∧ DDA.len (e - l) ≤ D := by
  rintro l e c ⟨s, rfl⟩ ⟨h0, h1⟩
  obtain ⟨version, stamp, hin⟩ := input_of_inv hm hv
  have hmin : 0 < min (min P.mapDownsample.x P.mapDownsample.y) P.mapDownsample.z := lt_min (lt_min hg.1 hg.2.1) hg.2.2
  let cfg : KDRay.Cfg := ⟨P.mapDownsample.x, P.mapDownsample.y, P.mapDownsample.z, P.beam.hitRange⟩
  have hex : KDRay.ExactOver cfg ((v.active.map fun p => (p.pos, p.attr)).map Prod.fst) w
      (search P (realLib P flann solve3 solve6) m) := by
    have := KDRay.exactOver_chunked (cfg := cfg) (by rw [KDRay.stepOf_eq]; exact hmin) (kdCfg P)
      (by rw [KDRay.largest_eq]; exact kdCfg_range P) hM.chunk (v.active.map Pt.pos) hw hfl
    have e1 : (v.active.map fun p => (p.pos, p.attr)).map Prod.fst = v.active.map Pt.pos := by simp
    rw [e1]
    unfold search
    rw [hm.2.2.1]
    exact this
  have hset : ∃ s1, KDRay.setRay cfg l e = .ok s1 := by
    have hlen : (e - l).norm = DDA.len (e - l) := by
      unfold Vec3.norm Vec3.dot DDA.len
      congr 1
      ring
    have hfl2 : DDA.i32 ⌊((e - l).norm + cfg.hitTolerance) / cfg.gridMin⌋ = .ok ⌊((e - l).norm + cfg.hitTolerance) / cfg.gridMin⌋ := by
      have hg' : (0 : ℝ) < cfg.gridMin := hmin
      have hr' : (0 : ℝ) ≤ cfg.hitTolerance := hr
      have h2 : 0 ≤ ((e - l).norm + cfg.hitTolerance) / cfg.gridMin := by
        rw [hlen]; exact div_nonneg (by linarith) hg'.le
      have h3 : ((e - l).norm + cfg.hitTolerance) / cfg.gridMin < 2 ^ 31 := by
        refine lt_of_le_of_lt ?_ hD
        rw [hlen]
        show _ / cfg.gridMin ≤ _ / cfg.gridMin
        have : DDA.len (e - l) + cfg.hitTolerance ≤ D + P.beam.hitRange := add_le_add h1 le_rfl
        gcongr
      have h4 := Int.floor_nonneg.2 h2
      have h5 : ⌊((e - l).norm + cfg.hitTolerance) / cfg.gridMin⌋ < 2 ^ 31 := by
        rw [Int.floor_lt]; exact_mod_cast h3
      unfold DDA.i32
      rw [if_pos (by constructor <;> omega)]
    unfold KDRay.setRay
    rw [if_neg (show cfg.gridMin ≠ 0 from ne_of_gt hmin), hfl2, Outcome.bind_ok]
    split_ifs <;> exact ⟨_, rfl⟩
  obtain ⟨s1, hs1⟩ := hset
  obtain ⟨st, s2, hst, _⟩ := Lidar.C66_kdtree hex hb hr h0 hs1 s
  refine ⟨st, .inr s2, ?_, s2, rfl⟩
  have hc : caster P (realLib P flann solve3 solve6) m =
      realCaster P (some ⟨version, stamp, v.active.map fun p => (p.pos, p.attr)⟩) (search P (realLib P flann solve3 solve6) m) := by
    unfold caster; rw [hin]; rfl
  rw [hc, getBeamStatus_map (C := Option KDRay.St) Sum.inr (c := Lidar.kdCaster cfg (search P (realLib P flann solve3 solve6) m)
    (v.active.map fun p => (p.pos, p.attr))) (fun _ _ _ => rfl) (fun _ => rfl), hst]
  rfl

theorem ray_length {s : State6 ℝ} (hs : UnitQ s.rot) (o p : Vec3 ℝ) :
    DDA.len ((s.rot.rotate p + s.pos) - (s.pos + s.rot.rotate o)) = Lidar.dist p o := by
  have h1 : (s.rot.rotate p + s.pos) - (s.pos + s.rot.rotate o) = s.rot.rotate p - s.rot.rotate o := by
    ext
    · show (s.rot.rotate p).x + s.pos.x - (s.pos.x + (s.rot.rotate o).x) = (s.rot.rotate p).x - (s.rot.rotate o).x
      ring
    · show (s.rot.rotate p).y + s.pos.y - (s.pos.y + (s.rot.rotate o).y) = (s.rot.rotate p).y - (s.rot.rotate o).y
      ring
    · show (s.rot.rotate p).z + s.pos.z - (s.pos.z + (s.rot.rotate o).z) = (s.rot.rotate p).z - (s.rot.rotate o).z
      ring
  have h2 : s.rot.rotate p - s.rot.rotate o = s.rot.rotate (p - o) := by
    have h := Quat.C28_rotate_linear s.rot (p - o) o 0
    have e1 : (p - o) + o = p := by
      apply Vec3.ext
      · show p.x - o.x + o.x = p.x; ring
      · show p.y - o.y + o.y = p.y; ring
      · show p.z - o.z + o.z = p.z; ring
    rw [e1] at h
    rw [h.1]
    apply Vec3.ext
    · show (s.rot.rotate (p - o)).x + (s.rot.rotate o).x - (s.rot.rotate o).x = _; ring
    · show (s.rot.rotate (p - o)).y + (s.rot.rotate o).y - (s.rot.rotate o).y = _; ring
    · show (s.rot.rotate (p - o)).z + (s.rot.rotate o).z - (s.rot.rotate o).z = _; ring
  have h3 := Quat.C28_unit_preserves_dot _ hs (p - o) (p - o)
  rw [h1, h2]
  unfold DDA.len Lidar.dist
  congr 1
  have h4 : (p - o).dot (p - o) = (p.x - o.x) ^ 2 + (p.y - o.y) ^ 2 + (p.z - o.z) ^ 2 := by
    show (p.x - o.x) * (p.x - o.x) + (p.y - o.y) * (p.y - o.y) + (p.z - o.z) * (p.z - o.z) = _
    ring
  rw [← h4, ← h3]
  simp only [Vec3.dot]
  ring

theorem dist_pos {p o : Vec3 ℝ} (h : p ≠ o) : 0 < Lidar.dist p o := by
  unfold Lidar.dist
  rw [Real.sqrt_pos]
  by_contra hn
  have h1 := sq_nonneg (p.x - o.x)
  have h2 := sq_nonneg (p.y - o.y)
  have h3 := sq_nonneg (p.z - o.z)
  have e1 : (p.x - o.x) ^ 2 = 0 := by linarith
  have e2 : (p.y - o.y) ^ 2 = 0 := by linarith
  have e3 : (p.z - o.z) ^ 2 = 0 := by linarith
  apply h
  rw [sq_eq_zero_iff, sub_eq_zero] at e1 e2 e3
  exact Vec3.ext e1 e2 e3

/-! ## The DDA caster -/

/-- The clouds given to the caster are those of the specification. -/
def MapsInv (P : Params) (m : MapSt) (v : MapView × List DDA.Cloud) : Prop :=
  MapInv P m v.1 ∧ m.version = v.2.length ∧ m.input = v.2.getLast?

theorem mapTimer_maps {P : Params} {env : Env} {m m' : MapSt} {o : List Out} {v : MapView × List DDA.Cloud}
    (hi : MapsInv P m v) (h : mapTimer P env m = .ok (m', o)) :
    MapsInv P m' (mapsStep P v (.timer, env)) := by
  obtain ⟨hm, hver, hin⟩ := hi
  obtain ⟨m2, o2, h2, hinv, _⟩ := mapTimer_spec (env := env) hm
  rw [h] at h2
  simp only [Outcome.ok.injEq, Prod.mk.injEq] at h2
  obtain ⟨rfl, rfl⟩ := h2
  refine ⟨hinv, ?_⟩
  have hm' := hm
  obtain ⟨ha, hu, hk, hd⟩ := hm
  unfold mapTimer at h
  simp only [mapsStep]
  by_cases hav : v.1.available = true
  · rw [if_pos (by rw [ha, hav])] at h
    rcases hd with ⟨_, _, _, h4, _⟩ | ⟨b, c, hb, hmg, hkc, hh, hc⟩
    · rw [hav] at h4; cases h4
    cases hp : v.1.pending with
    | none =>
      rw [hu, hp, hmg] at h
      simp only [Outcome.ok.injEq, Prod.mk.injEq] at h
      obtain ⟨rfl, _⟩ := h
      simp [hver, hin]
    | some u =>
      rw [hu, hp, hmg, hb] at h
      simp only [Option.bind_some, hh, Option.getD_some, Outcome.ok.injEq, Prod.mk.injEq] at h
      obtain ⟨rfl, _⟩ := h
      have hlt : b < m.heap.length := by
        by_contra hge
        rw [List.getElem?_eq_none (by omega)] at hh
        cases hh
      simp [hav, MapView.step, hp, hver, hc, MapSt.input, hlt]
  · have hf : m.hasMap = false := by rw [ha]; simpa using hav
    rw [if_neg (by rw [hf]; decide)] at h
    simp only [Outcome.ok.injEq, Prod.mk.injEq] at h
    obtain ⟨rfl, _⟩ := h
    simp [hav, hver, hin]

theorem load_maps {P : Params} {env : Env} {n n' : Node C} {stamp : ℕ} {pts : List Point} {o : List Out}
    (h : loadMapCloud P env n stamp pts = .ok (n', o)) :
    n'.map.version = n.map.version + 1 ∧ n'.map.input = some ⟨n.map.version + 1, stamp,
      (env.voxel P.mapDownsample pts).map fun p => (p.pos, p.attr)⟩ := by
  unfold loadMapCloud mapTimer at h
  simp only [if_true] at h
  have : (n.map.heap ++ [(⟨stamp, env.voxel P.mapDownsample pts⟩ : MapCloud)])[n.map.heap.length]? =
      some ⟨stamp, env.voxel P.mapDownsample pts⟩ := by simp
  rw [this] at h
  simp only [Outcome.bind_ok, Outcome.ok.injEq, Prod.mk.injEq] at h
  obtain ⟨rfl, _⟩ := h
  exact ⟨rfl, by simp [MapSt.input]⟩

theorem step_maps {P : Params} {lib : Lib C} {env : Env} {n n' : Node C} {ev : Event} {o : List Out}
    {v : MapView × List DDA.Cloud} (hi : MapsInv P n.map v) (h : step P lib env n ev = .ok (n', o)) :
    MapsInv P n'.map (mapsStep P v (ev, env)) := by
  have hm := (step_map hi.1 h).1
  have same : n'.map.version = n.map.version → n'.map.input = n.map.input → (mapsStep P v (ev, env)).2 = v.2 →
      MapsInv P n'.map (mapsStep P v (ev, env)) := by
    intro h1 h2 h3
    exact ⟨hm, by rw [h1, h3]; exact hi.2.1, by rw [h2, h3]; exact hi.2.2⟩
  cases ev with
  | mapcloud stamp msg =>
    have hval := fromROSMsg_valid msg
    rcases cbMapcloud_ok h with ⟨h1, rfl, rfl⟩ | ⟨h1, hl⟩
    · rw [hval] at h1
      exact same rfl rfl (by simp [mapsStep, h1])
    · rw [hval] at h1
      obtain ⟨h2, h3⟩ := load_maps hl
      refine ⟨hm, ?_, ?_⟩
      · rw [h2, hi.2.1]; simp [mapsStep, h1]
      · rw [h3, hi.2.1]
        simp [mapsStep, h1, MapView.step, cloudPoints, pointsOf]
  | mapcloudUpdate msg =>
    simp only [step, Outcome.ok.injEq, Prod.mk.injEq] at h
    obtain ⟨rfl, rfl⟩ := h
    refine same ?_ ?_ rfl
    · unfold cbMapcloudUpdate; split <;> rfl
    · unfold cbMapcloudUpdate; split <;> rfl
  | loadPcd file =>
    rcases cbLoadPcd_ok h with ⟨rfl, rfl, rfl⟩ | ⟨pts, o1, rfl, hl, rfl⟩
    · exact same rfl rfl rfl
    · obtain ⟨h2, h3⟩ := load_maps hl
      refine ⟨hm, ?_, ?_⟩
      · rw [h2, hi.2.1]; simp [mapsStep]
      · rw [h3, hi.2.1]; simp [mapsStep, MapView.step]
  | timer =>
    obtain ⟨⟨m, o'⟩, h1, h2⟩ := Outcome.bind_eq_ok_iff.1 h
    simp only [Outcome.ok.injEq, Prod.mk.injEq] at h2
    obtain ⟨rfl, rfl⟩ := h2
    exact mapTimer_maps hi h1
  | cloud header msg =>
    obtain ⟨h1, _⟩ := cbCloud_loc h
    exact same (by rw [h1]) (by rw [h1]) rfl
  | odom msg => obtain ⟨h1, _⟩ := sensor_frame _ h; exact same (by rw [h1]) (by rw [h1]) rfl
  | imu msg => obtain ⟨h1, _⟩ := sensor_frame _ h; exact same (by rw [h1]) (by rw [h1]) rfl
  | initialpose msg =>
    rcases cbPosition_ok h with ⟨rfl, rfl, hrej⟩ | ⟨hacc, t, st, ht, rfl, rfl⟩ <;> exact same rfl rfl rfl
  | landmark msg => obtain ⟨pf, _, rfl, rfl⟩ := cbLandmark_ok h; exact same rfl rfl rfl
  | resize size => obtain ⟨pf, _, rfl, rfl⟩ := cbResize_ok h; exact same rfl rfl rfl
  | expansionReset => obtain ⟨pf, _, rfl, rfl⟩ := cbExpansionReset_ok h; exact same rfl rfl rfl
  | globalLocalization =>
    rcases cbGlobalLocalization_ok h with ⟨_, rfl, rfl⟩ | ⟨_, c, pf, ps, _, _, _, rfl, rfl⟩ <;> exact same rfl rfl rfl
  | reconfigure w =>
    simp only [step, Outcome.ok.injEq, Prod.mk.injEq] at h
    obtain ⟨rfl, rfl⟩ := h
    exact same rfl rfl rfl

theorem run_maps {P : Params} {lib : Lib C} {h : History} {n n' : Node C} {outs : List (List Out)}
    {v : MapView × List DDA.Cloud} (hi : MapsInv P n.map v) (hr : run P lib n h = .ok (n', outs)) :
    MapsInv P n'.map (h.foldl (mapsStep P) v) := by
  induction h generalizing n outs v with
  | nil =>
    simp only [run, Outcome.ok.injEq, Prod.mk.injEq] at hr
    rw [← hr.1]; exact hi
  | cons e h ih =>
    obtain ⟨ev, env⟩ := e
    obtain ⟨n1, o, os, h1, h2, _⟩ := run_cons_ok hr
    exact ih (step_maps hi h1) h2

/-- After a history the caster has the last of the clouds. -/
theorem input_maps {P : Params} {lib : Lib C} {env0 : Env} {motion0 : Motion ℝ} {n0 n : Node C}
    {h : History} {outs : List (List Out)} (hs : start P lib env0 motion0 = .ok n0)
    (hr : run P lib n0 h = .ok (n, outs)) : n.map.input = (maps P h).getLast? := by
  refine (run_maps (v := (MapView.init, [])) ?_ hr).2.2
  obtain ⟨_, ns, _, rfl⟩ := start_ok hs
  exact ⟨mapInv_init P, rfl, rfl⟩

theorem maps_prefix (P : Params) (h1 h2 : History) : maps P h1 <+: maps P (h1 ++ h2) := by
  induction h2 using List.reverseRecOn with
  | nil => simp
  | append_singleton h2 e ih =>
    refine ih.trans ?_
    unfold maps
    rw [← List.append_assoc, List.foldl_append (l' := [e])]
    simp only [List.foldl_cons, List.foldl_nil]
    generalize List.foldl (mapsStep P) (MapView.init, []) (h1 ++ h2) = v
    obtain ⟨ev, env⟩ := e
    unfold mapsStep
    simp only
    split <;> try split_ifs
    all_goals first | exact List.prefix_append _ _ | exact List.prefix_rfl

theorem maps_differ {P : Params} {h : History} (hd : ((maps P h).map DDA.Cloud.stamp).Nodup) :
    DDA.StampsDiffer {c | c ∈ maps P h} := by
  intro c hc c' hc' he
  exact List.inj_on_of_nodup_map hd hc hc' he

/-- The configuration of the node's DDA caster. -/
noncomputable def ddaCfg (P : Params) : DDA.Cfg :=
  ⟨P.mapDownsample.x, P.mapDownsample.y, P.mapDownsample.z, P.ddaGridSize, P.rayAngleHalf, P.beam.hitRange⟩

/-- The node's DDA caster deals with rays of positive length that end not absurdly far away. -/
theorem dda_castsRays {P : Params} {flann : List (Vec3 ℝ) → Vec3 ℝ → ℝ → ℕ → List (ℕ × ℝ)}
    {solve3 : Matrix (Fin 3) (Fin 3) ℝ → (Fin 3 → ℝ) × Matrix (Fin 3) (Fin 3) ℝ}
    {solve6 : (Fin 6 → Fin 6 → ℝ) → (Fin 6 → ℝ) × (Fin 6 → Fin 6 → ℝ)}
    (hg : 0 < P.ddaGridSize) (hr : 0 ≤ P.beam.hitRange) {R : ℝ} {S : Set DDA.Cloud} (hS : DDA.StampsDiffer S)
    {m : MapSt} {c : DDA.Cloud} (hin : m.input = some c) (hc : c ∈ S) (hfit : GridFits P.ddaGridSize R c)
    {model : Lidar.Beam} (hb : Lidar.Beam.Reach P.beam model) :
    CastsRays model (caster P (realLib P flann solve3 solve6) m) (fun c => ∃ s, c = .inl s ∧ DDA.Reachable (ddaCfg P) S s)
      fun l e => l ≠ e ∧ ∀ i : Fin 3, |(DDA.rayPoint l e (DDA.len (e - l) + P.beam.hitRange)).get i| ≤ R := by
  rintro l e _ ⟨s, rfl, hs⟩ ⟨hne, hend⟩
  obtain ⟨mn, mx, hbox, hcells, haxes, hR⟩ := hfit
  have hok := DDA.C58_setRay_defined (cfg := ddaCfg P) hg hs hS hc hbox hcells haxes hne fun i => by
    refine le_trans (abs_sub _ _) (le_trans (add_le_add (hend i) le_rfl) (hR i))
  obtain ⟨s1, hs1⟩ : ∃ s1, DDA.setRay (ddaCfg P) s (some c) l e = .ok s1 := by
    cases hx : DDA.setRay (ddaCfg P) s (some c) l e with
    | ok s1 => exact ⟨s1, rfl⟩
    | throws x => rw [hx] at hok; cases hok
    | ub x => rw [hx] at hok; cases hok
  obtain ⟨st, s2, hst, hs2, _⟩ := Lidar.C66_dda (cfg := ddaCfg P) hg hS hs hc hb hr hs1
  refine ⟨st, .inl s2, ?_, s2, rfl, hs2⟩
  have hcs : caster P (realLib P flann solve3 solve6) m =
      realCaster P (some c) (search P (realLib P flann solve3 solve6) m) := by
    unfold caster; rw [hin]; rfl
  rw [hcs, getBeamStatus_map (C := DDA.St) Sum.inl (c := Lidar.ddaCaster (ddaCfg P) (some c))
    (fun _ _ _ => rfl) (fun _ => rfl), hst]
  rfl

theorem get_le_len (v : Vec3 ℝ) (i : Fin 3) : |v.get i| ≤ DDA.len v := by
  unfold DDA.len
  rw [← Real.sqrt_sq_eq_abs]
  apply Real.sqrt_le_sqrt
  have h1 := sq_nonneg v.x
  have h2 := sq_nonneg v.y
  have h3 := sq_nonneg v.z
  fin_cases i
  · show v.x ^ 2 ≤ _; linarith
  · show v.y ^ 2 ≤ _; linarith
  · show v.z ^ 2 ≤ _; linarith

theorem rayPoint_bound {l e : Vec3 ℝ} {t : ℝ} (ht : 0 ≤ t) (i : Fin 3) : |(DDA.rayPoint l e t).get i| ≤ |l.get i| + t := by
  have h1 : (DDA.rayPoint l e t).get i = l.get i + t * ((e - l).get i / DDA.len (e - l)) := by
    fin_cases i <;> rfl
  rw [h1]
  refine (abs_add_le _ _).trans (add_le_add le_rfl ?_)
  rw [abs_mul, abs_of_nonneg ht, abs_div]
  have h2 : 0 ≤ DDA.len (e - l) := Real.sqrt_nonneg _
  rw [abs_of_nonneg h2]
  calc t * (|(e - l).get i| / DDA.len (e - l)) ≤ t * 1 := by
        apply mul_le_mul_of_nonneg_left _ ht
        exact div_le_one_of_le₀ (get_le_len _ _) h2
    _ = t := mul_one t

theorem len_rotate {q : Quat ℝ} (hq : UnitQ q) (v : Vec3 ℝ) : DDA.len (q.rotate v) = DDA.len v := by
  have h3 := Quat.C28_unit_preserves_dot _ hq v v
  unfold DDA.len
  congr 1
  simp only [Vec3.dot] at h3
  linarith

end Node
end Mcl3dl
