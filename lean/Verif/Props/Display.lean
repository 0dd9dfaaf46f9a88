import Verif.Spec.Display
import Verif.Props.NodeSafe
import Verif.Proofs.NodeStatus
import Verif.Proofs.NodeCloud
import Verif.Props.NodeDemoPose

/-! # Property C162: observing does not disturb -/

set_option linter.unusedSectionVars false

namespace Mcl3dl
namespace Node

variable {C : Type}

/-! ## The cloud callback as one expression -/

/-- Measuring the pending batch and starting a new one with the cloud. -/
noncomputable def restartWith (P : Params) (lib : Lib C) (env : Env) (n : Node C) (header : Header) (msg : Conv.Msg) :
    Outcome (Node C × List Out) :=
  (measure P lib env (freshen env n)).bind fun r =>
  (accumCloud P env header msg (accumClear r.1.acc)).bind fun x =>
  .ok ({ r.1 with acc := { x.2 with logic := if x.1 then ⟨1, [header.frame]⟩ else CloudAccum.St.init } }, r.2)

/-- Adding the cloud to the batch. -/
noncomputable def addTo (P : Params) (env : Env) (n : Node C) (header : Header) (msg : Conv.Msg) (cnt : ℕ) :
    Outcome (Node C × List Out) :=
  (accumCloud P env header msg n.acc).bind fun x =>
  .ok ({ freshen env n with acc :=
    if x.1 then { x.2 with logic := ⟨cnt, n.acc.logic.keys ++ [header.frame]⟩ }
    else { accumClear x.2 with logic := CloudAccum.St.init } }, [])

theorem accumCloud_logic {P : Params} {env : Env} {header : Header} {msg : Conv.Msg} {a : AccSt} {b : Bool} {a' : AccSt}
    (h : accumCloud P env header msg a = .ok (b, a')) : a'.logic = a.logic := by
  unfold accumCloud at h
  split at h
  · cases h; rfl
  · obtain ⟨m, _, h⟩ := Outcome.bind_eq_ok_iff.1 h
    split at h
    · cases h; rfl
    · split at h
      · cases h
      · cases h; rfl

theorem process_eq (P : Params) (lib : Lib C) (env : Env) (n : Node C) (header : Header) (msg : Conv.Msg)
    (s : CloudAccum.St String) :
    ((CloudAccum.processAndRestart s header.frame msg (callbacks P lib env header) (.ok (freshen env n, []))).2.bind
      fun w => .ok ({ w.1 with acc := { w.1.acc with logic :=
        (CloudAccum.processAndRestart s header.frame msg (callbacks P lib env header) (.ok (freshen env n, []))).1 } }, w.2)) =
      restartWith P lib env n header msg := by
  unfold CloudAccum.processAndRestart restartWith
  simp only [callbacks, Outcome.bind_ok, List.nil_append]
  cases hm : measure P lib env (freshen env n) with
  | ok r =>
    simp only [Outcome.bind_ok]
    cases ha : accumCloud P env header msg (accumClear r.1.acc) with
    | ok x =>
      obtain ⟨b, a⟩ := x
      cases b <;> simp [CloudAccum.reset, CloudAccum.St.init]
    | throws e => simp
    | ub e => simp
  | throws e => simp
  | ub e => simp

theorem add_eq (P : Params) (lib : Lib C) (env : Env) (n : Node C) (header : Header) (msg : Conv.Msg) (cnt : ℕ) :
    ((match (callbacks P lib env header).accumulate msg (.ok (freshen env n, [])) with
      | (true, w1) => (.ok (⟨cnt, n.acc.logic.keys ++ [header.frame]⟩, w1) : Outcome (CloudAccum.St String × World C))
      | (false, w1) => .ok (CloudAccum.reset n.acc.logic, (callbacks P lib env header).clear w1)).bind fun r =>
        r.2.bind fun w => .ok ({ w.1 with acc := { w.1.acc with logic := r.1 } }, w.2)) =
      addTo P env n header msg cnt := by
  unfold addTo
  have hfa : (freshen env n).acc = n.acc := rfl
  simp only [callbacks, hfa]
  cases ha : accumCloud P env header msg n.acc with
  | ok x =>
    obtain ⟨b, a⟩ := x
    cases b <;> simp [CloudAccum.reset, CloudAccum.St.init]
  | throws e => simp
  | ub e => simp

/-- The cloud callback with accumulation. -/
theorem cbCloud_form {P : Params} {lib : Lib C} {env : Env} {n : Node C} {header : Header}
    {msg : Conv.Msg} (hm : n.map.hasMap = true) (hP : P.accumCloud ≠ 0) :
    cbCloud P lib env n header msg =
      if n.acc.logic.keys.length < (accCfg P).accumMax then
        if n.acc.logic.keys.length = 0 ∨ n.acc.logic.keys.head? ≠ some header.frame then
          addTo P env n header msg (if n.acc.logic.keys.length = 0 then 1 else n.acc.logic.cnt)
        else if n.acc.logic.cnt < (accCfg P).accum then addTo P env n header msg (n.acc.logic.cnt + 1)
        else restartWith P lib env n header msg
      else if n.acc.logic.keys = [] then .ub "keys_.front() on an empty vector"
      else restartWith P lib env n header msg := by
  rw [cbCloud_eq hm, if_neg hP]
  unfold CloudAccum.push
  by_cases h1 : n.acc.logic.keys.length < (accCfg P).accumMax
  · rw [if_pos h1, if_pos h1]
    by_cases h2 : n.acc.logic.keys.length = 0 ∨ n.acc.logic.keys.head? ≠ some header.frame
    · rw [if_pos h2, if_pos h2]
      refine Eq.trans ?_ (add_eq P lib env n header msg _)
      rcases (callbacks P lib env header).accumulate msg (.ok (freshen env n, [])) with ⟨_ | _, w⟩ <;> rfl
    · rw [if_neg h2, if_neg h2]
      by_cases h3 : n.acc.logic.cnt < (accCfg P).accum
      · rw [if_pos h3, if_pos h3]
        refine Eq.trans ?_ (add_eq P lib env n header msg _)
        rcases (callbacks P lib env header).accumulate msg (.ok (freshen env n, [])) with ⟨_ | _, w⟩ <;> rfl
      · rw [if_neg h3, if_neg h3, Outcome.bind_ok]
        exact process_eq P lib env n header msg _
  · rw [if_neg h1, if_neg h1]
    by_cases h2 : n.acc.logic.keys = []
    · rw [if_pos h2, h2]
      rfl
    · rw [if_neg h2]
      cases hk : n.acc.logic.keys with
      | nil => exact absurd hk h2
      | cons a l =>
        simp only [Outcome.bind_ok]
        exact process_eq P lib env n header msg _

/-- The cloud callback without accumulation. -/
theorem cbCloud_form0 {P : Params} {lib : Lib C} {env : Env} {n : Node C} {header : Header}
    {msg : Conv.Msg} (hm : n.map.hasMap = true) (hP : P.accumCloud = 0) :
    cbCloud P lib env n header msg =
      (accumCloud P env header msg (accumClear n.acc)).bind fun x =>
      if x.1 then measure P lib env { freshen env n with acc := x.2 } else .ok ({ freshen env n with acc := x.2 }, []) := by
  rw [cbCloud_eq hm, if_pos hP]
  have hfa : (freshen env n).acc = n.acc := rfl
  simp only [CloudAccum.pushPassThrough, callbacks, Outcome.bind_ok, hfa]
  cases ha : accumCloud P env header msg (accumClear n.acc) with
  | ok x =>
    obtain ⟨b, a⟩ := x
    cases b
    · simp
    · simp only [Outcome.bind_ok, if_true]
      cases measure P lib env { freshen env n with acc := a } <;> simp
  | throws e => simp
  | ub e => simp

/-! ## The display parameters do not enter the localization -/

section
variable (P : Params) (d : Display) (env : Env) (a b : Bool)

theorem originsOf_display (stamp : ℝ) (hs : List Header) :
    originsOf (withDisplay P d) (withSubscribers env a b) stamp hs = originsOf P env stamp hs := by
  induction hs with
  | nil => rfl
  | cons h hs ih => rw [originsOf, originsOf, ih]; rfl

theorem prepare_display (lib : Lib C) (acc : AccSt) (n : Node C) (v : View) (header : Header) :
    prepare (withDisplay P d) lib (withSubscribers env a b) acc (withView n v).loc header =
      prepare P lib env acc n.loc header := by
  unfold prepare
  rw [originsOf_display]
  rfl

theorem weighLoop_display (lib : Lib C) (m : MapSt) (p : Prep) (qs : List Particle) :
    weighLoop (withDisplay P d) lib m p qs = weighLoop P lib m p qs := by
  induction qs with
  | nil => rfl
  | cons q qs ih => funext w; rw [weighLoop, weighLoop, ih]; rfl

end

/-- The converse of `localize_ok`. -/
theorem localize_of {P : Params} {lib : Lib C} {env : Env} {m : MapSt} {odo : OdoSt} {warn : Vec3 ℝ}
    {loc : LocSt C} {header : Header} {p : Prep} (r : LocRun C)
    (h1 : weighLoop P lib m p loc.pf.particles ⟨loc.caster, 1, 0⟩ = .ok r.w)
    (h2 : (r.pf1 P loc).max = .ok r.eMax)
    (h3 : markersOf P lib m p (r.est P loc) r.w.2.caster = .ok r.marks)
    (h4 : covarianceOf P env 1 (r.pf2 P loc) = .ok r.cov)
    (h5 : accumAll P loc.allAccum ((r.final P odo loc).transform p.likePc) = .ok r.allAccum)
    (h6 : matchOutput P lib env m header.stamp loc.matchLast ((r.final P odo loc).transform p.full) = .ok r.mo)
    (h7 : resampleFilter env 0 P.resampleVar (r.pf2 P loc) = .ok r.pf3)
    (h8 : expandFilter P env r.w.2.ratioMax (driftFilter P env r.pf3) = .ok r.pf5)
    (h9 : reduceFilter P env r.pf5 = .ok r.pf6)
    (h10 : newFixCount P r.pf5.particles.length loc.fixCnt = .ok r.fix) :
    localize P lib env m odo warn loc header p = .ok (
        { pf := r.pf6
          statePrev := r.est P loc
          fPos := (r.smooth P odo loc).fPos
          fAng := (r.smooth P odo loc).fAng
          rate := loc.rate.input (clampDt (env.now 3 - loc.localizedLast))
          localizedLast := env.now 3
          tolBase := (loc.rate.input (clampDt (env.now 3 - loc.localizedLast))).out
          fixCnt := r.fix - 1
          status := r.status P warn loc
          matchLast := r.mo.1
          beam := p.beam
          like := p.like
          caster := r.marks.2
          allAccum := r.allAccum
          stats := p.stats },
        [.markers r.marks.1] ++
        (if P.publishTf then
          [.transforms (transformsOf P (outStamp P odo loc.tolBase (env.now 1)) (r.smooth P odo loc))]
          else []) ++
        [.pose header.stamp P.mapFrame (r.smooth P odo loc).pos (r.smooth P odo loc).rot r.cov] ++ r.mo.2 ++
        [publishParticles P odo loc.tolBase (env.now 2) (r.pf2 P loc),
          publishStatus (r.status P warn loc) r.pf6]) :=
  Outcome.bind_eq_ok_iff.2 ⟨_, h1, Outcome.bind_eq_ok_iff.2 ⟨_, h2, Outcome.bind_eq_ok_iff.2 ⟨_, h3,
    Outcome.bind_eq_ok_iff.2 ⟨_, h4, Outcome.bind_eq_ok_iff.2 ⟨_, h5, Outcome.bind_eq_ok_iff.2 ⟨_, h6,
    Outcome.bind_eq_ok_iff.2 ⟨_, h7, Outcome.bind_eq_ok_iff.2 ⟨_, h8, Outcome.bind_eq_ok_iff.2 ⟨_, h9,
    Outcome.bind_eq_ok_iff.2 ⟨_, h10, rfl⟩⟩⟩⟩⟩⟩⟩⟩⟩⟩

/-- The non-display part of the output of a localization. -/
theorem core_localized {P : Params} {b : List Out} {ms : List Marker} {tfs : List TfMsg} {stamp : ℝ} {frame : String}
    {pos : Vec3 ℝ} {rot : Quat ℝ} {cov : ℕ → ℕ → ℝ} {x y : Out} (hb : ∀ x ∈ b, ∃ s l, x = .matched s l ∨ x = .unmatched s l) :
    (([.markers ms] ++ (if P.publishTf then [.transforms tfs] else []) ++ [.pose stamp frame pos rot cov] ++ b ++
      [x, y] : List Out).flatMap Out.core) =
      [.markers ms, .pose stamp frame pos rot cov] ++ x.core ++ y.core := by
  have hb' : b.flatMap Out.core = [] := by
    rw [List.flatMap_eq_nil_iff]
    intro x hx
    obtain ⟨s, l, rfl | rfl⟩ := hb x hx <;> rfl
  cases P.publishTf <;> simp [List.flatMap_append, hb', Out.core]

/-- Localization with other display settings. -/
theorem localize_display {P : Params} (d : Display) {lib : Lib C} {env : Env} (a b : Bool)
    (hq : (FlannIds lib.flann ∧ d.unmatchOutputDist ≤ P.mapChunk) ∨ (a = false ∧ b = false))
    {m : MapSt} {odo : OdoSt} {n n' : Node C} {v : View} {warn : Vec3 ℝ} (hv : v.all ≠ none) {header : Header} {p : Prep}
    {outs : List Out} (h : localize P lib env m odo warn n.loc header p = .ok (n'.loc, outs)) :
    ∃ v' outs', localize (withDisplay P d) lib (withSubscribers env a b) m odo v.warn (withView n v).loc header p =
        .ok ((withView n' v').loc, outs') ∧ v'.warn = v.warn ∧ v'.all ≠ none ∧
      outs'.flatMap Out.core = outs.flatMap Out.core := by
  obtain ⟨r, h1, h2, h3, h4, h5, h6, h7, h8, h9, h10, hl, ho⟩ := localize_ok h
  obtain ⟨all, hall, hall'⟩ : ∃ all, accumAll (withDisplay P d) v.all ((r.final P odo n.loc).transform p.likePc) = .ok all ∧
      all ≠ none := by
    unfold accumAll
    split
    · cases hva : v.all with
      | none => exact absurd hva hv
      | some l => exact ⟨_, rfl, by simp⟩
    · exact ⟨_, rfl, hv⟩
  obtain ⟨mo, hmo⟩ : ∃ mo, matchOutput (withDisplay P d) lib (withSubscribers env a b) m header.stamp v.last
      ((r.final P odo n.loc).transform p.full) = .ok mo := by
    rcases hq with ⟨hf, hd⟩ | ⟨rfl, rfl⟩
    · exact matchOutput_total hf _ m (P := withDisplay P d) hd _ _ _
    · exact ⟨_, if_neg (by simp [withSubscribers])⟩
  have key := localize_of
    (P := withDisplay P d) (env := withSubscribers env a b) (loc := (withView n v).loc) (odo := odo) (warn := v.warn)
    { r with mo := mo, allAccum := all } (by rw [weighLoop_display]; exact h1) h2 h3 h4 hall hmo h7 h8 h9 h10
  obtain ⟨l, o, hk, hl', ho'⟩ : ∃ l o,
      localize (withDisplay P d) lib (withSubscribers env a b) m odo v.warn (withView n v).loc header p = .ok (l, o) ∧
      l = (withView n' ⟨v.warn, mo.1, all, convergenceOf (withDisplay P d) v.warn n.loc.fixCnt r.cov v.conv⟩).loc ∧
      o.flatMap Out.core = outs.flatMap Out.core := by
    refine ⟨_, _, key, ?_, ?_⟩
    · unfold withView
      rw [hl]
      rfl
    · rw [core_localized (matchOutput_only hmo), ho, core_localized (matchOutput_only h6)]
      rfl
  exact ⟨⟨v.warn, mo.1, all, convergenceOf (withDisplay P d) v.warn n.loc.fixCnt r.cov v.conv⟩, o, by rw [hk, hl'], rfl,
    hall', ho'⟩

/-- `measure` with other display settings. -/
theorem measure_display {P : Params} (d : Display) {lib : Lib C} {env : Env} (a b : Bool)
    (hq : (FlannIds lib.flann ∧ d.unmatchOutputDist ≤ P.mapChunk) ∨ (a = false ∧ b = false))
    {n n' : Node C} {v : View} (hv : v.all ≠ none) {o : List Out} (h : measure P lib env n = .ok (n', o)) :
    ∃ v' o', measure (withDisplay P d) lib (withSubscribers env a b) (withView n v) = .ok (withView n' v', o') ∧
      v'.warn = v.warn ∧ v'.all ≠ none ∧ o'.flatMap Out.core = o.flatMap Out.core := by
  unfold measure measureCore at h ⊢
  simp only at h ⊢
  have e0 : (withView n v).cnt = n.cnt := rfl
  have e1 : (withView n v).acc = n.acc := rfl
  have e2 : (withView n v).map = n.map := rfl
  have e3 : (withView n v).odo = n.odo := rfl
  have e4 : (withView n v).stdWarn = v.warn := rfl
  have e5 : (withDisplay P d).skipMeasure = P.skipMeasure := rfl
  rw [e0, e1, e2, e3, e4, e5]
  by_cases h0 : Params.toSize P.skipMeasure = 0
  · rw [if_pos h0] at h; cases h
  rw [if_neg h0] at h ⊢
  by_cases h1 : (n.cnt + 1) % 2 ^ 64 % Params.toSize P.skipMeasure ≠ 0
  · rw [if_pos h1] at h ⊢
    rw [Outcome.bind_ok] at h ⊢
    cases h
    exact ⟨v, _, rfl, rfl, hv, rfl⟩
  rw [if_neg h1] at h ⊢
  cases hh : n.acc.headers.getLast? with
  | none =>
    rw [hh] at h
    simp only [Outcome.bind_ok] at h ⊢
    cases h
    exact ⟨v, _, rfl, rfl, hv, rfl⟩
  | some header =>
    rw [hh] at h
    simp only at h ⊢
    rw [prepare_display]
    obtain ⟨r, h2, h⟩ := Outcome.bind_eq_ok_iff.1 h
    obtain ⟨pr, h3, h2⟩ := Outcome.bind_eq_ok_iff.1 h2
    rw [h3, Outcome.bind_ok]
    cases pr with
    | noTf =>
      simp only at h2 ⊢
      cases h2; cases h
      exact ⟨v, _, rfl, rfl, hv, rfl⟩
    | noOrigin c =>
      simp only at h2 ⊢
      cases h2; cases h
      exact ⟨v, _, rfl, rfl, hv, rfl⟩
    | ready p =>
      simp only at h2 ⊢
      by_cases hp : p.likePc.length = 0
      · rw [if_pos hp] at h2 ⊢
        cases h2; cases h
        exact ⟨v, _, rfl, rfl, hv, rfl⟩
      · rw [if_neg hp] at h2 ⊢
        obtain ⟨⟨l, o1⟩, h4, h2⟩ := Outcome.bind_eq_ok_iff.1 h2
        cases h2; cases h
        obtain ⟨v', o2, h5, h6, h7, h8⟩ := localize_display d a b hq hv (n' := { n with loc := l }) h4
        rw [h5]
        simp only [Outcome.bind_ok]
        refine ⟨v', .batch true :: o2, ?_, h6, h7, ?_⟩
        · rw [← h6]; rfl
        · simp only [List.flatMap_cons]
          rw [h8]

/-- The display members are as they are when there is a map. -/
def ViewInv (n : Node C) (v : View) : Prop := n.map.hasMap = true → v.all ≠ none

theorem restart_display {P : Params} (d : Display) {lib : Lib C} {env : Env} (a b : Bool)
    (hq : (FlannIds lib.flann ∧ d.unmatchOutputDist ≤ P.mapChunk) ∨ (a = false ∧ b = false))
    {n n' : Node C} {v : View} (hv : v.all ≠ none) {header : Header} {msg : Conv.Msg} {o : List Out}
    (h : restartWith P lib env n header msg = .ok (n', o)) :
    ∃ v' o', restartWith (withDisplay P d) lib (withSubscribers env a b) (withView n v) header msg =
      .ok (withView n' v', o') ∧ v'.all ≠ none ∧ o'.flatMap Out.core = o.flatMap Out.core := by
  obtain ⟨r, h1, h⟩ := Outcome.bind_eq_ok_iff.1 h
  obtain ⟨x, h2, h⟩ := Outcome.bind_eq_ok_iff.1 h
  cases h
  obtain ⟨v', o', h3, _, h4, h5⟩ := measure_display d a b hq (v := { v with conv := .normal }) hv (show _ = Outcome.ok (r.1, r.2) from h1)
  refine ⟨v', o', ?_, h4, h5⟩
  refine Outcome.bind_eq_ok_iff.2 ⟨_, h3, Outcome.bind_eq_ok_iff.2 ⟨x, h2, rfl⟩⟩

theorem addTo_display {P : Params} (d : Display) {env : Env} (a b : Bool)
    {n n' : Node C} {v : View} {header : Header} {msg : Conv.Msg} {cnt : ℕ} {o : List Out}
    (h : addTo P env n header msg cnt = .ok (n', o)) :
    addTo (withDisplay P d) (withSubscribers env a b) (withView n v) header msg cnt =
      .ok (withView n' { v with conv := .normal }, o) := by
  obtain ⟨x, h1, h⟩ := Outcome.bind_eq_ok_iff.1 h
  cases h
  exact Outcome.bind_eq_ok_iff.2 ⟨x, h1, rfl⟩

/-- The cloud callback with other display settings. -/
theorem cbCloud_display {P : Params} (d : Display) {lib : Lib C} {env : Env} (a b : Bool)
    (hq : (FlannIds lib.flann ∧ d.unmatchOutputDist ≤ P.mapChunk) ∨ (a = false ∧ b = false))
    {n n' : Node C} {v : View} (hv : ViewInv n v) {header : Header} {msg : Conv.Msg} {o : List Out}
    (h : cbCloud P lib env n header msg = .ok (n', o)) :
    ∃ v' o', cbCloud (withDisplay P d) lib (withSubscribers env a b) (withView n v) header msg = .ok (withView n' v', o') ∧
      ViewInv n' v' ∧ o'.flatMap Out.core = o.flatMap Out.core := by
  have hmap := (cbCloud_loc h).1
  cases hm : n.map.hasMap with
  | false =>
    rw [cbCloud_noMap hm] at h
    rw [cbCloud_noMap (show (withView n v).map.hasMap = false from hm)]
    cases h
    refine ⟨{ v with conv := .normal }, _, rfl, ?_, rfl⟩
    intro hc
    exact absurd (hm.symm.trans hc) (by simp)
  | true =>
    have hm' : (withView n v).map.hasMap = true := hm
    by_cases hP : P.accumCloud = 0
    · rw [cbCloud_form0 hm hP] at h
      rw [cbCloud_form0 (P := withDisplay P d) hm' (show (withDisplay P d).accumCloud = 0 from hP)]
      obtain ⟨x, h1, h⟩ := Outcome.bind_eq_ok_iff.1 h
      have h1' : accumCloud (withDisplay P d) (withSubscribers env a b) header msg (accumClear (withView n v).acc) = .ok x := h1
      rw [h1', Outcome.bind_ok]
      by_cases hx : x.1 = true
      · rw [if_pos hx] at h ⊢
        obtain ⟨v', o', h3, _, h4, h5⟩ := measure_display d a b hq (v := { v with conv := .normal }) (hv hm) h
        exact ⟨v', o', h3, fun _ => h4, h5⟩
      · rw [if_neg hx] at h ⊢
        cases h
        exact ⟨{ v with conv := .normal }, _, rfl, fun _ => hv hm, rfl⟩
    · rw [cbCloud_form hm hP] at h
      rw [cbCloud_form (P := withDisplay P d) hm' (show (withDisplay P d).accumCloud ≠ 0 from hP)]
      have e1 : (withView n v).acc = n.acc := rfl
      have e2 : accCfg (withDisplay P d) = accCfg P := rfl
      rw [e1, e2]
      by_cases h1 : n.acc.logic.keys.length < (accCfg P).accumMax
      · rw [if_pos h1] at h ⊢
        by_cases h2 : n.acc.logic.keys.length = 0 ∨ n.acc.logic.keys.head? ≠ some header.frame
        · rw [if_pos h2] at h ⊢
          exact ⟨_, _, addTo_display d a b h, fun _ => hv hm, rfl⟩
        · rw [if_neg h2] at h ⊢
          by_cases h3 : n.acc.logic.cnt < (accCfg P).accum
          · rw [if_pos h3] at h ⊢
            exact ⟨_, _, addTo_display d a b h, fun _ => hv hm, rfl⟩
          · rw [if_neg h3] at h ⊢
            obtain ⟨v', o', h4, h5, h6⟩ := restart_display d a b hq (hv hm) h
            exact ⟨v', o', h4, fun _ => h5, h6⟩
      · rw [if_neg h1] at h ⊢
        by_cases h2 : n.acc.logic.keys = []
        · rw [if_pos h2] at h; cases h
        · rw [if_neg h2] at h ⊢
          obtain ⟨v', o', h4, h5, h6⟩ := restart_display d a b hq (hv hm) h
          exact ⟨v', o', h4, fun _ => h5, h6⟩

theorem odomCore_display (P : Params) (d : Display) (n : Node C) (v : View) (msg : OdomMsg) :
    odomCore (withDisplay P d) (withView n v) msg = (withView (odomCore P n msg).1 v, (odomCore P n msg).2) := by
  unfold odomCore
  simp only
  have e1 : (withView n v).odo = n.odo := rfl
  have e2 : (withDisplay P d).fakeImu = P.fakeImu := rfl
  rw [e1, e2]
  by_cases h1 : n.odo.has = true
  · rw [if_pos h1, if_pos h1]
    by_cases h2 : msg.stamp - n.odo.last < 0 ∨ 5 < msg.stamp - n.odo.last
    · rw [if_pos h2, if_pos h2]; rfl
    · rw [if_neg h2, if_neg h2]
      by_cases h3 : 1 / 20 < msg.stamp - n.odo.last
      · rw [if_pos h3, if_pos h3]; rfl
      · rw [if_neg h3, if_neg h3]; rfl
  · rw [if_neg h1, if_neg h1]; rfl

theorem imuCore_display (P : Params) (d : Display) (env : Env) (a b : Bool) (n : Node C) (v : View) (msg : ImuMsg) :
    imuCore (withDisplay P d) (withSubscribers env a b) (withView n v) msg =
      (withView (imuCore P env n msg).1 v, (imuCore P env n msg).2) := by
  unfold imuCore
  simp only
  have e1 : (withView n v).imu = n.imu := rfl
  have e2 : (withDisplay P d).fakeOdom = P.fakeOdom := rfl
  have e3 : (withSubscribers env a b).tf (withDisplay P d).baseFrame msg.frame 0 = env.tf P.baseFrame msg.frame 0 := rfl
  rw [e1, e2, e3]
  by_cases h1 : n.imu.has = true
  · rw [if_pos h1, if_pos h1]
    by_cases h2 : msg.stamp - n.imu.last < 0 ∨ 5 < msg.stamp - n.imu.last
    · rw [if_pos h2, if_pos h2]; rfl
    · rw [if_neg h2, if_neg h2]
      by_cases h3 : 1 / 20 < msg.stamp - n.imu.last
      · rw [if_pos h3, if_pos h3]
        cases env.tf P.baseFrame msg.frame 0 <;> rfl
      · rw [if_neg h3, if_neg h3]; rfl
  · rw [if_neg h1, if_neg h1]; rfl

theorem sensor_display (P : Params) (d : Display) (env : Env) (a b : Bool) (v : View) (fuel : ℕ) :
    ∀ (n n' : Node C) (msg : OdomMsg ⊕ ImuMsg) (o : List Out), sensor P env fuel n msg = .ok (n', o) →
      sensor (withDisplay P d) (withSubscribers env a b) fuel (withView n v) msg = .ok (withView n' v, o) := by
  induction fuel with
  | zero => intro n n' msg o h; cases h
  | succ fuel ih =>
    intro n n' msg o h
    cases msg with
    | inl msg =>
      rw [sensor] at h ⊢
      rw [odomCore_display]
      rcases hc : odomCore P n msg with ⟨n1, im⟩
      rw [hc] at h
      cases im with
      | none => simp only at h ⊢; cases h; rfl
      | some im =>
        simp only at h ⊢
        obtain ⟨r, h1, h⟩ := Outcome.bind_eq_ok_iff.1 h
        cases h
        rw [ih n1 r.1 _ r.2 h1]
        rfl
    | inr msg =>
      rw [sensor] at h ⊢
      rw [imuCore_display]
      rcases hc : imuCore P env n msg with ⟨n1, im⟩
      rw [hc] at h
      cases im with
      | none => simp only at h ⊢; cases h; rfl
      | some im =>
        simp only at h ⊢
        obtain ⟨r, h1, h⟩ := Outcome.bind_eq_ok_iff.1 h
        cases h
        rw [ih n1 r.1 _ r.2 h1]
        rfl

theorem loadMap_display {P : Params} (d : Display) {env : Env} (a b : Bool) {n n' : Node C} (v : View) {stamp : ℕ}
    {pts : List Point} {o : List Out} (h : loadMapCloud P env n stamp pts = .ok (n', o)) :
    loadMapCloud (withDisplay P d) (withSubscribers env a b) (withView n v) stamp pts =
      .ok (withView n' { v with all := some [] }, o) := by
  obtain ⟨r, h1, h⟩ := Outcome.bind_eq_ok_iff.1 h
  cases h
  exact Outcome.bind_eq_ok_iff.2 ⟨r, h1, rfl⟩

/-- One callback with other display settings. -/
theorem step_display {P : Params} (d : Display) {lib : Lib C} {env : Env} (a b : Bool)
    (hq : (FlannIds lib.flann ∧ d.unmatchOutputDist ≤ P.mapChunk) ∨ (a = false ∧ b = false))
    {n n' : Node C} {v : View} (hv : ViewInv n v) {ev ev' : Event}
    (hev : ev' = ev ∨ ∃ w w', ev = .reconfigure w ∧ ev' = .reconfigure w') {o : List Out}
    (h : step P lib env n ev = .ok (n', o)) :
    ∃ v' o', step (withDisplay P d) lib (withSubscribers env a b) (withView n v) ev' = .ok (withView n' v', o') ∧
      ViewInv n' v' ∧ o'.flatMap Out.core = o.flatMap Out.core := by
  rcases hev with rfl | ⟨w, w', rfl, rfl⟩
  · have hload : ∀ {stamp pts n' o}, loadMapCloud P env n stamp pts = .ok (n', o) → ∃ v',
        loadMapCloud (withDisplay P d) (withSubscribers env a b) (withView n v) stamp pts = .ok (withView n' v', o) ∧
        ViewInv n' v' := by
      intro stamp pts n' o h
      exact ⟨_, loadMap_display d a b v h, fun _ => by simp⟩
    cases ev' with
    | mapcloud stamp msg =>
      simp only [step, cbMapcloud] at h ⊢
      rcases hmsg : Conv.fromROSMsg msg [] with ⟨_ | _, pts⟩
      · rw [hmsg] at h
        simp only at h ⊢
        cases h
        exact ⟨v, _, rfl, fun hc => by simp at hc, rfl⟩
      · rw [hmsg] at h
        simp only at h ⊢
        obtain ⟨v', h1, h2⟩ := hload h
        exact ⟨v', o, h1, h2, rfl⟩
    | mapcloudUpdate msg =>
      simp only [step, cbMapcloudUpdate] at h ⊢
      rcases hmsg : Conv.fromROSMsg msg [] with ⟨_ | _, pts⟩ <;>
      · rw [hmsg] at h
        simp only at h ⊢
        cases h
        exact ⟨v, _, rfl, hv, rfl⟩
    | loadPcd file =>
      simp only [step, cbLoadPcd] at h ⊢
      cases file with
      | none =>
        simp only at h ⊢
        cases h
        exact ⟨v, _, rfl, fun hc => by simp at hc, rfl⟩
      | some pts =>
        simp only at h ⊢
        obtain ⟨r, h1, h⟩ := Outcome.bind_eq_ok_iff.1 h
        cases h
        obtain ⟨v', h2, h3⟩ := hload (show _ = Outcome.ok (r.1, r.2) from h1)
        refine ⟨v', r.2 ++ [.response true], ?_, h3, rfl⟩
        exact Outcome.bind_eq_ok_iff.2 ⟨_, h2, rfl⟩
    | timer =>
      obtain ⟨r, h1, h⟩ := Outcome.bind_eq_ok_iff.1 h
      cases h
      refine ⟨v, r.2, Outcome.bind_eq_ok_iff.2 ⟨r, h1, rfl⟩, ?_, rfl⟩
      intro hc
      refine hv ?_
      have : r.1.hasMap = n.map.hasMap := by
        unfold mapTimer at h1
        by_cases hm : n.map.hasMap = true
        · rw [if_pos hm] at h1
          split at h1
          · simp only at h1
            split at h1
            · cases h1
            · cases h1; rfl
          · split at h1
            · cases h1; rfl
            · split at h1
              · cases h1
              · split at h1
                · cases h1
                · cases h1; rfl
        · rw [if_neg hm] at h1; cases h1; rfl
      rw [← this]; exact hc
    | cloud header msg => exact cbCloud_display d a b hq hv h
    | odom msg =>
      refine ⟨v, o, sensor_display P d env a b v _ _ _ _ _ h, ?_, rfl⟩
      intro hc
      exact hv (by rw [← (sensor_frame _ h).1]; exact hc)
    | imu msg =>
      refine ⟨v, o, sensor_display P d env a b v _ _ _ _ _ h, ?_, rfl⟩
      intro hc
      exact hv (by rw [← (sensor_frame _ h).1]; exact hc)
    | initialpose msg =>
      simp only [step, cbPosition] at h ⊢
      by_cases h1 : 1 / 10 < |msg.rot.dot msg.rot - 1|
      · rw [if_pos h1] at h ⊢
        cases h
        exact ⟨v, _, rfl, hv, rfl⟩
      · rw [if_neg h1] at h ⊢
        have e : (withSubscribers env a b).tf (withDisplay P d).mapFrame msg.frame msg.stamp =
          env.tf P.mapFrame msg.frame msg.stamp := rfl
        rw [e]
        cases ht : env.tf P.mapFrame msg.frame msg.stamp with
        | none =>
          rw [ht] at h
          simp only at h ⊢
          cases h
          exact ⟨v, _, rfl, hv, rfl⟩
        | some t =>
          rw [ht] at h
          simp only at h ⊢
          obtain ⟨r, h2, h⟩ := Outcome.bind_eq_ok_iff.1 h
          cases h
          exact ⟨v, _, Outcome.bind_eq_ok_iff.2 ⟨r, h2, rfl⟩, hv, rfl⟩
    | landmark msg =>
      obtain ⟨r, h1, h⟩ := Outcome.bind_eq_ok_iff.1 h
      cases h
      exact ⟨v, _, Outcome.bind_eq_ok_iff.2 ⟨r, h1, rfl⟩, hv, rfl⟩
    | resize size =>
      obtain ⟨r, h1, h⟩ := Outcome.bind_eq_ok_iff.1 h
      cases h
      exact ⟨v, _, Outcome.bind_eq_ok_iff.2 ⟨r, h1, rfl⟩, hv, rfl⟩
    | expansionReset =>
      obtain ⟨r, h1, h⟩ := Outcome.bind_eq_ok_iff.1 h
      cases h
      exact ⟨v, _, Outcome.bind_eq_ok_iff.2 ⟨r, h1, rfl⟩, hv, rfl⟩
    | globalLocalization =>
      simp only [step, cbGlobalLocalization] at h ⊢
      have e : (withView n v).map = n.map := rfl
      rw [e]
      by_cases hm : n.map.hasMap = true
      · rw [if_pos hm] at h ⊢
        cases hb : n.map.base.bind fun b => n.map.heap[b]? with
        | none => rw [hb] at h; cases h
        | some c =>
          rw [hb] at h
          simp only at h ⊢
          obtain ⟨r, h1, h⟩ := Outcome.bind_eq_ok_iff.1 h
          obtain ⟨r2, h2, h⟩ := Outcome.bind_eq_ok_iff.1 h
          cases h
          exact ⟨v, _, Outcome.bind_eq_ok_iff.2 ⟨r, h1, Outcome.bind_eq_ok_iff.2 ⟨r2, h2, rfl⟩⟩, hv, rfl⟩
      · rw [if_neg hm] at h ⊢
        cases h
        exact ⟨v, _, rfl, hv, rfl⟩
    | reconfigure w =>
      cases h
      exact ⟨{ v with warn := w }, _, rfl, hv, rfl⟩
  · cases h
    exact ⟨{ v with warn := w' }, _, rfl, hv, rfl⟩

/-- C162: whatever is displayed, the node does the same.  If a history runs without error, so does the same history
with other reporting parameters, other subscribers and other warning thresholds; the state differs at most in the
members that belong to the display, and every callback publishes the same, except for transforms, matched and
unmatched clouds and the convergence status.  The distance `unmatch_output_dist` must not exceed `map_chunk` if
anybody subscribes. -/
theorem C162_undisturbed {P : Params} (d : Display) {lib : Lib C} {env0 : Env} (a b : Bool) {motion0 : Motion ℝ}
    {h h' : History} {n0 n : Node C} {outs : List (List Out)} (hsame : List.Forall₂ Alike h h')
    (hq : (FlannIds lib.flann ∧ d.unmatchOutputDist ≤ P.mapChunk) ∨
      ∀ e ∈ h', e.2.subMatched = false ∧ e.2.subUnmatched = false)
    (hs : start P lib env0 motion0 = .ok n0) (hr : run P lib n0 h = .ok (n, outs)) :
    ∃ n0' v outs', start (withDisplay P d) lib (withSubscribers env0 a b) motion0 = .ok n0' ∧
      run (withDisplay P d) lib n0' h' = .ok (withView n v, outs') ∧
      outs'.map (fun o => o.flatMap Out.core) = outs.map (fun o => o.flatMap Out.core) := by
  have hs' : start (withDisplay P d) lib (withSubscribers env0 a b) motion0 =
      .ok (withView n0 ⟨d.stdWarn, n0.loc.matchLast, n0.loc.allAccum, n0.loc.status.convergence⟩) := by
    unfold start at hs ⊢
    have e : (withDisplay P d).numParticles = P.numParticles := rfl
    rw [e]
    by_cases h0 : P.numParticles < 0
    · rw [if_pos h0] at hs; cases hs
    · rw [if_neg h0] at hs ⊢
      simp only at hs ⊢
      obtain ⟨ns, h1, hs⟩ := Outcome.bind_eq_ok_iff.1 hs
      cases hs
      exact Outcome.bind_eq_ok_iff.2 ⟨ns, h1, rfl⟩
  have hinv : ViewInv n0 ⟨d.stdWarn, n0.loc.matchLast, n0.loc.allAccum, n0.loc.status.convergence⟩ := by
    obtain ⟨_, ns, _, rfl⟩ := start_ok hs
    intro hc
    simp at hc
  have main : ∀ (h h' : History), List.Forall₂ Alike h h' →
      ((FlannIds lib.flann ∧ d.unmatchOutputDist ≤ P.mapChunk) ∨
        ∀ e ∈ h', e.2.subMatched = false ∧ e.2.subUnmatched = false) →
      ∀ (m n : Node C) (v : View) (outs : List (List Out)), ViewInv m v → run P lib m h = .ok (n, outs) →
      ∃ v' outs', run (withDisplay P d) lib (withView m v) h' = .ok (withView n v', outs') ∧
        outs'.map (fun o => o.flatMap Out.core) = outs.map (fun o => o.flatMap Out.core) := by
    intro h h' hsame
    induction hsame with
    | nil =>
      intro _ m n v outs _ hr
      cases hr
      exact ⟨v, [], rfl, rfl⟩
    | @cons e e' t t' hee _ ih =>
      intro hq m n v outs hv hr
      obtain ⟨ev, env⟩ := e
      obtain ⟨ev', env'⟩ := e'
      obtain ⟨⟨a, b, hab⟩, hev⟩ := hee
      simp only at hab hev
      subst hab
      obtain ⟨r, h1, hr⟩ := Outcome.bind_eq_ok_iff.1 hr
      obtain ⟨s, h2, hr⟩ := Outcome.bind_eq_ok_iff.1 hr
      cases hr
      obtain ⟨v', o', h3, h4, h5⟩ := step_display d a b
        (hq.imp id fun hq => by simpa [withSubscribers] using hq _ List.mem_cons_self) hv hev (show _ = Outcome.ok (r.1, r.2) from h1)
      obtain ⟨v'', os, h6, h7⟩ := ih (hq.imp id fun hq e he => hq e (List.mem_cons_of_mem _ he)) r.1 s.1 v' s.2 h4 h2
      refine ⟨v'', o' :: os, Outcome.bind_eq_ok_iff.2 ⟨_, h3, Outcome.bind_eq_ok_iff.2 ⟨_, h6, rfl⟩⟩, ?_⟩
      simp only [List.map_cons, h5, h7]
  obtain ⟨v', outs', h1, h2⟩ := main h h' hsame hq n0 n _ outs hinv hr
  exact ⟨_, v', outs', hs', h1, h2⟩

/-- The messages that are not displays. -/
def Out.IsCore : Out → Prop
  | .transforms _ => False
  | .matched _ _ => False
  | .unmatched _ _ => False
  | .status _ _ _ => False
  | _ => True

theorem core_mem {l : List Out} {x : Out} (hx : x.IsCore) : x ∈ l ↔ x ∈ l.flatMap Out.core := by
  rw [List.mem_flatMap]
  constructor
  · intro h
    refine ⟨x, h, ?_⟩
    cases x <;> first | exact absurd hx id | exact List.mem_singleton.2 rfl
  · rintro ⟨y, hy, h⟩
    cases y <;> simp only [Out.core, List.not_mem_nil, List.mem_singleton] at h <;> subst h <;>
      first | exact hy | exact absurd hx id

/-- C162, message by message: the particle cloud, the estimated pose with its covariance, the markers, the map and the
service responses of every callback are the same, and the filter, the map and the motion members end the same. -/
theorem C162_messages {P : Params} (d : Display) {lib : Lib C} {env0 : Env} (a b : Bool) {motion0 : Motion ℝ}
    {h h' : History} {n0 n0' n n' : Node C} {outs outs' : List (List Out)} (hsame : List.Forall₂ Alike h h')
    (hq : (FlannIds lib.flann ∧ d.unmatchOutputDist ≤ P.mapChunk) ∨
      ∀ e ∈ h', e.2.subMatched = false ∧ e.2.subUnmatched = false)
    (hs : start P lib env0 motion0 = .ok n0) (hr : run P lib n0 h = .ok (n, outs))
    (hs' : start (withDisplay P d) lib (withSubscribers env0 a b) motion0 = .ok n0')
    (hr' : run (withDisplay P d) lib n0' h' = .ok (n', outs')) :
    n'.loc.pf = n.loc.pf ∧ n'.loc.statePrev = n.loc.statePrev ∧ n'.map = n.map ∧ n'.odo = n.odo ∧ n'.imu = n.imu ∧
    outs'.length = outs.length ∧
    ∀ (i : ℕ) (o o' : List Out), outs[i]? = some o → outs'[i]? = some o' → ∀ x : Out, x.IsCore → (x ∈ o' ↔ x ∈ o) := by
  obtain ⟨m, v, os, h1, h2, h3⟩ := C162_undisturbed d a b hsame hq hs hr
  rw [hs'] at h1
  cases h1
  rw [hr'] at h2
  cases h2
  refine ⟨rfl, rfl, rfl, rfl, rfl, by simpa using congrArg List.length h3, ?_⟩
  intro i o o' ho ho' x hx
  have h4 := congrArg (fun l => l[i]?) h3
  simp only [List.getElem?_map, ho, ho', Option.map_some, Option.some.injEq] at h4
  rw [core_mem (l := o') hx, core_mem (l := o) hx, h4]

/-! ## The exception -/

/-- The message of the refused search. -/
def refusal : String := "ChunkedKdtree: radius must be <chunk_length"

theorem splitMatch_refused {P : Params} {u : ℝ} (hu : P.mapChunk < u) (lib : Lib C) (m : MapSt) {pts : List Point} (hp : pts ≠ []) :
    splitMatch { P with unmatchOutputDist := u } lib m pts = .throws refusal := by
  cases pts with
  | nil => exact absurd rfl hp
  | cons p ps =>
    rw [splitMatch]
    have : search { P with unmatchOutputDist := u } lib m p.pos u = .throws refusal := if_pos hu
    rw [show ({ P with unmatchOutputDist := u } : Params).unmatchOutputDist = u from rfl, this]
    rfl

theorem measure_refused {P : Params} {lib : Lib C} {env : Env} (hv : env.Valid) {n n' : Node C} {o : List Out}
    (h : measure P lib env n = .ok (n', o)) {stamp : ℝ} {frame : String} {pos : Vec3 ℝ} {rot : Quat ℝ}
    {cov : ℕ → ℕ → ℝ} (hp : .pose stamp frame pos rot cov ∈ o)
    (hdue : n.loc.matchLast + P.matchOutputInterval < stamp ∨ stamp + 1 < n.loc.matchLast)
    {u : ℝ} (hu : P.mapChunk < u) {a b : Bool} (hab : a = true ∨ b = true) :
    measure { P with unmatchOutputDist := u } lib (withSubscribers env a b) n = .throws refusal := by
  obtain ⟨c, h1, _⟩ := measure_ok h
  obtain ⟨hk, hc, ⟨_, _, _, ho⟩ | ⟨hk2, hme⟩⟩ := measureCore_ok h1
  · rw [ho] at hp; simp at hp
  generalize n'.loc = l' at hme
  cases hme with
  | noHeader => simp at hp
  | noTf => simp at hp
  | noOrigin => simp at hp
  | noPoints => simp [publishStatus] at hp
  | localized header p _ outs hh hpr hne hl =>
    obtain ⟨r, g1, g2, g3, g4, g5, g6, _, _, _, _, _, ho⟩ := localize_ok hl
    have hst : stamp = header.stamp := by
      rw [ho] at hp
      have hm := matchOutput_only g6
      simp only [List.mem_cons, List.mem_append, List.mem_ite_nil_right, reduceCtorEq, false_or, and_false,
        List.not_mem_nil, or_false, Out.pose.injEq, publishParticles, publishStatus] at hp
      rcases hp with hp | hp
      · exact hp.1
      · obtain ⟨_, _, hx | hx⟩ := hm _ hp <;> cases hx
    have hfull : p.full ≠ [] := by
      obtain ⟨_, _, _, _, _, _, _, _, _, _, _, hf⟩ := prepare_ready hpr
      intro he
      obtain ⟨q, hq⟩ := List.exists_mem_of_ne_nil _ hne
      have := sample_subset hv hf q hq
      rw [he] at this
      simp at this
    have hmo : matchOutput { P with unmatchOutputDist := u } lib (withSubscribers env a b) n.map header.stamp
        n.loc.matchLast ((r.final P n.odo n.loc).transform p.full) = .throws refusal := by
      unfold matchOutput
      rw [hst] at hdue
      rw [if_pos ⟨hdue, hab⟩, splitMatch_refused hu]
      · rfl
      · intro hc
        exact hfull (List.map_eq_nil_iff.1 hc)
    have hloc : localize { P with unmatchOutputDist := u } lib (withSubscribers env a b) n.map n.odo n.stdWarn n.loc header p =
        .throws refusal := by
      have g1' : weighLoop { P with unmatchOutputDist := u } lib n.map p n.loc.pf.particles ⟨n.loc.caster, 1, 0⟩ = .ok r.w := by
        rw [← g1]
        exact congrFun (weighLoop_display P
          ⟨P.publishTf, P.outputPcd, P.matchOutputInterval, P.matchOutputDist, u, P.stdWarn, P.fixDist, P.fixAng⟩ lib n.map p _) _
      unfold localize
      rw [g1', Outcome.bind_ok]
      refine (congrArg₂ Outcome.bind g2 rfl).trans ?_
      rw [Outcome.bind_ok]
      refine (congrArg₂ Outcome.bind g3 rfl).trans ?_
      rw [Outcome.bind_ok]
      refine (congrArg₂ Outcome.bind g4 rfl).trans ?_
      rw [Outcome.bind_ok]
      refine (congrArg₂ Outcome.bind g5 rfl).trans ?_
      rw [Outcome.bind_ok]
      refine (congrArg₂ Outcome.bind hmo rfl).trans ?_
      rfl
    unfold measure measureCore
    have e5 : ({ P with unmatchOutputDist := u } : Params).skipMeasure = P.skipMeasure := rfl
    simp only
    rw [if_neg hk, ← hc, if_neg (by simpa using hk2), hh]
    simp only
    have hpr' : prepare { P with unmatchOutputDist := u } lib (withSubscribers env a b) n.acc n.loc header = .ok (.ready p) := by
      rw [← hpr]
      exact prepare_display P
        ⟨P.publishTf, P.outputPcd, P.matchOutputInterval, P.matchOutputDist, u, P.stdWarn, P.fixDist, P.fixAng⟩ env a b lib n.acc n
        ⟨n.stdWarn, n.loc.matchLast, n.loc.allAccum, n.loc.status.convergence⟩ header
    rw [hpr', Outcome.bind_ok]
    simp only
    rw [if_neg (by simpa using hne), hloc]
    rfl

/-- C162, the exception: with `unmatch_output_dist` larger than `map_chunk` the node stops with an exception as soon as
somebody subscribes.  If without this parameter and the subscribers the callback publishes a pose, and the clouds are
due, then with them the callback throws: nothing is published, and nothing catches it. -/
theorem C162_refused {P : Params} {lib : Lib C} {env : Env} (hv : env.Valid) {n n' : Node C} {ev : Event} {o : List Out}
    (h : step P lib env n ev = .ok (n', o)) {stamp : ℝ} {frame : String} {pos : Vec3 ℝ} {rot : Quat ℝ}
    {cov : ℕ → ℕ → ℝ} (hp : .pose stamp frame pos rot cov ∈ o)
    (hdue : n.loc.matchLast + P.matchOutputInterval < stamp ∨ stamp + 1 < n.loc.matchLast)
    {u : ℝ} (hu : P.mapChunk < u) {a b : Bool} (hab : a = true ∨ b = true) :
    step { P with unmatchOutputDist := u } lib (withSubscribers env a b) n ev = .throws refusal := by
  have hcloud : ∃ header msg, ev = .cloud header msg := by
    rcases step_cases h with ⟨_, hmi | ⟨b, ho | ⟨ho, _⟩⟩⟩ | ⟨hd, msg, _, _, _, _, he, _⟩
    · exact absurd (hmi _ hp) id
    · rw [ho] at hp; simp at hp
    · rw [ho] at hp; simp [publishStatus] at hp
    · exact ⟨hd, msg, he⟩
  obtain ⟨header, msg, rfl⟩ := hcloud
  have h : cbCloud P lib env n header msg = .ok (n', o) := h
  show cbCloud { P with unmatchOutputDist := u } lib (withSubscribers env a b) n header msg = _
  cases hm : n.map.hasMap with
  | false =>
    rw [cbCloud_noMap hm] at h
    cases h
    simp at hp
  | true =>
    by_cases hP : P.accumCloud = 0
    · rw [cbCloud_form0 hm hP] at h
      rw [cbCloud_form0 (P := { P with unmatchOutputDist := u }) hm hP]
      obtain ⟨x, h1, h⟩ := Outcome.bind_eq_ok_iff.1 h
      refine (congrArg₂ Outcome.bind (h1 : accumCloud { P with unmatchOutputDist := u } (withSubscribers env a b) header msg _ = _) rfl).trans ?_
      rw [Outcome.bind_ok]
      by_cases hx : x.1 = true
      · rw [if_pos hx] at h ⊢
        exact measure_refused hv h hp hdue hu hab
      · rw [if_neg hx] at h
        cases h
        simp at hp
    · have hadd : ∀ c, addTo P env n header msg c = .ok (n', o) → False := by
        intro c h
        obtain ⟨x, _, h⟩ := Outcome.bind_eq_ok_iff.1 h
        cases h
        simp at hp
      have hre : restartWith P lib env n header msg = .ok (n', o) →
          restartWith { P with unmatchOutputDist := u } lib (withSubscribers env a b) n header msg = .throws refusal := by
        intro h
        obtain ⟨r, h1, h⟩ := Outcome.bind_eq_ok_iff.1 h
        obtain ⟨x, h2, h⟩ := Outcome.bind_eq_ok_iff.1 h
        cases h
        have := measure_refused hv (show _ = Outcome.ok (r.1, r.2) from h1) hp hdue hu hab
        unfold restartWith
        refine (congrArg₂ Outcome.bind this rfl).trans ?_
        rfl
      rw [cbCloud_form hm hP] at h
      rw [cbCloud_form (P := { P with unmatchOutputDist := u }) hm hP]
      have e2 : accCfg { P with unmatchOutputDist := u } = accCfg P := rfl
      rw [e2]
      by_cases h1 : n.acc.logic.keys.length < (accCfg P).accumMax
      · rw [if_pos h1] at h ⊢
        by_cases h2 : n.acc.logic.keys.length = 0 ∨ n.acc.logic.keys.head? ≠ some header.frame
        · rw [if_pos h2] at h
          exact absurd h (hadd _)
        · rw [if_neg h2] at h ⊢
          by_cases h3 : n.acc.logic.cnt < (accCfg P).accum
          · rw [if_pos h3] at h
            exact absurd h (hadd _)
          · rw [if_neg h3] at h ⊢
            exact hre h
      · rw [if_neg h1] at h ⊢
        by_cases h2 : n.acc.logic.keys = []
        · rw [if_pos h2] at h; cases h
        · rw [if_neg h2] at h ⊢
          exact hre h

/-! ## Non-vacuity -/

/-- Other display settings. -/
noncomputable def Demo.display : Display := ⟨false, true, 0, 3, 4, 0, 0, 0⟩

/-- The hypotheses are met: a history that publishes a pose, without subscribers and with other thresholds. -/
example : ∃ n0 n outs o, start Demo.P0 Demo.exactLib (Demo.env 0) Demo.motion0 = .ok n0 ∧
    run Demo.P0 Demo.exactLib n0 (Demo.poseHistory 1 1 2 ++ [Demo.lastCloud]) = .ok (n, outs ++ [o]) ∧
    (∃ stamp frame pos rot cov, Out.pose stamp frame pos rot cov ∈ o) ∧
    ∃ n0' v outs', start (withDisplay Demo.P0 Demo.display) Demo.exactLib (withSubscribers (Demo.env 0) false false)
        Demo.motion0 = .ok n0' ∧
      run (withDisplay Demo.P0 Demo.display) Demo.exactLib n0'
        ((Demo.poseHistory 1 1 2 ++ [Demo.lastCloud]).map fun e => (e.1, withSubscribers e.2 false false)) =
          .ok (withView n v, outs') := by
  obtain ⟨n0, n1, n, outs, o, h1, h2, h3, h4, rot, cov, h5, _⟩ := Demo.pose_runs 1 1 2 (by norm_num) (by norm_num)
  obtain ⟨n0', v, outs', g1, g2, _⟩ := C162_undisturbed Demo.display false false
    (h' := (Demo.poseHistory 1 1 2 ++ [Demo.lastCloud]).map fun e => (e.1, withSubscribers e.2 false false))
    (by
      rw [List.forall₂_map_right_iff, List.forall₂_same]
      intro e _
      exact ⟨⟨false, false, rfl⟩, .inl rfl⟩)
    (.inr (by
      intro e he
      obtain ⟨x, _, rfl⟩ := List.mem_map.1 he
      exact ⟨rfl, rfl⟩)) h1 h3
  exact ⟨n0, n, outs, o, h1, h3, ⟨_, _, _, _, _, h5⟩, n0', v, outs', g1, g2⟩

/-- The exception happens: the same node with `unmatch_output_dist` 100 m and a subscriber. -/
example : ∃ n0 n1 outs, start Demo.P0 Demo.exactLib (Demo.env 0) Demo.motion0 = .ok n0 ∧
    run Demo.P0 Demo.exactLib n0 (Demo.poseHistory 1 1 2) = .ok (n1, outs) ∧
    step { Demo.P0 with unmatchOutputDist := 100 } Demo.exactLib (withSubscribers Demo.lastCloud.2 true false) n1
      Demo.lastCloud.1 = .throws refusal := by
  obtain ⟨n0, n1, n, outs, o, h1, h2, h3, h4, rot, cov, h5, _⟩ := Demo.pose_runs 1 1 2 (by norm_num) (by norm_num)
  refine ⟨n0, n1, outs, h1, h2, C162_refused (Demo.env_valid 4) h4 h5 (.inl ?_) ?_ (.inl rfl)⟩
  · obtain ⟨_, _, _, hml, _⟩ := Demo.poseHistory_run h1 h2
    rw [hml]
    norm_num [Demo.P0, Params.loadFrom, Server.dblD, Server.getDouble]
  · norm_num [Demo.P0, Params.loadFrom, Server.dblD, Server.getDouble]

end Node
end Mcl3dl
