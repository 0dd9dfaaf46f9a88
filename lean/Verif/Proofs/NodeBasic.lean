import Verif.Model.Node
import Verif.Proofs.PFBasic
import Mathlib.Tactic

/-! # How a callback of the node ends: inversion lemmas -/

namespace Mcl3dl

theorem Outcome.bind_eq_ok_iff {α β : Type*} {x : Outcome α} {f : α → Outcome β} {b : β} :
    x.bind f = .ok b ↔ ∃ a, x = .ok a ∧ f a = .ok b := by
  cases x with
  | ok a => simp
  | throws m => simp
  | ub w => simp

namespace Node

variable {C : Type}

/-- mcl_3dl.cpp:243-247 (proof helper): the node at the beginning of a cloud callback. -/
def freshen (env : Env) (n : Node C) : Node C :=
  { n with loc := { n.loc with status := Status.fresh (env.now 0) } }

/-! ## The cloud callback -/

theorem cbCloud_eq {P : Params} {lib : Lib C} {env : Env} {n : Node C} {header : Header}
    {msg : Conv.Msg} (hm : n.map.hasMap = true) :
    cbCloud P lib env n header msg =
      if P.accumCloud = 0 then
        CloudAccum.pushPassThrough msg (callbacks P lib env header) (.ok (freshen env n, []))
      else
        (CloudAccum.push (accCfg P) n.acc.logic header.frame msg (callbacks P lib env header)
          (.ok (freshen env n, []))).bind fun r =>
        r.2.bind fun w => .ok ({ w.1 with acc := { w.1.acc with logic := r.1 } }, w.2) :=
  if_pos hm

/-- The four ways in which a cloud callback with a map can end normally. -/
theorem cbCloud_ok {P : Params} {lib : Lib C} {env : Env} {n n' : Node C} {header : Header}
    {msg : Conv.Msg} {outs : List Out} (hm : n.map.hasMap = true)
    (h : cbCloud P lib env n header msg = .ok (n', outs)) :
    (P.accumCloud ≠ 0 ∧ outs = [] ∧ ∃ b a l, accumCloud P env header msg n.acc = .ok (b, a) ∧
      n' = { freshen env n with acc := { (if b then a else accumClear a) with logic := l } }) ∨
    (P.accumCloud = 0 ∧ outs = [] ∧ ∃ a, accumCloud P env header msg (accumClear n.acc) = .ok (false, a) ∧
      n' = { freshen env n with acc := a }) ∨
    (P.accumCloud = 0 ∧ ∃ a, accumCloud P env header msg (accumClear n.acc) = .ok (true, a) ∧
      measure P lib env { freshen env n with acc := a } = .ok (n', outs)) ∨
    (P.accumCloud ≠ 0 ∧ ∃ n1 b a l, measure P lib env (freshen env n) = .ok (n1, outs) ∧
      accumCloud P env header msg (accumClear n1.acc) = .ok (b, a) ∧
      n' = { n1 with acc := { a with logic := l } }) := by
  rw [cbCloud_eq hm] at h
  by_cases hP : P.accumCloud = 0
  · rw [if_pos hP] at h
    simp only [CloudAccum.pushPassThrough, callbacks, Outcome.bind_ok] at h
    have hfa : (freshen env n).acc = n.acc := rfl
    rw [hfa] at h
    cases ha : accumCloud P env header msg (accumClear n.acc) with
    | ok r =>
      obtain ⟨b, a⟩ := r
      rw [ha] at h
      cases b with
      | false =>
        simp only [Outcome.ok.injEq, Prod.mk.injEq] at h
        exact .inr (.inl ⟨hP, h.2.symm, a, rfl, h.1.symm⟩)
      | true =>
        simp only [Outcome.bind_ok] at h
        obtain ⟨r, hr, h⟩ := Outcome.bind_eq_ok_iff.1 h
        simp only [Outcome.ok.injEq, Prod.mk.injEq] at h
        refine .inr (.inr (.inl ⟨hP, a, rfl, ?_⟩))
        rw [← h.1, ← h.2]
        exact hr
    | throws e => rw [ha] at h; simp at h
    | ub e => rw [ha] at h; simp at h
  · rw [if_neg hP] at h
    obtain ⟨⟨l, w⟩, hp, h⟩ := Outcome.bind_eq_ok_iff.1 h
    obtain ⟨⟨n2, o2⟩, hw, h⟩ := Outcome.bind_eq_ok_iff.1 h
    simp only at hw h
    subst hw
    cases h
    -- accumulation without processing
    have plain : ∀ (st1 st2 : CloudAccum.St String) b w1,
        (callbacks P lib env header).accumulate msg (.ok (freshen env n, [])) = (b, w1) →
        (if b then (st1, w1) else (st2, (callbacks P lib env header).clear w1)) =
          ((l, .ok (n2, o2)) : CloudAccum.St String × World C) →
        o2 = [] ∧ ∃ b a l', accumCloud P env header msg n.acc = .ok (b, a) ∧
          ({ n2 with acc := { n2.acc with logic := l } } : Node C) =
            { freshen env n with acc := { (if b then a else accumClear a) with logic := l' } } := by
      intro st1 st2 b w1 hacc hp
      have hacc' : (match accumCloud P env header msg n.acc with
          | .ok (b, a) => (b, (Outcome.ok ({ freshen env n with acc := a }, []) : World C))
          | .throws e => (false, .throws e)
          | .ub e => (false, .ub e)) = (b, w1) := hacc
      cases ha : accumCloud P env header msg n.acc with
      | ok r =>
        obtain ⟨b', a⟩ := r
        rw [ha] at hacc'
        simp only [Prod.mk.injEq] at hacc'
        obtain ⟨rfl, rfl⟩ := hacc'
        cases b' with
        | false =>
          simp only [callbacks, Bool.false_eq_true, if_false, Outcome.bind_ok, Outcome.ok.injEq, Prod.mk.injEq] at hp
          obtain ⟨rfl, rfl, rfl⟩ := hp
          exact ⟨rfl, false, a, st2, rfl, by simp [freshen, accumClear]⟩
        | true =>
          simp only [if_true, Outcome.ok.injEq, Prod.mk.injEq] at hp
          obtain ⟨rfl, rfl, rfl⟩ := hp
          exact ⟨rfl, true, a, st1, rfl, by simp [freshen]⟩
      | throws e =>
        rw [ha] at hacc'
        simp only [Prod.mk.injEq] at hacc'
        obtain ⟨rfl, rfl⟩ := hacc'
        simp [callbacks] at hp
      | ub e =>
        rw [ha] at hacc'
        simp only [Prod.mk.injEq] at hacc'
        obtain ⟨rfl, rfl⟩ := hacc'
        simp [callbacks] at hp
    rcases hacc : (callbacks P lib env header).accumulate msg (.ok (freshen env n, [])) with ⟨b, w1⟩
    -- processing
    have proc : CloudAccum.processAndRestart n.acc.logic header.frame msg (callbacks P lib env header)
          (.ok (freshen env n, [])) = (l, .ok (n2, o2)) →
        ∃ n1 b a l', measure P lib env (freshen env n) = .ok (n1, o2) ∧
          accumCloud P env header msg (accumClear n1.acc) = .ok (b, a) ∧
          ({ n2 with acc := { n2.acc with logic := l } } : Node C) =
            { n1 with acc := { a with logic := l' } } := by
      intro hp
      simp only [CloudAccum.processAndRestart, callbacks, Outcome.bind_ok, List.nil_append] at hp
      cases hme : measure P lib env (freshen env n) with
      | throws e => rw [hme] at hp; simp at hp
      | ub e => rw [hme] at hp; simp at hp
      | ok r =>
        obtain ⟨n1, o1⟩ := r
        rw [hme] at hp
        simp only [Outcome.bind_ok] at hp
        cases ha : accumCloud P env header msg (accumClear n1.acc) with
        | ok r =>
          obtain ⟨b, a⟩ := r
          rw [ha] at hp
          cases b with
          | false =>
            simp only [Prod.mk.injEq, Outcome.ok.injEq] at hp
            obtain ⟨rfl, rfl, rfl⟩ := hp
            exact ⟨n1, false, a, _, rfl, ha, rfl⟩
          | true =>
            simp only [Prod.mk.injEq, Outcome.ok.injEq] at hp
            obtain ⟨rfl, rfl, rfl⟩ := hp
            exact ⟨n1, true, a, _, rfl, ha, rfl⟩
        | throws e => rw [ha] at hp; simp at hp
        | ub e => rw [ha] at hp; simp at hp
    rw [CloudAccum.push] at hp
    by_cases h1 : n.acc.logic.keys.length < (accCfg P).accumMax
    · rw [if_pos h1] at hp
      by_cases h2 : n.acc.logic.keys.length = 0 ∨ n.acc.logic.keys.head? ≠ some header.frame
      · rw [if_pos h2] at hp
        rw [hacc] at hp
        exact .inl ⟨hP, plain ⟨if n.acc.logic.keys.length = 0 then 1 else n.acc.logic.cnt,
          n.acc.logic.keys ++ [header.frame]⟩ (CloudAccum.reset n.acc.logic) b w1 hacc
          (by cases b <;> simpa using hp)⟩
      · rw [if_neg h2] at hp
        by_cases h3 : n.acc.logic.cnt < (accCfg P).accum
        · rw [if_pos h3] at hp
          rw [hacc] at hp
          exact .inl ⟨hP, plain ⟨n.acc.logic.cnt + 1, n.acc.logic.keys ++ [header.frame]⟩
            (CloudAccum.reset n.acc.logic) b w1 hacc (by cases b <;> simpa using hp)⟩
        · rw [if_neg h3] at hp
          exact .inr (.inr (.inr ⟨hP, proc (by simpa only [Outcome.ok.injEq] using hp)⟩))
    · rw [if_neg h1] at hp
      cases hk : n.acc.logic.keys with
      | nil => rw [hk] at hp; simp at hp
      | cons k ks =>
        rw [hk] at hp
        exact .inr (.inr (.inr ⟨hP, proc (by simpa only [Outcome.ok.injEq] using hp)⟩))

theorem cbCloud_noMap {P : Params} {lib : Lib C} {env : Env} {n : Node C} {header : Header}
    {msg : Conv.Msg} (hm : n.map.hasMap = false) :
    cbCloud P lib env n header msg = .ok (freshen env n, []) := by
  rw [cbCloud]; simp [hm, freshen]

/-- What `measure` changes. -/
theorem measure_ok {P : Params} {lib : Lib C} {env : Env} {n n' : Node C} {outs : List Out}
    (h : measure P lib env n = .ok (n', outs)) :
    ∃ c, measureCore P lib env n.map n.odo n.stdWarn n.acc n.loc n.cnt = .ok (n'.cnt, c, n'.loc, outs) ∧
      n' = { n with cnt := n'.cnt, acc := { n.acc with cloud := c }, loc := n'.loc } := by
  obtain ⟨⟨cnt, c, loc, o⟩, h1, h2⟩ := Outcome.bind_eq_ok_iff.1 h
  simp only [Outcome.ok.injEq, Prod.mk.injEq] at h2
  obtain ⟨rfl, rfl⟩ := h2
  exact ⟨c, h1, rfl⟩

/-- The cloud callback seen from everything but the accumulation members. -/
theorem cbCloud_loc {P : Params} {lib : Lib C} {env : Env} {n n' : Node C} {header : Header}
    {msg : Conv.Msg} {outs : List Out} (h : cbCloud P lib env n header msg = .ok (n', outs)) :
    n'.map = n.map ∧ n'.odo = n.odo ∧ n'.imu = n.imu ∧ n'.stdWarn = n.stdWarn ∧
    ((n'.loc = (freshen env n).loc ∧ n'.cnt = n.cnt ∧ outs = []) ∨
      (n.map.hasMap = true ∧ ∃ acc c, measureCore P lib env n.map n.odo n.stdWarn acc (freshen env n).loc n.cnt =
        .ok (n'.cnt, c, n'.loc, outs))) := by
  cases hm : n.map.hasMap with
  | false =>
    rw [cbCloud_noMap hm] at h
    simp only [Outcome.ok.injEq, Prod.mk.injEq] at h
    obtain ⟨rfl, rfl⟩ := h
    exact ⟨rfl, rfl, rfl, rfl, .inl ⟨rfl, rfl, rfl⟩⟩
  | true =>
    rcases cbCloud_ok hm h with ⟨_, rfl, b, a, l, _, rfl⟩ | ⟨_, rfl, a, _, rfl⟩ | ⟨_, a, _, hme⟩ |
      ⟨_, n1, b, a, l, hme, _, rfl⟩
    · exact ⟨rfl, rfl, rfl, rfl, .inl ⟨rfl, rfl, rfl⟩⟩
    · exact ⟨rfl, rfl, rfl, rfl, .inl ⟨rfl, rfl, rfl⟩⟩
    · obtain ⟨c, hc, hn⟩ := measure_ok hme
      rw [hn]
      exact ⟨rfl, rfl, rfl, rfl, .inr ⟨rfl, a, c, hc⟩⟩
    · obtain ⟨c, hc, hn⟩ := measure_ok hme
      rw [hn]
      exact ⟨rfl, rfl, rfl, rfl, .inr ⟨rfl, n.acc, c, hc⟩⟩

/-! ## `measure` -/

/-- How `measure` can end normally. -/
inductive Measured (P : Params) (lib : Lib C) (env : Env) (m : MapSt) (odo : OdoSt) (warn : Vec3 ℝ)
    (acc : AccSt) (loc : LocSt C) : Option (List Point) → LocSt C → List Out → Prop
  | noHeader : acc.headers = [] → Measured P lib env m odo warn acc loc acc.cloud loc [.batch true]
  | noTf (header : Header) : acc.headers.getLast? = some header →
      prepare P lib env acc loc header = .ok .noTf →
      Measured P lib env m odo warn acc loc acc.cloud loc [.batch true]
  | noOrigin (header : Header) (cloud : List Point) : acc.headers.getLast? = some header →
      prepare P lib env acc loc header = .ok (.noOrigin cloud) →
      Measured P lib env m odo warn acc loc (some cloud) loc [.batch true]
  | noPoints (header : Header) (p : Prep) : acc.headers.getLast? = some header →
      prepare P lib env acc loc header = .ok (.ready p) → p.likePc = [] →
      Measured P lib env m odo warn acc loc (some p.cloud)
        { loc with
          status := { loc.status with error := .pointsNotFound }
          beam := p.beam, like := p.like, stats := p.stats }
        [.batch true, publishStatus { loc.status with error := .pointsNotFound } loc.pf]
  | localized (header : Header) (p : Prep) (loc' : LocSt C) (outs : List Out) :
      acc.headers.getLast? = some header →
      prepare P lib env acc loc header = .ok (.ready p) → p.likePc ≠ [] →
      localize P lib env m odo warn loc header p = .ok (loc', outs) →
      Measured P lib env m odo warn acc loc (some p.cloud) loc' (.batch true :: outs)

theorem measureCore_ok {P : Params} {lib : Lib C} {env : Env} {m : MapSt} {odo : OdoSt} {warn : Vec3 ℝ}
    {acc : AccSt} {loc loc' : LocSt C} {cnt cnt' : ℕ} {c : Option (List Point)} {outs : List Out}
    (h : measureCore P lib env m odo warn acc loc cnt = .ok (cnt', c, loc', outs)) :
    Params.toSize P.skipMeasure ≠ 0 ∧ cnt' = (cnt + 1) % 2 ^ 64 ∧
    ((cnt' % Params.toSize P.skipMeasure ≠ 0 ∧ c = acc.cloud ∧ loc' = loc ∧ outs = [.batch false]) ∨
      (cnt' % Params.toSize P.skipMeasure = 0 ∧ Measured P lib env m odo warn acc loc c loc' outs)) := by
  rw [measureCore] at h
  simp only at h
  by_cases h0 : Params.toSize P.skipMeasure = 0
  · rw [if_pos h0] at h; simp at h
  rw [if_neg h0] at h
  by_cases h1 : (cnt + 1) % 2 ^ 64 % Params.toSize P.skipMeasure ≠ 0
  · rw [if_pos h1] at h
    simp only [Outcome.ok.injEq, Prod.mk.injEq] at h
    obtain ⟨rfl, rfl, rfl, rfl⟩ := h
    exact ⟨h0, rfl, .inl ⟨h1, rfl, rfl, rfl⟩⟩
  rw [if_neg h1] at h
  push Not at h1
  cases hh : acc.headers.getLast? with
  | none =>
    rw [hh] at h
    simp only [Outcome.ok.injEq, Prod.mk.injEq] at h
    obtain ⟨rfl, rfl, rfl, rfl⟩ := h
    exact ⟨h0, rfl, .inr ⟨h1, .noHeader (List.getLast?_eq_none_iff.1 hh)⟩⟩
  | some header =>
    rw [hh] at h
    obtain ⟨r, hr, h⟩ := Outcome.bind_eq_ok_iff.1 h
    cases r with
    | noTf =>
      simp only [Outcome.ok.injEq, Prod.mk.injEq] at h
      obtain ⟨rfl, rfl, rfl, rfl⟩ := h
      exact ⟨h0, rfl, .inr ⟨h1, .noTf header hh hr⟩⟩
    | noOrigin cloud =>
      simp only [Outcome.ok.injEq, Prod.mk.injEq] at h
      obtain ⟨rfl, rfl, rfl, rfl⟩ := h
      exact ⟨h0, rfl, .inr ⟨h1, .noOrigin header cloud hh hr⟩⟩
    | ready p =>
      simp only at h
      by_cases hp : p.likePc.length = 0
      · rw [if_pos hp] at h
        simp only [Outcome.ok.injEq, Prod.mk.injEq] at h
        obtain ⟨rfl, rfl, rfl, rfl⟩ := h
        exact ⟨h0, rfl, .inr ⟨h1, .noPoints header p hh hr (List.length_eq_zero_iff.1 hp)⟩⟩
      · rw [if_neg hp] at h
        obtain ⟨⟨l, o⟩, hl, h⟩ := Outcome.bind_eq_ok_iff.1 h
        simp only [Outcome.ok.injEq, Prod.mk.injEq] at h
        obtain ⟨rfl, rfl, rfl, rfl⟩ := h
        exact ⟨h0, rfl, .inr ⟨h1, .localized header p l o hh hr
          (fun e => hp (by rw [e]; rfl)) hl⟩⟩

/-- The intermediate results of a localization. -/
structure LocRun (C : Type) where
  w : List ℝ × WeighSt C
  eMax : State6 ℝ
  marks : List Marker × C
  cov : ℕ → ℕ → ℝ
  allAccum : Option (List Point)
  mo : ℝ × List Out
  pf3 : Filter
  pf5 : Filter
  pf6 : Filter
  fix : ℕ

/-- The filter after weighting and bias. -/
noncomputable def LocRun.pf1 (r : LocRun C) (P : Params) (loc : LocSt C) : Filter :=
  biasFilter P loc.statePrev (measureWith loc.pf r.w.1)

/-- The estimate. -/
noncomputable def LocRun.est (r : LocRun C) (P : Params) (loc : LocSt C) : State6 ℝ := estimate (r.pf1 P loc)

/-- Jump and reset of the integrals. -/
noncomputable def LocRun.jump (r : LocRun C) (P : Params) (loc : LocSt C) : Bool × Bool :=
  jumpOf P (r.pf1 P loc).particles.length loc.statePrev (r.est P loc)

/-- The filter from which the covariance is computed and which is resampled. -/
noncomputable def LocRun.pf2 (r : LocRun C) (P : Params) (loc : LocSt C) : Filter :=
  if (r.jump P loc).2 then (r.pf1 P loc).predict resetInteg else r.pf1 P loc

/-- The smoothing. -/
noncomputable def LocRun.smooth (r : LocRun C) (P : Params) (odo : OdoSt) (loc : LocSt C) : Smooth :=
  Node.smooth odo.odom loc.fPos loc.fAng (r.est P loc) (r.jump P loc).1

/-- The state published. -/
noncomputable def LocRun.final (r : LocRun C) (P : Params) (odo : OdoSt) (loc : LocSt C) : State6 ℝ :=
  { r.est P loc with pos := (r.smooth P odo loc).pos, rot := (r.smooth P odo loc).rot }

/-- The new status. -/
noncomputable def LocRun.status (r : LocRun C) (P : Params) (warn : Vec3 ℝ) (loc : LocSt C) : Status :=
  { loc.status with
    convergence := convergenceOf P warn loc.fixCnt r.cov loc.status.convergence
    status := statusCode P r.w.2.ratioMax r.fix loc.status.status
    matchRatio := r.w.2.ratioMax
    particleSize := r.pf6.particles.length }

theorem localize_ok {P : Params} {lib : Lib C} {env : Env} {m : MapSt} {odo : OdoSt} {warn : Vec3 ℝ}
    {loc loc' : LocSt C} {header : Header} {p : Prep} {outs : List Out}
    (h : localize P lib env m odo warn loc header p = .ok (loc', outs)) :
    ∃ r : LocRun C,
      weighLoop P lib m p loc.pf.particles ⟨loc.caster, 1, 0⟩ = .ok r.w ∧
      (r.pf1 P loc).max = .ok r.eMax ∧
      markersOf P lib m p (r.est P loc) r.w.2.caster = .ok r.marks ∧
      covarianceOf P env 1 (r.pf2 P loc) = .ok r.cov ∧
      accumAll P loc.allAccum ((r.final P odo loc).transform p.likePc) = .ok r.allAccum ∧
      matchOutput P lib env m header.stamp loc.matchLast ((r.final P odo loc).transform p.full) = .ok r.mo ∧
      resampleFilter env 0 P.resampleVar (r.pf2 P loc) = .ok r.pf3 ∧
      expandFilter P env r.w.2.ratioMax (driftFilter P env r.pf3) = .ok r.pf5 ∧
      reduceFilter P env r.pf5 = .ok r.pf6 ∧
      newFixCount P r.pf5.particles.length loc.fixCnt = .ok r.fix ∧
      loc' =
        { pf := r.pf6
          statePrev := r.est P loc
          fPos := (r.smooth P odo loc).fPos
          fAng := (r.smooth P odo loc).fAng
          rate := loc.rate.input (clampDt (env.now 3 - loc.localizedLast))
          localizedLast := env.now 3
          tolBase := (loc.rate.input (clampDt (env.now 3 - loc.localizedLast))).out
          fixCnt := r.fix - 1
          status := r.status P warn loc
          matchLast := r.mo.1
          beam := p.beam
          like := p.like
          caster := r.marks.2
          allAccum := r.allAccum
          stats := p.stats } ∧
      outs = [.markers r.marks.1] ++
        (if P.publishTf then
          [.transforms (transformsOf P (outStamp P odo loc.tolBase (env.now 1)) (r.smooth P odo loc))]
          else []) ++
        [.pose header.stamp P.mapFrame (r.smooth P odo loc).pos (r.smooth P odo loc).rot r.cov] ++ r.mo.2 ++
        [publishParticles P odo loc.tolBase (env.now 2) (r.pf2 P loc),
          publishStatus (r.status P warn loc) r.pf6] := by
  rw [localize] at h
  obtain ⟨w, hw, h⟩ := Outcome.bind_eq_ok_iff.1 h
  obtain ⟨eMax, heMax, h⟩ := Outcome.bind_eq_ok_iff.1 h
  obtain ⟨mk, hmk, h⟩ := Outcome.bind_eq_ok_iff.1 h
  obtain ⟨cov, hcov, h⟩ := Outcome.bind_eq_ok_iff.1 h
  obtain ⟨allAccum, hall, h⟩ := Outcome.bind_eq_ok_iff.1 h
  obtain ⟨mo, hmo, h⟩ := Outcome.bind_eq_ok_iff.1 h
  obtain ⟨pf3, h3, h⟩ := Outcome.bind_eq_ok_iff.1 h
  obtain ⟨pf5, h5, h⟩ := Outcome.bind_eq_ok_iff.1 h
  obtain ⟨pf6, h6, h⟩ := Outcome.bind_eq_ok_iff.1 h
  obtain ⟨fix, hf, h⟩ := Outcome.bind_eq_ok_iff.1 h
  simp only [Outcome.ok.injEq, Prod.mk.injEq] at h
  exact ⟨⟨w, eMax, mk, cov, allAccum, mo, pf3, pf5, pf6, fix⟩, hw, heMax, hmk, hcov, hall, hmo, h3, h5, h6,
    hf, h.1.symm, h.2.symm⟩

/-! ## Runs -/

theorem run_cons_ok {P : Params} {lib : Lib C} {n n' : Node C} {ev : Event} {env : Env} {h : History}
    {outs : List (List Out)} (hr : run P lib n ((ev, env) :: h) = .ok (n', outs)) :
    ∃ n1 o os, step P lib env n ev = .ok (n1, o) ∧ run P lib n1 h = .ok (n', os) ∧ outs = o :: os := by
  rw [run] at hr
  obtain ⟨⟨n1, o⟩, h1, hr⟩ := Outcome.bind_eq_ok_iff.1 hr
  obtain ⟨⟨n2, os⟩, h2, hr⟩ := Outcome.bind_eq_ok_iff.1 hr
  simp only [Outcome.ok.injEq, Prod.mk.injEq] at hr
  obtain ⟨rfl, rfl⟩ := hr
  exact ⟨n1, o, os, h1, h2, rfl⟩

/-- All the environments of a history satisfy their contracts. -/
def HistValid (h : History) : Prop := ∀ e ∈ h, e.2.Valid

/-- The states the node can be in between callbacks. -/
def Reachable (P : Params) (lib : Lib C) (n : Node C) : Prop :=
  ∃ env0 motion0 n0 h outs, env0.Valid ∧ HistValid h ∧ start P lib env0 motion0 = .ok n0 ∧
    run P lib n0 h = .ok (n, outs)

theorem run_append {P : Params} {lib : Lib C} (h1 h2 : History) (n : Node C) :
    run P lib n (h1 ++ h2) = (run P lib n h1).bind fun r =>
      (run P lib r.1 h2).bind fun s => .ok (s.1, r.2 ++ s.2) := by
  induction h1 generalizing n with
  | nil =>
    simp only [List.nil_append, run, Outcome.bind_ok]
    cases run P lib n h2 <;> simp
  | cons e h1 ih =>
    obtain ⟨ev, env⟩ := e
    simp only [List.cons_append, run]
    cases step P lib env n ev with
    | throws m => rfl
    | ub w => rfl
    | ok r =>
      simp only [Outcome.bind_ok]
      rw [ih]
      cases run P lib r.1 h1 with
      | throws m => rfl
      | ub w => rfl
      | ok s =>
        simp only [Outcome.bind_ok]
        cases run P lib s.1 h2 <;> simp

/-- Invariants. -/
theorem run_inv {P : Params} {lib : Lib C} {I : Node C → Prop}
    (hstep : ∀ n ev env n' o, I n → env.Valid → step P lib env n ev = .ok (n', o) → I n')
    {h : History} (hv : HistValid h) {n n' : Node C} {outs : List (List Out)} (hn : I n)
    (hr : run P lib n h = .ok (n', outs)) : I n' := by
  induction h generalizing n outs with
  | nil =>
    simp only [run, Outcome.ok.injEq, Prod.mk.injEq] at hr
    exact hr.1 ▸ hn
  | cons e h ih =>
    obtain ⟨ev, env⟩ := e
    obtain ⟨n1, o, os, h1, h2, _⟩ := run_cons_ok hr
    exact ih (fun e he => hv e (List.mem_cons_of_mem _ he))
      (hstep n ev env n1 o hn (hv (ev, env) List.mem_cons_self) h1) h2

theorem reachable_inv {P : Params} {lib : Lib C} {I : Node C → Prop}
    (hstart : ∀ env motion0 n, env.Valid → start P lib env motion0 = .ok n → I n)
    (hstep : ∀ n ev env n' o, I n → env.Valid → step P lib env n ev = .ok (n', o) → I n')
    {n : Node C} (hn : Reachable P lib n) : I n := by
  obtain ⟨env0, motion0, n0, h, outs, hv0, hv, hs, hr⟩ := hn
  exact run_inv hstep hv (hstart _ _ _ hv0 hs) hr

theorem Reachable.step {P : Params} {lib : Lib C} {n n' : Node C} {ev : Event} {env : Env} {o : List Out}
    (hn : Reachable P lib n) (hv : env.Valid) (h : step P lib env n ev = .ok (n', o)) :
    Reachable P lib n' := by
  obtain ⟨env0, motion0, n0, hi, outs, hv0, hvh, hs, hr⟩ := hn
  refine ⟨env0, motion0, n0, hi ++ [(ev, env)], outs ++ [o], hv0, ?_, hs, ?_⟩
  · intro e he
    rcases List.mem_append.1 he with he | he
    · exact hvh e he
    · rw [List.mem_singleton.1 he]; exact hv
  · rw [run_append, hr]
    simp [run, h]

/-- The initial state. -/
theorem start_ok {P : Params} {lib : Lib C} {env : Env} {motion0 : Motion ℝ} {n : Node C}
    (h : start P lib env motion0 = .ok n) :
    0 ≤ P.numParticles ∧ ∃ ns, env.noiseStates 0 P.initialPose P.initialPoseStd P.numParticles.toNat = .ok ns ∧
    n = { map := ⟨false, [], none, none, none, fun _ => [], none, 0⟩
          acc := ⟨CloudAccum.St.init, none, []⟩
          odo := ⟨false, State6.default, State6.default, 0,
            { motion0 with linTc := P.integLinTc, angTc := P.integAngTc }⟩
          imu := ⟨false, 0, 1, FiltVec3.new .lpf ⟨P.accLpfStep, P.accLpfStep, P.accLpfStep⟩ 0 false⟩
          loc :=
            { pf := (PF.Filter.new State6.default env.junk P.numParticles.toNat).init (pickNoise ns)
              statePrev := State6.default
              fPos := FiltVec3.new .lpf ⟨P.lpfStep, P.lpfStep, P.lpfStep⟩ 0 false
              fAng := FiltVec3.new .lpf ⟨P.lpfStep, P.lpfStep, P.lpfStep⟩ 0 true
              rate := Filt.new .lpf 5 0 false
              localizedLast := 0
              tolBase := 0
              fixCnt := 0
              status := Status.fresh 0
              matchLast := 0
              beam := Lidar.Beam.make P.beam
              like := Lidar.Like.make P.like
              caster := lib.caster0
              allAccum := none
              stats := none }
          cnt := 0
          stdWarn := P.stdWarn } := by
  rw [start] at h
  split_ifs at h with h0
  obtain ⟨ns, hns, h⟩ := Outcome.bind_eq_ok_iff.1 h
  simp only [Outcome.ok.injEq] at h
  exact ⟨by omega, ns, hns, h.symm⟩

/-! ## The other callbacks -/

theorem mapTimer_ok {P : Params} {env : Env} {m m' : MapSt} {o : List Out}
    (h : mapTimer P env m = .ok (m', o)) : m'.hasMap = m.hasMap ∧ m'.base = m.base := by
  rw [mapTimer] at h
  cases hm : m.hasMap with
  | false =>
    simp only [hm, Bool.false_eq_true, if_false, Outcome.ok.injEq, Prod.mk.injEq] at h
    rw [← h.1]; exact ⟨hm, rfl⟩
  | true =>
    simp only [hm, if_true] at h
    cases hu : m.update with
    | some u =>
      rw [hu] at h
      simp only at h
      split at h
      · simp at h
      · simp only [Outcome.ok.injEq, Prod.mk.injEq] at h
        rw [← h.1]; exact ⟨rfl, rfl⟩
    | none =>
      rw [hu] at h
      simp only at h
      cases hme : m.merged with
      | some x =>
        rw [hme] at h
        simp only [Outcome.ok.injEq, Prod.mk.injEq] at h
        rw [← h.1]; exact ⟨hm, rfl⟩
      | none =>
        rw [hme] at h
        simp only at h
        cases hb : m.base with
        | none => rw [hb] at h; simp at h
        | some b =>
          rw [hb] at h
          simp only at h
          split at h
          · simp at h
          · simp only [Outcome.ok.injEq, Prod.mk.injEq] at h
            rw [← h.1]; exact ⟨rfl, rfl⟩

theorem loadMapCloud_ok {P : Params} {env : Env} {n n' : Node C} {stamp : ℕ} {pts : List Point}
    {outs : List Out} (h : loadMapCloud P env n stamp pts = .ok (n', outs)) :
    ∃ m, mapTimer P env
        { n.map with
          hasMap := true
          heap := n.map.heap ++ [⟨stamp, env.voxel P.mapDownsample pts⟩]
          base := some n.map.heap.length, merged := none, update := none } = .ok (m, outs) ∧
      n' = { n with map := m, acc := { accumClear n.acc with logic := CloudAccum.reset n.acc.logic },
                    loc := { n.loc with allAccum := some [] } } := by
  rw [loadMapCloud] at h
  obtain ⟨⟨m, o⟩, h1, h⟩ := Outcome.bind_eq_ok_iff.1 h
  simp only [Outcome.ok.injEq, Prod.mk.injEq] at h
  obtain ⟨rfl, rfl⟩ := h
  exact ⟨m, h1, rfl⟩

theorem cbMapcloud_ok {P : Params} {env : Env} {n n' : Node C} {stamp : ℝ} {msg : Conv.Msg}
    {outs : List Out} (h : cbMapcloud P env n stamp msg = .ok (n', outs)) :
    ((Conv.fromROSMsg msg []).1 = false ∧ n' = { n with map := { n.map with hasMap := false } } ∧ outs = []) ∨
    ((Conv.fromROSMsg msg []).1 = true ∧
      loadMapCloud P env n (pclStamp (if stamp ≠ 0 then stamp else env.now 1))
        (pointsOf (Conv.fromROSMsg msg []).2) = .ok (n', outs)) := by
  rw [cbMapcloud] at h
  rcases hc : Conv.fromROSMsg msg [] with ⟨b, pts⟩
  rw [hc] at h
  cases b with
  | false =>
    simp only [Outcome.ok.injEq, Prod.mk.injEq] at h
    exact .inl ⟨rfl, h.1.symm, h.2.symm⟩
  | true => exact .inr ⟨rfl, h⟩

theorem cbLoadPcd_ok {P : Params} {env : Env} {n n' : Node C} {file : Option (List Point)}
    {outs : List Out} (h : cbLoadPcd P env n file = .ok (n', outs)) :
    (file = none ∧ n' = { n with map := { n.map with hasMap := false } } ∧ outs = [.response false]) ∨
    (∃ pts o, file = some pts ∧ loadMapCloud P env n (pclStamp (env.now 1)) pts = .ok (n', o) ∧
      outs = o ++ [.response true]) := by
  unfold cbLoadPcd at h
  cases file with
  | none =>
    simp only [Outcome.ok.injEq, Prod.mk.injEq] at h
    exact .inl ⟨rfl, h.1.symm, h.2.symm⟩
  | some pts =>
    obtain ⟨⟨n1, o⟩, h1, h⟩ := Outcome.bind_eq_ok_iff.1 h
    simp only [Outcome.ok.injEq, Prod.mk.injEq] at h
    obtain ⟨rfl, rfl⟩ := h
    exact .inr ⟨pts, o, rfl, h1, rfl⟩

/-- A map message or file leaves everything but map, accumulation and the accumulated output alone. -/
theorem load_frame {P : Params} {env : Env} {n n' : Node C} {stamp : ℕ} {pts : List Point}
    {outs : List Out} (h : loadMapCloud P env n stamp pts = .ok (n', outs)) :
    n'.odo = n.odo ∧ n'.imu = n.imu ∧ n'.cnt = n.cnt ∧ n'.stdWarn = n.stdWarn ∧
      n'.loc = { n.loc with allAccum := some [] } ∧ n'.map.hasMap = true := by
  obtain ⟨m, h1, rfl⟩ := loadMapCloud_ok h
  exact ⟨rfl, rfl, rfl, rfl, rfl, (mapTimer_ok h1).1⟩

/-- What a sensor callback leaves alone. -/
theorem sensor_frame {P : Params} {env : Env} (fuel : ℕ) {n n' : Node C} {msg : OdomMsg ⊕ ImuMsg}
    {outs : List Out} (h : sensor P env fuel n msg = .ok (n', outs)) :
    n'.map = n.map ∧ n'.acc = n.acc ∧ n'.cnt = n.cnt ∧ n'.stdWarn = n.stdWarn ∧
      n'.loc = { n.loc with pf := n'.loc.pf } ∧ n'.loc.pf.particles.length = n.loc.pf.particles.length ∧
      ∀ o ∈ outs, o = .synthImu ∨ o = .synthOdom := by
  have hodom : ∀ (n : Node C) msg, (odomCore P n msg).1.map = n.map ∧ (odomCore P n msg).1.acc = n.acc ∧
      (odomCore P n msg).1.cnt = n.cnt ∧ (odomCore P n msg).1.stdWarn = n.stdWarn ∧
      (odomCore P n msg).1.loc = { n.loc with pf := (odomCore P n msg).1.loc.pf } ∧
      (odomCore P n msg).1.loc.pf.particles.length = n.loc.pf.particles.length := by
    intro n msg
    simp only [odomCore]
    split_ifs <;> simp [PF.Filter.predict]
  have himu : ∀ (n : Node C) msg, (imuCore P env n msg).1.map = n.map ∧ (imuCore P env n msg).1.acc = n.acc ∧
      (imuCore P env n msg).1.cnt = n.cnt ∧ (imuCore P env n msg).1.stdWarn = n.stdWarn ∧
      (imuCore P env n msg).1.loc = { n.loc with pf := (imuCore P env n msg).1.loc.pf } ∧
      (imuCore P env n msg).1.loc.pf.particles.length = n.loc.pf.particles.length := by
    intro n msg
    have hml : ∀ (f : Filter) (lik : State6 ℝ → ℝ),
        (f.measure Real.log lik).particles.length = f.particles.length := by
      intro f lik
      simp only [PF.Filter.measure]
      split_ifs <;> simp [PF.weigh]
    simp only [imuCore]
    cases env.tf P.baseFrame msg.frame 0 with
    | none => split_ifs <;> exact ⟨rfl, rfl, rfl, rfl, rfl, rfl⟩
    | some t =>
      split_ifs <;> first | exact ⟨rfl, rfl, rfl, rfl, rfl, rfl⟩ | exact ⟨rfl, rfl, rfl, rfl, rfl, hml _ _⟩
  induction fuel generalizing n msg outs with
  | zero => simp [sensor] at h
  | succ fuel ih =>
    cases msg with
    | inl msg =>
      obtain ⟨a, b, c, d, e, f⟩ := hodom n msg
      rw [sensor] at h
      rcases hc : odomCore P n msg with ⟨n1, _ | im⟩
      · rw [hc] at h
        simp only [Outcome.ok.injEq, Prod.mk.injEq] at h
        obtain ⟨rfl, rfl⟩ := h
        rw [hc] at a b c d e f
        exact ⟨a, b, c, d, e, f, by simp⟩
      · rw [hc] at h a b c d e f
        obtain ⟨⟨n2, o2⟩, h2, h⟩ := Outcome.bind_eq_ok_iff.1 h
        simp only [Outcome.ok.injEq, Prod.mk.injEq] at h
        obtain ⟨rfl, rfl⟩ := h
        obtain ⟨a', b', c', d', e', f', g'⟩ := ih h2
        simp only at a b c d e f
        refine ⟨a'.trans a, b'.trans b, c'.trans c, d'.trans d, ?_, f'.trans f, ?_⟩
        · rw [e', e]
        · intro o ho
          rcases List.mem_cons.1 ho with rfl | ho
          · exact .inl rfl
          · exact g' o ho
    | inr msg =>
      obtain ⟨a, b, c, d, e, f⟩ := himu n msg
      rw [sensor] at h
      rcases hc : imuCore P env n msg with ⟨n1, _ | im⟩
      · rw [hc] at h
        simp only [Outcome.ok.injEq, Prod.mk.injEq] at h
        obtain ⟨rfl, rfl⟩ := h
        rw [hc] at a b c d e f
        exact ⟨a, b, c, d, e, f, by simp⟩
      · rw [hc] at h a b c d e f
        obtain ⟨⟨n2, o2⟩, h2, h⟩ := Outcome.bind_eq_ok_iff.1 h
        simp only [Outcome.ok.injEq, Prod.mk.injEq] at h
        obtain ⟨rfl, rfl⟩ := h
        obtain ⟨a', b', c', d', e', f', g'⟩ := ih h2
        simp only at a b c d e f
        refine ⟨a'.trans a, b'.trans b, c'.trans c, d'.trans d, ?_, f'.trans f, ?_⟩
        · rw [e', e]
        · intro o ho
          rcases List.mem_cons.1 ho with rfl | ho
          · exact .inr rfl
          · exact g' o ho

theorem cbPosition_ok {P : Params} {lib : Lib C} {env : Env} {n n' : Node C} {msg : PoseMsg}
    {outs : List Out} (h : cbPosition P lib env n msg = .ok (n', outs)) :
    (n' = n ∧ outs = [] ∧ (1 / 10 < |msg.rot.dot msg.rot - 1| ∨ env.tf P.mapFrame msg.frame msg.stamp = none)) ∨
    (¬ 1 / 10 < |msg.rot.dot msg.rot - 1| ∧ ∃ t st, env.tf P.mapFrame msg.frame msg.stamp = some t ∧
      n' = { n with
        map := { n.map with update := none }
        loc := { n.loc with pf := (n.loc.pf.init st).predict resetInteg } } ∧
      outs = [publishParticles P n.odo n.loc.tolBase (env.now 0) n'.loc.pf]) := by
  rw [cbPosition] at h
  split_ifs at h with h0
  · simp only [Outcome.ok.injEq, Prod.mk.injEq] at h
    exact .inl ⟨h.1.symm, h.2.symm, .inl h0⟩
  cases ht : env.tf P.mapFrame msg.frame msg.stamp with
  | none =>
    rw [ht] at h
    simp only [Outcome.ok.injEq, Prod.mk.injEq] at h
    exact .inl ⟨h.1.symm, h.2.symm, .inr rfl⟩
  | some t =>
    rw [ht] at h
    obtain ⟨r, hr, h⟩ := Outcome.bind_eq_ok_iff.1 h
    simp only [Outcome.ok.injEq, Prod.mk.injEq] at h
    obtain ⟨rfl, rfl⟩ := h
    exact .inr ⟨h0, t, _, rfl, rfl, rfl⟩

theorem cbLandmark_ok {P : Params} {env : Env} {n n' : Node C} {msg : PoseMsg}
    {outs : List Out} (h : cbLandmark P env n msg = .ok (n', outs)) :
    ∃ pf, resampleFilter env 0 P.resampleVar
        (n.loc.pf.measure Real.log (landmarkLikelihood msg.cov (State6.ofQuat msg.pos msg.rot))) = .ok pf ∧
      n' = { n with loc := { n.loc with pf := pf } } ∧
      outs = [publishParticles P n.odo n.loc.tolBase (env.now 0) pf] := by
  rw [cbLandmark] at h
  obtain ⟨pf, h1, h⟩ := Outcome.bind_eq_ok_iff.1 h
  simp only [Outcome.ok.injEq, Prod.mk.injEq] at h
  exact ⟨pf, h1, h.1.symm, h.2.symm⟩

theorem cbResize_ok {P : Params} {env : Env} {n n' : Node C} {size : ℤ} {outs : List Out}
    (h : cbResize P env n size = .ok (n', outs)) :
    ∃ pf, resizeFilter env n.loc.pf size = .ok pf ∧ n' = { n with loc := { n.loc with pf := pf } } ∧
      outs = [publishParticles P n.odo n.loc.tolBase (env.now 0) pf, .response true] := by
  rw [cbResize] at h
  obtain ⟨pf, h1, h⟩ := Outcome.bind_eq_ok_iff.1 h
  simp only [Outcome.ok.injEq, Prod.mk.injEq] at h
  exact ⟨pf, h1, h.1.symm, h.2.symm⟩

theorem cbExpansionReset_ok {P : Params} {env : Env} {n n' : Node C} {outs : List Out}
    (h : cbExpansionReset P env n = .ok (n', outs)) :
    ∃ pf, addNoise env 0 P.expansionVar n.loc.pf = .ok pf ∧ n' = { n with loc := { n.loc with pf := pf } } ∧
      outs = [publishParticles P n.odo n.loc.tolBase (env.now 0) pf, .response true] := by
  rw [cbExpansionReset] at h
  obtain ⟨pf, h1, h⟩ := Outcome.bind_eq_ok_iff.1 h
  simp only [Outcome.ok.injEq, Prod.mk.injEq] at h
  exact ⟨pf, h1, h.1.symm, h.2.symm⟩

theorem cbGlobalLocalization_ok {P : Params} {lib : Lib C} {env : Env} {n n' : Node C} {outs : List Out}
    (h : cbGlobalLocalization P lib env n = .ok (n', outs)) :
    (n.map.hasMap = false ∧ n' = n ∧ outs = [.response false]) ∨
    (n.map.hasMap = true ∧ ∃ c pf ps, (n.map.base.bind fun b => n.map.heap[b]?) = some c ∧
      resizeFilter env n.loc.pf ((standingPoints P lib env c.points).length * P.divYaw) = .ok pf ∧
      place P.divYaw (1 / ((standingPoints P lib env c.points).length : ℝ)) n.imu.quat pf.particles 0
        (standingPoints P lib env c.points) = .ok ps ∧
      n' = { n with loc := { n.loc with pf := { pf with particles := ps } } } ∧ outs = [.response true]) := by
  rw [cbGlobalLocalization] at h
  cases hm : n.map.hasMap with
  | false =>
    simp only [hm, Bool.false_eq_true, if_false, Outcome.ok.injEq, Prod.mk.injEq] at h
    exact .inl ⟨rfl, h.1.symm, h.2.symm⟩
  | true =>
    simp only [hm, if_true] at h
    cases hc : (n.map.base.bind fun b => n.map.heap[b]?) with
    | none => rw [hc] at h; simp at h
    | some c =>
      rw [hc] at h
      obtain ⟨pf, h1, h⟩ := Outcome.bind_eq_ok_iff.1 h
      obtain ⟨ps, h2, h⟩ := Outcome.bind_eq_ok_iff.1 h
      simp only [Outcome.ok.injEq, Prod.mk.injEq] at h
      exact .inr ⟨rfl, c, pf, ps, rfl, h1, h2, h.1.symm, h.2.symm⟩

/-- The localization members after any callback but a cloud: only the filter and the accumulated
output can have changed. -/
theorem step_loc {P : Params} {lib : Lib C} {env : Env} {n n' : Node C} {ev : Event} {outs : List Out}
    (h : step P lib env n ev = .ok (n', outs)) (hev : ∀ header msg, ev ≠ .cloud header msg) :
    n'.loc = { n.loc with pf := n'.loc.pf, allAccum := n'.loc.allAccum } ∧ n'.cnt = n.cnt := by
  cases ev with
  | mapcloud stamp msg =>
    rcases cbMapcloud_ok h with ⟨_, rfl, _⟩ | ⟨_, hl⟩
    · exact ⟨rfl, rfl⟩
    · obtain ⟨_, _, h3, _, h5, _⟩ := load_frame hl
      exact ⟨by rw [h5], h3⟩
  | mapcloudUpdate msg =>
    simp only [step, Outcome.ok.injEq, Prod.mk.injEq] at h
    rw [← h.1]
    simp only [cbMapcloudUpdate]
    rcases Conv.fromROSMsg msg [] with ⟨_ | _, pts⟩ <;> exact ⟨rfl, rfl⟩
  | loadPcd file =>
    rcases cbLoadPcd_ok h with ⟨_, rfl, _⟩ | ⟨_, _, _, hl, _⟩
    · exact ⟨rfl, rfl⟩
    · obtain ⟨_, _, h3, _, h5, _⟩ := load_frame hl
      exact ⟨by rw [h5], h3⟩
  | timer =>
    obtain ⟨r, _, h⟩ := Outcome.bind_eq_ok_iff.1 h
    simp only [Outcome.ok.injEq, Prod.mk.injEq] at h
    rw [← h.1]; exact ⟨rfl, rfl⟩
  | cloud header msg => exact absurd rfl (hev header msg)
  | odom msg =>
    obtain ⟨_, _, h3, _, h5, _⟩ := sensor_frame _ h
    exact ⟨by rw [h5], h3⟩
  | imu msg =>
    obtain ⟨_, _, h3, _, h5, _⟩ := sensor_frame _ h
    exact ⟨by rw [h5], h3⟩
  | initialpose msg =>
    rcases cbPosition_ok h with ⟨rfl, _⟩ | ⟨_, t, st, _, rfl, _⟩ <;> exact ⟨rfl, rfl⟩
  | landmark msg =>
    obtain ⟨pf, _, rfl, _⟩ := cbLandmark_ok h; exact ⟨rfl, rfl⟩
  | resize size =>
    obtain ⟨pf, _, rfl, _⟩ := cbResize_ok h; exact ⟨rfl, rfl⟩
  | expansionReset =>
    obtain ⟨pf, _, rfl, _⟩ := cbExpansionReset_ok h; exact ⟨rfl, rfl⟩
  | globalLocalization =>
    rcases cbGlobalLocalization_ok h with ⟨_, rfl, _⟩ | ⟨_, c, pf, ps, _, _, _, rfl, _⟩ <;> exact ⟨rfl, rfl⟩
  | reconfigure w =>
    simp only [step, Outcome.ok.injEq, Prod.mk.injEq] at h
    rw [← h.1]; exact ⟨rfl, rfl⟩

/-! ## Sizes of the filter -/


theorem resampleFilter_spec {env : Env} (hv : env.Valid) {call : ℕ} {sigma : State6 ℝ} {f f' : Filter}
    (h : resampleFilter env call sigma f = .ok f') :
    f'.particles.length = f.particles.length ∧ f'.entropy = f.entropy := by
  obtain ⟨ns, _, h⟩ := Outcome.bind_eq_ok_iff.1 h
  obtain ⟨f2, h2, he, hl, _⟩ := PF.resample_spec f _ (env.unit * (PF.total f.particles / (f.particles.length : ℝ)))
    (pickNoise ns) (hv.sort (PF.accumulate 0 f.particles))
  rw [h2] at h
  simp only [Outcome.ok.injEq] at h
  exact h ▸ ⟨hl, he⟩

theorem addNoise_spec {env : Env} {call : ℕ} {sigma : State6 ℝ} {f f' : Filter}
    (h : addNoise env call sigma f = .ok f') :
    f'.particles.length = f.particles.length ∧ f'.entropy = f.entropy := by
  obtain ⟨ns, _, h⟩ := Outcome.bind_eq_ok_iff.1 h
  simp only [Outcome.ok.injEq] at h
  exact h ▸ ⟨by simp [PF.Filter.noise], rfl⟩

theorem expandFilter_spec {P : Params} {env : Env} {r : ℝ} {f f' : Filter}
    (h : expandFilter P env r f = .ok f') :
    f'.particles.length = f.particles.length ∧ f'.entropy = f.entropy := by
  rw [expandFilter] at h
  split_ifs at h
  · exact addNoise_spec h
  · simp only [Outcome.ok.injEq] at h
    exact h ▸ ⟨rfl, rfl⟩

theorem resizeFilter_spec {env : Env} (hv : env.Valid) {f f' : Filter} {n : ℤ}
    (h : resizeFilter env f n = .ok f') :
    0 ≤ n ∧ f'.particles.length = n.toNat ∧ f'.entropy = f.entropy ∧ (f.particles ≠ [] ∨ n = 0) ∧
      ∀ p' ∈ f'.particles, p'.prob = 1 / (n.toNat : ℝ) := by
  rw [resizeFilter] at h
  split_ifs at h with h0
  have hs := hv.sort (PF.accumulate 0 f.particles)
  by_cases hne : f.particles ≠ [] ∨ n.toNat = 0
  · obtain ⟨f2, h2, he, hl, hp⟩ := PF.resize_spec State6.default env.junk f n.toNat _ hs hne
    rw [h2] at h
    simp only [Outcome.ok.injEq] at h
    refine ⟨by omega, h ▸ hl, h ▸ he, hne.imp id (fun h => by omega), fun p' hp' => ?_⟩
    exact (hp p' (h ▸ hp')).1
  · push Not at hne
    have hd : env.sort (PF.accumulate 0 f.particles) = [] := by
      have := hs.length_eq
      rw [hne.1] at this ⊢
      exact List.length_eq_zero_iff.1 this
    have := PF.resize_empty_ub State6.default env.junk f n.toNat hne.1 (by omega)
    rw [hd] at h
    rw [h] at this
    simp [Outcome.isUb] at this

theorem driftFilter_spec (P : Params) (env : Env) (f : Filter) :
    (driftFilter P env f).particles.length = f.particles.length ∧ (driftFilter P env f).entropy = f.entropy := by
  simp [driftFilter]

theorem biasFilter_spec (P : Params) (prev : State6 ℝ) (f : Filter) :
    (biasFilter P prev f).particles.length = f.particles.length ∧ (biasFilter P prev f).entropy = f.entropy := by
  unfold biasFilter
  split_ifs <;> simp [PF.Filter.bias]

theorem weighLoop_length {P : Params} {lib : Lib C} {m : MapSt} {p : Prep} {ps : List Particle}
    {w : WeighSt C} {r : List ℝ × WeighSt C} (h : weighLoop P lib m p ps w = .ok r) :
    r.1.length = ps.length := by
  induction ps generalizing w r with
  | nil =>
    simp only [weighLoop, Outcome.ok.injEq] at h
    rw [← h]; rfl
  | cons q qs ih =>
    rw [weighLoop] at h
    obtain ⟨a, _, h⟩ := Outcome.bind_eq_ok_iff.1 h
    obtain ⟨b, hb, h⟩ := Outcome.bind_eq_ok_iff.1 h
    simp only [Outcome.ok.injEq] at h
    rw [← h]
    simp [ih hb]

theorem measureWith_length (f : Filter) (ls : List ℝ) (h : ls.length = f.particles.length) :
    (measureWith f ls).particles.length = f.particles.length := by
  unfold measureWith
  simp only
  split_ifs
  · simp [h]
  · rfl

/-- The filters of a localization all have the size the filter had before, up to the reduction. -/
theorem localize_sizes {P : Params} {lib : Lib C} {env : Env} (hv : env.Valid) {m : MapSt}
    {loc : LocSt C} {p : Prep} {r : LocRun C}
    (h1 : weighLoop P lib m p loc.pf.particles ⟨loc.caster, 1, 0⟩ = .ok r.w)
    (h2 : resampleFilter env 0 P.resampleVar (r.pf2 P loc) = .ok r.pf3)
    (h3 : expandFilter P env r.w.2.ratioMax (driftFilter P env r.pf3) = .ok r.pf5) :
    (r.pf1 P loc).particles.length = loc.pf.particles.length ∧
      (r.pf2 P loc).particles.length = loc.pf.particles.length ∧
      r.pf5.particles.length = loc.pf.particles.length := by
  have e1 : (r.pf1 P loc).particles.length = loc.pf.particles.length := by
    unfold LocRun.pf1
    rw [(biasFilter_spec _ _ _).1, measureWith_length _ _ (weighLoop_length h1)]
  have e2 : (r.pf2 P loc).particles.length = loc.pf.particles.length := by
    unfold LocRun.pf2
    split_ifs
    · simp [PF.Filter.predict, e1]
    · exact e1
  refine ⟨e1, e2, ?_⟩
  rw [(expandFilter_spec h3).1, (driftFilter_spec _ _ _).1, (resampleFilter_spec hv h2).1, e2]

end Node
end Mcl3dl
