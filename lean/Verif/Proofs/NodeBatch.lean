import Verif.Proofs.NodeStatus
import Verif.Spec.NodeBatch
import Verif.Props.NodeMap
import Verif.Props.Conv

/-! # Batches of clouds in the node -/

namespace Mcl3dl

namespace Conv

/-- The positions of the points of a message. -/
theorem positions (m : Msg) (hv : Node.validCloud m = true) :
    (fromROSMsg m []).2.map Point.pos =
      (List.range m.size).map fun i => ⟨m.float "x" i, m.float "y" i, m.float "z" i⟩ := by
  simp only [Node.validCloud, Bool.and_eq_true, decide_eq_true_eq] at hv
  obtain ⟨⟨⟨hx, hy⟩, hz⟩, h0⟩ := hv
  rw [fromROSMsg_eq, if_pos ⟨hx, hy, hz⟩, fromROSMsgImpl, if_neg h0]
  apply List.ext_getElem
  · simp
  · intro i h1 h2
    simp [copyPoint, rawPoint]

end Conv

namespace Node

variable {C : Type}

theorem labelled_append (b : List Scan) (s : Scan) :
    labelled (b ++ [s]) = labelled b ++ s.points.map fun p => (⟨p, b.length % 2 ^ 32⟩ : Point) := by
  simp [labelled, List.zipIdx_append]

theorem accumCloud_scan {P : Params} {env : Env} {header : Header} {msg : Conv.Msg} {a a' : AccSt} {b : Bool}
    (hr : Regular msg) (h : accumCloud P env header msg a = .ok (b, a')) :
    (scanOf P env header msg = none ∧ b = false ∧ a' = a) ∨
    ∃ s c, scanOf P env header msg = some s ∧ s.header = header ∧ b = true ∧ a.cloud = some c ∧
      a' = { a with
        cloud := some (c ++ s.points.map fun p => (⟨p, a.headers.length % 2 ^ 32⟩ : Point))
        headers := a.headers ++ [header] } := by
  unfold accumCloud at h
  unfold scanOf
  cases ht : env.tf P.odomFrame header.frame header.stamp with
  | none =>
    rw [ht] at h
    simp only [Outcome.ok.injEq, Prod.mk.injEq] at h
    exact .inl ⟨rfl, h.1.symm, h.2.symm⟩
  | some t =>
    rw [ht] at h
    obtain ⟨m, hm, h⟩ := Outcome.bind_eq_ok_iff.1 h
    -- the transformed message
    unfold transformMsg at hm
    cases hx : msg.fields.findIdx? (fun f => f.name == "x") with
    | none => simp [hx] at hm
    | some x =>
    cases hy : msg.fields.findIdx? (fun f => f.name == "y") with
    | none => simp [hx, hy] at hm
    | some y =>
    cases hz : msg.fields.findIdx? (fun f => f.name == "z") with
    | none => simp [hx, hy, hz] at hm
    | some z =>
    simp only [hx, hy, hz, Outcome.ok.injEq] at hm
    have hvm : validCloud m = validCloud msg := by rw [← hm]; rfl
    have hxy : x ≠ y := by
      rintro rfl
      obtain ⟨h1, h2, _⟩ := List.findIdx?_eq_some_iff_getElem.1 hx
      obtain ⟨_, h3, _⟩ := List.findIdx?_eq_some_iff_getElem.1 hy
      simp only [beq_iff_eq] at h2 h3
      rw [h2] at h3
      exact absurd h3 (by decide)
    have hxz : x ≠ z := by
      rintro rfl
      obtain ⟨h1, h2, _⟩ := List.findIdx?_eq_some_iff_getElem.1 hx
      obtain ⟨_, h3, _⟩ := List.findIdx?_eq_some_iff_getElem.1 hz
      simp only [beq_iff_eq] at h2 h3
      rw [h2] at h3
      exact absurd h3 (by decide)
    have hyz : y ≠ z := by
      rintro rfl
      obtain ⟨h1, h2, _⟩ := List.findIdx?_eq_some_iff_getElem.1 hy
      obtain ⟨_, h3, _⟩ := List.findIdx?_eq_some_iff_getElem.1 hz
      simp only [beq_iff_eq] at h2 h3
      rw [h2] at h3
      exact absurd h3 (by decide)
    have ix : msg.index "x" .f32 = some x := by rw [hr "x" (by simp), hx]
    have iy : msg.index "y" .f32 = some y := by rw [hr "y" (by simp), hy]
    have iz : msg.index "z" .f32 = some z := by rw [hr "z" (by simp), hz]
    cases hv : validCloud msg with
    | false =>
      have hc : (Conv.fromROSMsg m []).1 = false := by rw [fromROSMsg_valid, hvm, hv]
      rcases hc' : Conv.fromROSMsg m [] with ⟨_ | _, pts⟩
      · rw [hc'] at h
        simp only [Outcome.ok.injEq, Prod.mk.injEq] at h
        exact .inl ⟨by simp, h.1.symm, h.2.symm⟩
      · rw [hc'] at hc; cases hc
    | true =>
      right
      have hc : (Conv.fromROSMsg m []).1 = true := by rw [fromROSMsg_valid, hvm, hv]
      have hpos : (Conv.fromROSMsg m []).2.map Conv.Point.pos =
          ((Conv.fromROSMsg msg []).2.map Conv.Point.pos).map t.point := by
        rw [Conv.positions m (by rw [hvm, hv]), Conv.positions msg hv, List.map_map]
        have hsz : m.size = msg.size := by rw [← hm]
        rw [hsz]
        apply List.map_congr_left
        intro i _
        have jx : m.index "x" .f32 = some x := by rw [← hm]; exact ix
        have jy : m.index "y" .f32 = some y := by rw [← hm]; exact iy
        have jz : m.index "z" .f32 = some z := by rw [← hm]; exact iz
        simp only [Conv.Msg.float, jx, jy, jz, Function.comp, ix, iy, iz]
        rw [← hm]
        simp [Ne.symm hxy, Ne.symm hxz, Ne.symm hyz]
      rcases hc' : Conv.fromROSMsg m [] with ⟨_ | _, pts⟩
      · rw [hc'] at hc; cases hc
      · rw [hc'] at h hpos
        cases ha : a.cloud with
        | none => simp [ha] at h
        | some c =>
          simp only [ha, Outcome.ok.injEq, Prod.mk.injEq] at h
          obtain ⟨rfl, rfl⟩ := h
          refine ⟨⟨header, (cloudPoints msg).map fun p => t.point p.pos⟩, c, by simp, rfl, rfl, rfl, ?_⟩
          congr 2
          have e1 : (pointsOf pts).map (fun p => ({ p with attr := a.headers.length % 2 ^ 32 } : Point)) =
              (pts.map Conv.Point.pos).map fun p => (⟨p, a.headers.length % 2 ^ 32⟩ : Point) := by
            simp [pointsOf]
          have e2 : (cloudPoints msg).map (fun p => t.point p.pos) =
              ((Conv.fromROSMsg msg []).2.map Conv.Point.pos).map t.point := by
            simp [cloudPoints]
          rw [e1, e2]
          simp only at hpos
          rw [hpos]

/-- The counter is the number of clouds of the sensor that began the batch. -/
def GoodLogic (l : CloudAccum.St String) : Prop := ∀ k t, l.keys = k :: t → l.cnt = l.keys.count k

/-- Completeness in terms of the recorded keys. -/
def keysComplete (P : Params) (keys : List String) (frame : String) : Prop :=
  Params.toSize P.totalAccumCloudMax ≤ keys.length ∨
    ∃ t, keys = frame :: t ∧ Params.toSize P.accumCloud ≤ keys.count frame

/-- The two ways in which a cloud callback that accumulates can end normally. -/
theorem cbCloud_accum {P : Params} {lib : Lib C} {env : Env} {n n' : Node C} {header : Header}
    {msg : Conv.Msg} {outs : List Out} (hm : n.map.hasMap = true) (hP : P.accumCloud ≠ 0)
    (hg : GoodLogic n.acc.logic) (h : cbCloud P lib env n header msg = .ok (n', outs)) :
    GoodLogic n'.acc.logic ∧
    ((keysComplete P n.acc.logic.keys header.frame ∧ n.acc.logic.keys ≠ [] ∧ ∃ n1 b a, measure P lib env (freshen env n) = .ok (n1, outs) ∧
        accumCloud P env header msg (accumClear n1.acc) = .ok (b, a) ∧
        ∃ c, n' = { n1 with acc := { a with logic := ⟨c, if b then [header.frame] else []⟩ } }) ∨
      (¬ keysComplete P n.acc.logic.keys header.frame ∧ outs = [] ∧ ∃ b a,
        accumCloud P env header msg n.acc = .ok (b, a) ∧
        ∃ c, n' = { freshen env n with acc :=
          if b then { a with logic := ⟨c, n.acc.logic.keys ++ [header.frame]⟩ }
          else { accumClear a with logic := ⟨c, []⟩ } })) := by
  rw [cbCloud_eq hm, if_neg hP] at h
  obtain ⟨⟨l, w⟩, hp, h⟩ := Outcome.bind_eq_ok_iff.1 h
  obtain ⟨⟨n2, o2⟩, hw, h⟩ := Outcome.bind_eq_ok_iff.1 h
  simp only at hw h
  subst hw
  cases h
  -- accumulation without processing
  have plain : ∀ (st1 st2 : CloudAccum.St String) b w1,
      (callbacks P lib env header).accumulate msg (.ok (freshen env n, [])) = (b, w1) →
      (if b then (st1, w1) else (st2, (callbacks P lib env header).clear w1)) =
        ((l, .ok (n2, o2)) : CloudAccum.St String × World C) →
      o2 = [] ∧ ∃ b a, accumCloud P env header msg n.acc = .ok (b, a) ∧ l = (if b then st1 else st2) ∧
        ({ n2 with acc := { n2.acc with logic := l } } : Node C) =
          { freshen env n with acc := if b then { a with logic := st1 } else { accumClear a with logic := st2 } } := by
    intro st1 st2 b w1 hacc hp
    have hacc' : (match accumCloud P env header msg n.acc with
        | .ok (b, a) => (b, (Outcome.ok ({ freshen env n with acc := a }, []) : World C))
        | .throws e => (false, .throws e)
        | .ub e => (false, .ub e)) = (b, w1) := hacc
    cases ha : accumCloud P env header msg n.acc with
    | ok r =>
      obtain ⟨b', a⟩ := r
      rw [ha] at hacc'
      simp only [Prod.mk.injEq] at hacc'
      obtain ⟨rfl, rfl⟩ := hacc'
      cases b' with
      | false =>
        simp only [callbacks, Bool.false_eq_true, if_false, Outcome.bind_ok, Outcome.ok.injEq, Prod.mk.injEq] at hp
        obtain ⟨rfl, rfl, rfl⟩ := hp
        exact ⟨rfl, false, a, rfl, by simp, by simp [freshen]⟩
      | true =>
        simp only [if_true, Outcome.ok.injEq, Prod.mk.injEq] at hp
        obtain ⟨rfl, rfl, rfl⟩ := hp
        exact ⟨rfl, true, a, rfl, by simp, by simp [freshen]⟩
    | throws e =>
      rw [ha] at hacc'
      simp only [Prod.mk.injEq] at hacc'
      obtain ⟨rfl, rfl⟩ := hacc'
      simp [callbacks] at hp
    | ub e =>
      rw [ha] at hacc'
      simp only [Prod.mk.injEq] at hacc'
      obtain ⟨rfl, rfl⟩ := hacc'
      simp [callbacks] at hp
  rcases hacc : (callbacks P lib env header).accumulate msg (.ok (freshen env n, [])) with ⟨b, w1⟩
  have hg0 : ∀ c, c = 1 → GoodLogic ⟨c, [header.frame]⟩ := by
    rintro c rfl k t hk
    simp only [List.cons.injEq] at hk
    simp [hk.1]
  -- processing
  have proc : CloudAccum.processAndRestart n.acc.logic header.frame msg (callbacks P lib env header)
        (.ok (freshen env n, [])) = (l, .ok (n2, o2)) →
      GoodLogic l ∧ ∃ n1 b a, measure P lib env (freshen env n) = .ok (n1, o2) ∧
        accumCloud P env header msg (accumClear n1.acc) = .ok (b, a) ∧
        ∃ c, ({ n2 with acc := { n2.acc with logic := l } } : Node C) =
          { n1 with acc := { a with logic := ⟨c, if b then [header.frame] else []⟩ } } := by
    intro hp
    simp only [CloudAccum.processAndRestart, callbacks, Outcome.bind_ok, List.nil_append] at hp
    cases hme : measure P lib env (freshen env n) with
    | throws e => rw [hme] at hp; simp at hp
    | ub e => rw [hme] at hp; simp at hp
    | ok r =>
      obtain ⟨n1, o1⟩ := r
      rw [hme] at hp
      simp only [Outcome.bind_ok] at hp
      cases ha : accumCloud P env header msg (accumClear n1.acc) with
      | ok r =>
        obtain ⟨b, a⟩ := r
        rw [ha] at hp
        cases b with
        | false =>
          simp only [Prod.mk.injEq, Outcome.ok.injEq] at hp
          obtain ⟨rfl, rfl, rfl⟩ := hp
          exact ⟨fun k t hk => by simp [CloudAccum.reset, CloudAccum.St.init] at hk,
            n1, false, a, rfl, ha, _, rfl⟩
        | true =>
          simp only [Prod.mk.injEq, Outcome.ok.injEq] at hp
          obtain ⟨rfl, rfl, rfl⟩ := hp
          exact ⟨hg0 _ rfl, n1, true, a, rfl, ha, _, rfl⟩
      | throws e => rw [ha] at hp; simp at hp
      | ub e => rw [ha] at hp; simp at hp
  have hreset : GoodLogic (CloudAccum.reset n.acc.logic) := fun k t hk => by
    simp [CloudAccum.reset, CloudAccum.St.init] at hk
  rw [CloudAccum.push] at hp
  by_cases h1 : n.acc.logic.keys.length < (accCfg P).accumMax
  · rw [if_pos h1] at hp
    by_cases h2 : n.acc.logic.keys.length = 0 ∨ n.acc.logic.keys.head? ≠ some header.frame
    · rw [if_pos h2] at hp
      rw [hacc] at hp
      obtain ⟨ho, b', a, ha, hl, hn⟩ := plain ⟨if n.acc.logic.keys.length = 0 then 1 else n.acc.logic.cnt,
        n.acc.logic.keys ++ [header.frame]⟩ (CloudAccum.reset n.acc.logic) b w1 hacc
        (by cases b <;> simpa using hp)
      refine ⟨?_, .inr ⟨?_, ho, b', a, ha, l.cnt, by rw [hn]; subst hl; cases b' <;> rfl⟩⟩
      · simp only
        rw [hl]
        cases b' with
        | false => simpa using hreset
        | true =>
          simp only [if_true]
          intro k t hk
          simp only at hk
          rcases hks : n.acc.logic.keys with _ | ⟨k', t'⟩
          · rw [hks] at hk
            simp only [List.nil_append, List.cons.injEq] at hk
            simp [hk.1]
          · rw [hks] at hk h2
            simp only [List.cons_append, List.cons.injEq] at hk
            have hne : header.frame ≠ k := by
              rw [← hk.1]
              rintro rfl
              simp at h2
            have := hg k' t' hks
            rw [hks, hk.1] at this
            simp only [hk.1]
            simp [this, hne, List.count_append]
      · rintro (h3 | ⟨t, h3, _⟩)
        · exact absurd h1 (not_lt.2 h3)
        · rw [h3] at h2; simp at h2
    · rw [if_neg h2] at hp
      push Not at h2
      obtain ⟨t, ht⟩ : ∃ t, n.acc.logic.keys = header.frame :: t := by
        rcases hks : n.acc.logic.keys with _ | ⟨k', t'⟩
        · rw [hks] at h2; simp at h2
        · rw [hks] at h2
          simp only [List.head?_cons, Option.some.injEq] at h2
          exact ⟨t', by rw [h2.2]⟩
      have hcnt := hg _ _ ht
      by_cases h3 : n.acc.logic.cnt < (accCfg P).accum
      · rw [if_pos h3] at hp
        rw [hacc] at hp
        obtain ⟨ho, b', a, ha, hl, hn⟩ := plain ⟨n.acc.logic.cnt + 1, n.acc.logic.keys ++ [header.frame]⟩
          (CloudAccum.reset n.acc.logic) b w1 hacc (by cases b <;> simpa using hp)
        refine ⟨?_, .inr ⟨?_, ho, b', a, ha, l.cnt, by rw [hn]; subst hl; cases b' <;> rfl⟩⟩
        · simp only
          rw [hl]
          cases b' with
          | false => simpa using hreset
          | true =>
            simp only [if_true]
            intro k t' hk
            simp only at hk
            rw [ht] at hk
            simp only [List.cons_append, List.cons.injEq] at hk
            simp only [← hk.1]
            rw [hcnt]
            simp [List.count_append]
        · rintro (h4 | ⟨t', _, h4⟩)
          · exact absurd h1 (not_lt.2 h4)
          · rw [← hcnt] at h4
            exact absurd h3 (not_lt.2 h4)
      · rw [if_neg h3] at hp
        obtain ⟨hl, hpr⟩ := proc (by simpa only [Outcome.ok.injEq] using hp)
        refine ⟨hl, .inl ⟨.inr ⟨t, ht, ?_⟩, by rw [ht]; simp, hpr⟩⟩
        rw [← hcnt]
        exact not_lt.1 h3
  · rw [if_neg h1] at hp
    cases hk : n.acc.logic.keys with
    | nil => rw [hk] at hp; simp at hp
    | cons k ks =>
      rw [hk] at hp
      obtain ⟨hl, hpr⟩ := proc (by simpa only [Outcome.ok.injEq] using hp)
      exact ⟨hl, .inl ⟨.inl (by rw [← hk]; exact not_lt.1 h1), by simp, hpr⟩⟩

theorem keysComplete_iff {P : Params} {b : List Scan} {frame : String} :
    keysComplete P (b.map fun s => s.header.frame) frame ↔ completes P b frame := by
  have hcount : (b.map fun s => s.header.frame).count frame =
      (b.filter fun s => s.header.frame = frame).length := by
    induction b with
    | nil => rfl
    | cons s b ih =>
      rw [List.map_cons, List.count_cons, ih, List.filter_cons]
      by_cases h : s.header.frame = frame <;> simp [h]
  unfold keysComplete completes
  rw [hcount, List.length_map]
  refine or_congr Iff.rfl ⟨?_, ?_⟩
  · rintro ⟨t, ht, hc⟩
    cases b with
    | nil => simp at ht
    | cons s b =>
      simp only [List.map_cons, List.cons.injEq] at ht
      exact ⟨s, b, rfl, ht.1, hc⟩
  · rintro ⟨s, t, rfl, rfl, hc⟩
    exact ⟨_, rfl, hc⟩

/-- The accumulation members hold the clouds collected. -/
structure BInv (P : Params) (v : Bool × List Scan) (n : Node C) : Prop where
  map : n.map.hasMap = v.1
  acc : P.accumCloud ≠ 0 → GoodLogic n.acc.logic ∧ n.acc.headers = v.2.map Scan.header ∧
    n.acc.logic.keys = v.2.map (fun s => s.header.frame) ∧ (v.1 = true → n.acc.cloud = some (labelled v.2))

theorem labelled_single (s : Scan) : labelled [s] = s.points.map fun p => (⟨p, 0⟩ : Point) := by
  simp [labelled]

theorem accumClear_eq (a : AccSt) : accumClear a = { a with cloud := some [], headers := [] } := rfl

/-- Accumulating into empty members. -/
theorem accumCloud_clear {P : Params} {env : Env} {header : Header} {msg : Conv.Msg} {a a' : AccSt} {b : Bool}
    (hr : Regular msg) (h : accumCloud P env header msg (accumClear a) = .ok (b, a')) :
    b = (scanOf P env header msg).isSome ∧ a'.headers = (scanOf P env header msg).toList.map Scan.header ∧
      a'.cloud = some (labelled (scanOf P env header msg).toList) ∧
      (scanOf P env header msg).toList.map (fun s => s.header.frame) = if b then [header.frame] else [] := by
  rcases accumCloud_scan hr h with ⟨h1, rfl, rfl⟩ | ⟨s, c, h1, h2, rfl, h4, rfl⟩
  · rw [h1]
    exact ⟨rfl, rfl, rfl, rfl⟩
  · rw [h1]
    rw [accumClear_eq] at h4
    simp only [Option.some.injEq] at h4
    subst h4
    refine ⟨rfl, by simp [accumClear_eq, h2], ?_, by simp [h2]⟩
    simp [accumClear_eq, labelled_single]

theorem batchStep_other {P : Params} {v : Bool} {b : List Scan} {ev : Event} {env : Env}
    (h1 : ∀ s m, ev ≠ .mapcloud s m) (h2 : ∀ f, ev ≠ .loadPcd f) (h3 : ∀ h m, ev ≠ .cloud h m) :
    batchStep P v b (ev, env) = (none, b) ∧ mapAvailable v ev = v := by
  cases ev with
  | mapcloud s m => exact absurd rfl (h1 s m)
  | loadPcd f => exact absurd rfl (h2 f)
  | cloud h m => exact absurd rfl (h3 h m)
  | _ => exact ⟨rfl, rfl⟩

/-- One event: what it does to the batch, and what is measured. -/
theorem step_batch {P : Params} {lib : Lib C} {env : Env} {n n' : Node C} {ev : Event} {o : List Out}
    {v : Bool × List Scan} (hi : BInv P v n) (hr : ∀ header msg, ev = .cloud header msg → Regular msg)
    (h : step P lib env n ev = .ok (n', o)) :
    BInv P (mapAvailable v.1 ev, (batchStep P v.1 v.2 (ev, env)).2) n' ∧
    ((batchStep P v.1 v.2 (ev, env)).1 = none → ∀ x ∈ o, x.Minor) ∧
    ∀ bb, (batchStep P v.1 v.2 (ev, env)).1 = some bb → bb ≠ [] ∧ ∃ acc c,
      acc.headers = bb.map Scan.header ∧ acc.cloud = some (labelled bb) ∧
      measureCore P lib env n.map n.odo n.stdWarn acc (freshen env n).loc n.cnt = .ok (n'.cnt, c, n'.loc, o) := by
  have hload : ∀ {stamp pts n' o}, loadMapCloud P env n stamp pts = .ok (n', o) → BInv P (true, []) n' := by
    intro stamp pts n' o h
    obtain ⟨m, hm, rfl⟩ := loadMapCloud_ok h
    refine ⟨(mapTimer_ok hm).1, fun _ => ⟨fun k t hk => ?_, rfl, rfl, fun _ => rfl⟩⟩
    simp [CloudAccum.reset, CloudAccum.St.init] at hk
  have hother : (∀ h m, ev ≠ .cloud h m) → (∀ s m, ev ≠ .mapcloud s m) → (∀ f, ev ≠ .loadPcd f) →
      n'.map.hasMap = n.map.hasMap → n'.acc = n.acc → BInv P (mapAvailable v.1 ev, (batchStep P v.1 v.2 (ev, env)).2) n' ∧
      ((batchStep P v.1 v.2 (ev, env)).1 = none → ∀ x ∈ o, x.Minor) ∧
      ∀ bb, (batchStep P v.1 v.2 (ev, env)).1 = some bb → bb ≠ [] ∧ ∃ acc c,
        acc.headers = bb.map Scan.header ∧ acc.cloud = some (labelled bb) ∧
        measureCore P lib env n.map n.odo n.stdWarn acc (freshen env n).loc n.cnt = .ok (n'.cnt, c, n'.loc, o) := by
    intro h1 h2 h3 hmap hacc
    obtain ⟨e1, e2⟩ := batchStep_other (P := P) (v := v.1) (b := v.2) (env := env) h2 h3 h1
    rw [e1, e2]
    exact ⟨⟨by rw [hmap]; exact hi.map, by rw [hacc]; exact hi.acc⟩, fun _ => step_minor h h1, by simp⟩
  cases ev with
  | mapcloud stamp msg =>
    refine ⟨?_, fun _ => step_minor h (by simp), by simp [batchStep]⟩
    simp only [batchStep, mapAvailable]
    rcases cbMapcloud_ok h with ⟨hc, rfl, _⟩ | ⟨hc, hl⟩
    · rw [fromROSMsg_valid] at hc
      rw [hc]
      exact ⟨rfl, fun hP => ⟨(hi.acc hP).1, (hi.acc hP).2.1, (hi.acc hP).2.2.1, by simp⟩⟩
    · rw [fromROSMsg_valid] at hc
      rw [hc]
      exact hload hl
  | mapcloudUpdate msg =>
    refine hother (by simp) (by simp) (by simp) ?_ ?_ <;>
    · simp only [step, Outcome.ok.injEq, Prod.mk.injEq] at h
      rw [← h.1]
      simp only [cbMapcloudUpdate]
      split <;> rfl
  | loadPcd file =>
    refine ⟨?_, fun _ => step_minor h (by simp), by cases file <;> simp [batchStep]⟩
    rcases cbLoadPcd_ok h with ⟨rfl, rfl, _⟩ | ⟨pts, _, rfl, hl, _⟩
    · exact ⟨rfl, fun hP => ⟨(hi.acc hP).1, (hi.acc hP).2.1, (hi.acc hP).2.2.1, by simp [mapAvailable]⟩⟩
    · exact hload hl
  | timer =>
    obtain ⟨⟨m, o'⟩, hm, h'⟩ := Outcome.bind_eq_ok_iff.1 h
    simp only [Outcome.ok.injEq, Prod.mk.injEq] at h'
    refine hother (by simp) (by simp) (by simp) ?_ ?_
    · rw [← h'.1]; exact (mapTimer_ok hm).1
    · rw [← h'.1]
  | cloud header msg =>
    have hreg := hr header msg rfl
    obtain ⟨hmap, _⟩ := cbCloud_loc h
    cases hm : n.map.hasMap with
    | false =>
      have hv : v.1 = false := by rw [← hi.map, hm]
      rw [step, cbCloud_noMap hm] at h
      simp only [Outcome.ok.injEq, Prod.mk.injEq] at h
      obtain ⟨rfl, rfl⟩ := h
      have e1 : batchStep P v.1 v.2 (.cloud header msg, env) = (none, v.2) := by simp [batchStep, hv]
      rw [e1]
      exact ⟨⟨hi.map, hi.acc⟩, by simp, by simp⟩
    | true =>
      have hv : v.1 = true := by rw [← hi.map, hm]
      by_cases hP : P.accumCloud = 0
      · have e1 : batchStep P v.1 v.2 (.cloud header msg, env) =
            ((scanOf P env header msg).map fun s => [s], []) := by simp [batchStep, hv, hP]
        rw [e1]
        refine ⟨⟨by rw [hmap]; exact hi.map, fun h => absurd hP h⟩, ?_⟩
        rcases cbCloud_ok hm h with ⟨h0, _⟩ | ⟨_, rfl, a, ha, rfl⟩ | ⟨_, a, ha, hme⟩ | ⟨h0, _⟩
        · exact absurd hP h0
        · have := (accumCloud_clear hreg ha).1
          refine ⟨by simp, fun bb hbb => ?_⟩
          rw [Option.map_eq_some_iff] at hbb
          obtain ⟨s, hs, _⟩ := hbb
          rw [hs] at this
          simp at this
        · obtain ⟨h1, h2, h3, _⟩ := accumCloud_clear hreg ha
          obtain ⟨c, hc, hn⟩ := measure_ok hme
          refine ⟨fun hnone => ?_, fun bb hbb => ?_⟩
          · simp only [Option.map_eq_none_iff] at hnone
            rw [hnone] at h1
            simp at h1
          · rw [Option.map_eq_some_iff] at hbb
            obtain ⟨s, hs, rfl⟩ := hbb
            rw [hs] at h2 h3
            exact ⟨by simp, a, c, h2, h3, hc⟩
        · exact absurd hP h0
      · obtain ⟨hgood, hheaders, hkeys, hcloud⟩ := hi.acc hP
        obtain ⟨hgood', hcase⟩ := cbCloud_accum hm hP hgood h
        rw [hkeys] at hcase
        rcases hcase with ⟨hcomp, hne, n1, b, a, hme, ha, c, rfl⟩ | ⟨hcomp, rfl, b, a, ha, c, rfl⟩
        · rw [keysComplete_iff] at hcomp
          have e1 : batchStep P v.1 v.2 (.cloud header msg, env) =
              (some v.2, (scanOf P env header msg).toList) := by simp [batchStep, hv, hP, hcomp]
          rw [e1]
          obtain ⟨h1, h2, h3, h4⟩ := accumCloud_clear hreg ha
          refine ⟨⟨by rw [hmap]; exact hi.map, fun _ => ⟨hgood', h2, h4.symm, fun _ => h3⟩⟩, by simp, fun bb hbb => ?_⟩
          simp only [Option.some.injEq] at hbb
          subst hbb
          obtain ⟨c, hc, hn⟩ := measure_ok hme
          exact ⟨fun e => hne (by rw [e]; rfl), n.acc, c, hheaders, hcloud hv, hc⟩
        · rw [keysComplete_iff] at hcomp
          have e1 : batchStep P v.1 v.2 (.cloud header msg, env) =
              (none, match scanOf P env header msg with
                | some s => v.2 ++ [s]
                | none => []) := by
            simp only [batchStep, hv, if_true]
            rw [if_neg hP, if_neg hcomp]
            rfl
          rw [e1]
          refine ⟨⟨by rw [hmap]; exact hi.map, fun _ => ?_⟩, by simp, by simp⟩
          rcases accumCloud_scan hreg ha with ⟨h1, rfl, rfl⟩ | ⟨s, c', h1, h2, rfl, h4, rfl⟩
          · rw [h1]
            exact ⟨hgood', rfl, rfl, fun _ => rfl⟩
          · rw [h1]
            rw [hcloud hv] at h4
            simp only [Option.some.injEq] at h4
            subst h4
            refine ⟨hgood', by simp [hheaders, h2], by simp [h2], fun _ => ?_⟩
            simp [labelled_append, hheaders]
  | odom msg =>
    obtain ⟨h1, h2, _⟩ := sensor_frame _ h
    exact hother (by simp) (by simp) (by simp) (by rw [h1]) h2
  | imu msg =>
    obtain ⟨h1, h2, _⟩ := sensor_frame _ h
    exact hother (by simp) (by simp) (by simp) (by rw [h1]) h2
  | initialpose msg =>
    refine hother (by simp) (by simp) (by simp) ?_ ?_ <;>
    · rcases cbPosition_ok h with ⟨rfl, _⟩ | ⟨_, _, _, _, rfl, _⟩ <;> rfl
  | landmark msg =>
    obtain ⟨pf, _, hn, _⟩ := cbLandmark_ok h
    exact hother (by simp) (by simp) (by simp) (by rw [hn]) (by rw [hn])
  | resize size =>
    obtain ⟨pf, _, hn, _⟩ := cbResize_ok h
    exact hother (by simp) (by simp) (by simp) (by rw [hn]) (by rw [hn])
  | expansionReset =>
    obtain ⟨pf, _, hn, _⟩ := cbExpansionReset_ok h
    exact hother (by simp) (by simp) (by simp) (by rw [hn]) (by rw [hn])
  | globalLocalization =>
    refine hother (by simp) (by simp) (by simp) ?_ ?_ <;>
    · rcases cbGlobalLocalization_ok h with ⟨_, rfl, _⟩ | ⟨_, _, _, _, _, _, _, rfl, _⟩ <;> rfl
  | reconfigure w =>
    simp only [step, Outcome.ok.injEq, Prod.mk.injEq] at h
    exact hother (by simp) (by simp) (by simp) (by rw [← h.1]) (by rw [← h.1])

theorem start_batch {P : Params} {lib : Lib C} {env : Env} {motion0 : Motion ℝ} {n : Node C}
    (h : start P lib env motion0 = .ok n) : BInv P (false, []) n := by
  obtain ⟨_, ns, _, rfl⟩ := start_ok h
  exact ⟨rfl, fun _ => ⟨fun k t hk => by simp [CloudAccum.St.init] at hk, rfl, rfl, by simp⟩⟩

end Node
end Mcl3dl
