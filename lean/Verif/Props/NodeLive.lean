import Verif.Spec.NodeLive
import Verif.Props.NodeBatch
import Verif.Props.NodeStatus
import Verif.Props.NodeDemoPose

/-!
# C160: measurements keep coming

With a map and usable clouds, at most `skip_measure` batches of at most `total_accum_cloud_max` clouds pass before a
measurement is made, whatever else happens and however the sensors take turns.
-/

set_option linter.unusedSectionVars false

namespace Mcl3dl
namespace Node

variable {C : Type}

theorem batches_append (a b : List (List Out)) : batches (a ++ b) = batches a ++ batches b := by
  simp [batches]

/-- A callback ends at most one batch. -/
theorem step_ends {P : Params} {lib : Lib C} {env : Env} {n n' : Node C} {ev : Event} {o : List Out}
    {v : Bool × List Scan} (hi : BInv P v n) (hreg : ∀ header msg, ev = .cloud header msg → Regular msg)
    (h : step P lib env n ev = .ok (n', o)) :
    ((batchStep P v.1 v.2 (ev, env)).1 = none ∧ batches [o] = []) ∨
    ((batchStep P v.1 v.2 (ev, env)).1 ≠ none ∧ ∃ b, batches [o] = [b]) := by
  obtain ⟨_, hnone, hsome⟩ := step_batch hi hreg h
  cases hb : (batchStep P v.1 v.2 (ev, env)).1 with
  | none =>
    refine .inl ⟨rfl, ?_⟩
    simp only [batches, List.flatten_cons, List.flatten_nil, List.append_nil, List.filterMap_eq_nil_iff]
    intro x hx
    have := hnone hb x hx
    cases x <;> first | rfl | exact absurd this id
  | some bb =>
    refine .inr ⟨by simp, ?_⟩
    obtain ⟨hne, acc, c, _, _, hcore⟩ := hsome bb hb
    obtain ⟨_, _, ⟨_, _, _, ho⟩ | ⟨_, hme⟩⟩ := measureCore_ok hcore
    · exact ⟨false, by rw [ho]; rfl⟩
    · refine ⟨true, ?_⟩
      generalize n'.loc = loc2 at hme
      cases hme with
      | noHeader _ => rfl
      | noTf _ _ _ => rfl
      | noOrigin _ _ _ _ => rfl
      | noPoints _ _ _ _ _ => rfl
      | localized _ p _ _ _ _ _ hl =>
        obtain ⟨r, _, _, _, _, _, hmo, _, _, _, _, _, houts⟩ := localize_ok hl
        exact (localized_outs (P := P) (warn := 0) (matchOutput_only hmo)
          (congrArg (Out.batch true :: ·) houts)).2

/-- The clouds collected are never more than allowed. -/
def Collected (P : Params) (b : List Scan) : Prop := b.length ≤ batchMax P ∧ (P.accumCloud = 0 → b = [])

theorem batchStep_collected {P : Params} (hM : 0 < batchMax P) {av : Bool} {b : List Scan} (hb : Collected P b)
    (e : Event × Env) : Collected P (batchStep P av b e).2 := by
  obtain ⟨ev, env⟩ := e
  have nil : Collected P [] := ⟨Nat.zero_le _, fun _ => rfl⟩
  cases ev <;> simp only [batchStep] <;> try exact hb
  · split_ifs; exacts [nil, hb]
  · rename_i f; cases f; exacts [hb, nil]
  · rename_i header msg
    by_cases hav : av = true
    · rw [if_pos hav]
      by_cases h0 : P.accumCloud = 0
      · rw [if_pos h0]; exact nil
      rw [if_neg h0]
      have one : ∀ s : Scan, Collected P [s] := fun s => ⟨hM, fun h => absurd h h0⟩
      by_cases hc : completes P b header.frame
      · rw [if_pos hc]
        cases scanOf P env header msg
        · exact nil
        · exact one _
      · rw [if_neg hc]
        cases scanOf P env header msg
        · exact nil
        · refine ⟨?_, fun h => absurd h h0⟩
          have : ¬ Params.toSize P.totalAccumCloudMax ≤ b.length := fun h => hc (.inl h)
          simp only [batchMax, if_neg h0, List.length_append, List.length_singleton]
          omega
    · rw [if_neg hav]; exact hb

theorem batchView_collected {P : Params} (hM : 0 < batchMax P) (h : History) : Collected P (batchView P h).2 := by
  induction h using List.reverseRecOn with
  | nil => exact ⟨Nat.zero_le _, fun _ => rfl⟩
  | append_singleton h e ih =>
    simp only [batchView, List.foldl_append, List.foldl_cons, List.foldl_nil] at ih ⊢
    exact batchStep_collected hM ih e

theorem batchView_fst (P : Params) (h : History) : (batchView P h).1 = (h.map Prod.fst).foldl mapAvailable false := by
  induction h using List.reverseRecOn with
  | nil => rfl
  | append_singleton h e ih =>
    simp only [batchView, List.foldl_append, List.foldl_cons, List.foldl_nil, List.map_append, List.map_cons,
      List.map_nil] at ih ⊢
    rw [ih]

/-- What a usable cloud does: it is added, or it ends a batch. -/
theorem batchStep_gain {P : Params} {b : List Scan} (hM : 0 < batchMax P) (hb : Collected P b) {header : Header}
    {msg : Conv.Msg} {env : Env} (hs : scanOf P env header msg ≠ none) :
    ((batchStep P true b (.cloud header msg, env)).1 = none ∧
      (batchStep P true b (.cloud header msg, env)).2.length = b.length + 1) ∨
    ((batchStep P true b (.cloud header msg, env)).1 ≠ none ∧
      b.length + 1 ≤ (batchStep P true b (.cloud header msg, env)).2.length + batchMax P) := by
  obtain ⟨s, hs⟩ := Option.ne_none_iff_exists'.1 hs
  simp only [batchStep, if_true, hs]
  by_cases h0 : P.accumCloud = 0
  · rw [if_pos h0]
    right
    rw [hb.2 h0]
    simpa using Nat.succ_le_of_lt hM
  · rw [if_neg h0]
    by_cases hc : completes P b header.frame
    · rw [if_pos hc]
      right
      have := hb.1
      simp
      omega
    · rw [if_neg hc]
      left
      simp

theorem live {P : Params} (hM : 0 < batchMax P) {lib : Lib C} {t : History} {n n' : Node C} {outs : List (List Out)}
    {v : Bool × List Scan} (hi : BInv P v n) (hv : v.1 = true) (hc : Collected P v.2) (hreg : RegularClouds t)
    (hk : KeepsMap t) (hu : UsableClouds P t) (hr : run P lib n t = .ok (n', outs)) :
    ∃ l ≤ batchMax P, v.2.length + cloudCount t ≤ (batches outs).length * batchMax P + l := by
  induction t generalizing n outs v with
  | nil => exact ⟨v.2.length, hc.1, by simp [cloudCount]⟩
  | cons e t ih =>
    obtain ⟨ev, env⟩ := e
    obtain ⟨n1, o, os, h1, h2, rfl⟩ := run_cons_ok hr
    have hreg1 : ∀ header msg, ev = .cloud header msg → Regular msg := hreg (ev, env) (by simp)
    have hk1 := hk (ev, env) (by simp)
    obtain ⟨b1, _, _⟩ := step_batch hi hreg1 h1
    have hav : mapAvailable v.1 ev = true := by
      rw [hv]
      cases ev <;> first | rfl | exact absurd rfl (hk1.1 _ _) | exact absurd rfl (hk1.2 _)
    obtain ⟨l, hl, hle⟩ := ih b1 hav (batchStep_collected hM hc _) (fun e he => hreg e (by simp [he]))
      (fun e he => hk e (by simp [he])) (fun e he => hu e (by simp [he])) h2
    refine ⟨l, hl, ?_⟩
    rw [batches_cons, List.length_append]
    have hends := step_ends hi hreg1 h1
    rw [hv] at hends
    replace hle : (batchStep P true v.2 (ev, env)).2.length + cloudCount t ≤ (batches os).length * batchMax P + l := by
      rw [hv] at hle; exact hle
    by_cases hcl : ∃ header msg, ev = .cloud header msg
    · obtain ⟨header, msg, rfl⟩ := hcl
      have hcount : cloudCount ((.cloud header msg, env) :: t) = cloudCount t + 1 := by simp [cloudCount]
      rw [hcount]
      rcases hends with ⟨a, ho⟩ | ⟨a, b, ho⟩ <;> rw [ho] <;>
        rcases batchStep_gain (env := env) hM hc (hu (.cloud header msg, env) (by simp) header msg rfl) with ⟨c1, c2⟩ | ⟨c1, c2⟩
      · simp only [List.length_nil, Nat.zero_add]; omega
      · exact absurd a c1
      · exact absurd c1 a
      · simp only [List.length_singleton, Nat.add_mul, Nat.one_mul]; omega
    · have hcount : cloudCount ((ev, env) :: t) = cloudCount t := by
        cases ev <;> first | exact absurd ⟨_, _, rfl⟩ hcl | simp [cloudCount]
      have hsame : (batchStep P true v.2 (ev, env)).2 = v.2 := by
        cases ev <;> first | rfl | exact absurd rfl (hk1.1 _ _) | exact absurd rfl (hk1.2 _) | exact absurd ⟨_, _, rfl⟩ hcl
      rw [hcount]
      rw [hsame] at hle
      refine le_trans hle ?_
      rw [Nat.add_mul]
      omega

theorem batches_le {P : Params} {lib : Lib C} {t : History} {n n' : Node C} {outs : List (List Out)}
    {v : Bool × List Scan} (hi : BInv P v n) (hreg : RegularClouds t) (hr : run P lib n t = .ok (n', outs)) :
    (batches outs).length ≤ t.length := by
  induction t generalizing n outs v with
  | nil =>
    simp only [run, Outcome.ok.injEq, Prod.mk.injEq] at hr
    rw [← hr.2]; simp [batches]
  | cons e t ih =>
    obtain ⟨ev, env⟩ := e
    obtain ⟨n1, o, os, h1, h2, rfl⟩ := run_cons_ok hr
    have hreg1 : ∀ header msg, ev = .cloud header msg → Regular msg := hreg (ev, env) (by simp)
    obtain ⟨b1, _, _⟩ := step_batch hi hreg1 h1
    have := ih b1 (fun e he => hreg e (by simp [he])) h2
    rw [batches_cons, List.length_append, List.length_cons]
    rcases step_ends hi hreg1 h1 with ⟨_, ho⟩ | ⟨_, b, ho⟩ <;> rw [ho] <;> simp <;> omega

/-- C160: once there is a map, of any `skip_measure * batchMax + 1` successive usable clouds one triggers a
measurement, whatever other events happen in between (except new maps). -/
theorem C160_measures {P : Params} (hskip : 0 < P.skipMeasure) (hskip' : P.skipMeasure < 2 ^ 31) (hM : 0 < batchMax P)
    {lib : Lib C} {env0 : Env} {motion0 : Motion ℝ} {h t : History} (hv : HistValid (h ++ t))
    (hreg : RegularClouds (h ++ t)) {n0 n1 n : Node C} {outs outsT : List (List Out)}
    (hs : start P lib env0 motion0 = .ok n0) (hr : run P lib n0 h = .ok (n1, outs))
    (hrt : run P lib n1 t = .ok (n, outsT)) (hmap : (h.map Prod.fst).foldl mapAvailable false = true) (hk : KeepsMap t)
    (hu : UsableClouds P t) (hcount : P.skipMeasure.toNat * batchMax P + 1 ≤ cloudCount t)
    (hlen : h.length + t.length < 2 ^ 64) : true ∈ batches outsT := by
  have hregh : RegularClouds h := fun e he => hreg e (List.mem_append_left _ he)
  have hregt : RegularClouds t := fun e he => hreg e (List.mem_append_right _ he)
  have hi := run_batchView hregh hr (start_batch hs)
  have hav : (batchView P h).1 = true := by
    rw [← hmap]
    exact batchView_fst P h
  obtain ⟨l, hl, hle⟩ := live hM (v := batchView P h) hi hav (batchView_collected hM h) hregt hk hu hrt
  have hr2 : run P lib n0 (h ++ t) = .ok (n, outs ++ outsT) := by
    rw [run_append, hr]
    simp only [Outcome.bind, hrt]
  have hB : (batches outs).length ≤ h.length := batches_le (start_batch hs) hregh hr
  have hT : (batches outsT).length ≤ t.length := batches_le hi hregt hrt
  set S := P.skipMeasure.toNat with hS
  have hSi : (S : ℤ) = P.skipMeasure := Int.toNat_of_nonneg hskip.le
  have hS0 : 0 < S := by omega
  have hmany : S ≤ (batches outsT).length := by
    by_contra hlt
    have : (batches outsT).length * batchMax P ≤ (S - 1) * batchMax P := Nat.mul_le_mul_right _ (by omega)
    have h2 : (S - 1) * batchMax P + batchMax P = S * batchMax P := by
      rw [← Nat.succ_mul]; congr 1; omega
    omega
  -- a multiple of `skip_measure` among the numbers of the next batches
  set B := (batches outs).length with hBd
  obtain ⟨i, hi1, hi2⟩ : ∃ i < S, S ∣ B + i + 1 := by
    refine ⟨S - 1 - B % S, by omega, ?_⟩
    have h1 := Nat.mod_lt B hS0
    have h2 := Nat.div_add_mod B S
    refine ⟨B / S + 1, ?_⟩
    rw [Nat.mul_add, Nat.mul_one]
    omega
  have hget : (batches (outs ++ outsT))[B + i]? = (batches outsT)[i]? := by
    rw [batches_append, List.getElem?_append_right (by omega)]
    congr 1
    omega
  have hlt : i < (batches outsT).length := by omega
  rw [List.getElem?_eq_getElem hlt] at hget
  have hC := (C89_every_nth hv hs hr2 hskip hskip' (k := B + i) (by omega) hget).2 (by
    rw [← hSi]
    exact_mod_cast hi2)
  rw [← hC]
  exact List.getElem_mem _

theorem true_mem_batches {outs : List (List Out)} (h : true ∈ batches outs) : ∃ o ∈ outs, true ∈ batches [o] := by
  simp only [batches, List.mem_filterMap, List.mem_flatten] at h ⊢
  obtain ⟨x, ⟨o, ho, hx⟩, hb⟩ := h
  exact ⟨o, ho, x, ⟨o, by simp, hx⟩, hb⟩

/-- The callback that published something. -/
theorem run_mem {P : Params} {lib : Lib C} {t : History} {n n' : Node C} {outs : List (List Out)}
    (hr : run P lib n t = .ok (n', outs)) {o : List Out} (ho : o ∈ outs) :
    ∃ t1 e t2 n1 n2 os, t = t1 ++ e :: t2 ∧ run P lib n t1 = .ok (n1, os) ∧ step P lib e.2 n1 e.1 = .ok (n2, o) := by
  induction t generalizing n outs with
  | nil =>
    simp only [run, Outcome.ok.injEq, Prod.mk.injEq] at hr
    rw [← hr.2] at ho; simp at ho
  | cons e t ih =>
    obtain ⟨ev, env⟩ := e
    obtain ⟨n1, o', os, h1, h2, rfl⟩ := run_cons_ok hr
    rcases List.mem_cons.1 ho with rfl | ho
    · exact ⟨[], (ev, env), t, n, n1, [], rfl, rfl, h1⟩
    · obtain ⟨t1, e, t2, a, b, os', rfl, h3, h4⟩ := ih h2 ho
      refine ⟨(ev, env) :: t1, e, t2, a, b, o' :: os', rfl, ?_, h4⟩
      simp only [run, h1, Outcome.bind, h3]

/-- C160: if also the transforms are known, a status is published, with a pose in the map frame unless no point is
in range of the likelihood model. -/
theorem C160_published {P : Params} (hpts : 0 < P.like.numDefault ∧ 0 < P.like.numGlobal) (hskip : 0 < P.skipMeasure)
    (hskip' : P.skipMeasure < 2 ^ 31) (hM : 0 < batchMax P) {lib : Lib C} {env0 : Env} (hv0 : env0.Valid)
    {motion0 : Motion ℝ} {h t : History} (hv : HistValid (h ++ t)) (hreg : RegularClouds (h ++ t))
    {n0 n1 n : Node C} {outs outsT : List (List Out)}
    (hs : start P lib env0 motion0 = .ok n0) (hr : run P lib n0 h = .ok (n1, outs))
    (hrt : run P lib n1 t = .ok (n, outsT)) (hmap : (h.map Prod.fst).foldl mapAvailable false = true) (hk : KeepsMap t)
    (hu : UsableClouds P t) (htf : ∀ e ∈ t, TfKnown e.2)
    (hcount : P.skipMeasure.toNat * batchMax P + 1 ≤ cloudCount t) (hlen : h.length + t.length < 2 ^ 64) :
    ∃ o ∈ outsT, ∃ st ent lev, .status st ent lev ∈ o ∧
      (st.error = .pointsNotFound ∨
        (st.error = .normal ∧ ∃ stamp pos rot cov, .pose stamp P.mapFrame pos rot cov ∈ o)) := by
  obtain ⟨o, ho, hb⟩ := true_mem_batches
    (C160_measures hskip hskip' hM hv hreg hs hr hrt hmap hk hu hcount hlen)
  obtain ⟨t1, e, t2, a, b, os, rfl, h1, h2⟩ := run_mem hrt ho
  refine ⟨o, ho, ?_⟩
  have hsub : ∀ x ∈ h ++ t1 ++ [e], x ∈ h ++ (t1 ++ e :: t2) := by
    intro x hx
    simp only [List.mem_append, List.mem_cons, List.not_mem_nil, or_false] at hx ⊢
    tauto
  have hr2 : run P lib n0 (h ++ t1 ++ [e]) = .ok (b, (outs ++ os) ++ [o]) := by
    rw [List.append_assoc, run_append, hr]
    simp only [Outcome.bind]
    rw [run_append, h1]
    obtain ⟨ev, env⟩ := e
    simp only [Outcome.bind, run, h2, List.append_assoc]
  have hreg2 : RegularClouds (h ++ t1 ++ [e]) := fun x hx => hreg x (hsub x hx)
  have hv2 : HistValid (h ++ t1 ++ [e]) := fun x hx => hv x (hsub x hx)
  rcases C111_batches hreg2 hs hr2 with ⟨_, hno⟩ | ⟨bb, s, hbs, hm⟩
  · simp only [batches, List.flatten_cons, List.flatten_nil, List.append_nil, List.mem_filterMap] at hb
    obtain ⟨x, hx, hxb⟩ := hb
    rw [(hno x hx).1] at hxb
    simp at hxb
  have hm : batches [o] = [true] := by
    rcases hm with hm | hm
    · exact hm
    · rw [hm] at hb; simp [batches, Out.batchOf] at hb
  obtain ⟨b0, s0, hb0⟩ : ∃ b0 s0, s :: bb = b0 ++ [s0] := by
    rcases List.eq_nil_or_concat (s :: bb) with h | ⟨b0, s0, h⟩
    · simp at h
    · exact ⟨b0, s0, by simpa using h⟩
  rw [hb0] at hbs
  obtain ⟨_, hC⟩ := C112_measured hpts hv0 hv2 hreg2 hs hr2 hbs hm
  have htf := htf e (by simp)
  obtain ⟨tf, htf'⟩ := Option.ne_none_iff_exists'.1 (htf.1 P.baseFrame P.odomFrame s0.header.stamp)
  obtain ⟨c1, c2⟩ := hC ⟨htf.1 _ _ _, fun _ _ => htf.2 _ _ _ _ _⟩ tf htf'
  by_cases hus : usablePoints P e.2 tf (b0 ++ [s0]) = []
  · obtain ⟨st, ent, lev, ho, hst⟩ := c1 hus
    exact ⟨st, ent, lev, by rw [ho]; simp, .inl hst⟩
  · obtain ⟨⟨pos, rot, cov, hp⟩, st, ent, lev, hmem, hst⟩ := c2 hus
    refine ⟨st, ent, lev, hmem, .inr ⟨hst, s0.header.stamp, pos, rot, cov, ?_⟩⟩
    have : Out.pose s0.header.stamp P.mapFrame pos rot cov ∈ o.filter (fun x => (Out.poseCov x).isSome) := by
      rw [hp]; simp
    exact (List.mem_filter.1 this).1

/-- After a map, eleven clouds: with the default parameters one of them triggers a measurement. -/
example : ∃ n0 n1 n outs outsT, start Demo.P0 Demo.exactLib (Demo.env 0) Demo.motion0 = .ok n0 ∧
    run Demo.P0 Demo.exactLib n0 [(.mapcloud 1 (Demo.msg 10), Demo.env 1)] = .ok (n1, outs) ∧
    run Demo.P0 Demo.exactLib n1 (List.replicate 11 (.cloud ⟨"laser", 3⟩ (Demo.msg 10), Demo.env 3)) = .ok (n, outsT) ∧
    ∃ o ∈ outsT, ∃ st ent lev, .status st ent lev ∈ o ∧
      (st.error = .pointsNotFound ∨
        (st.error = .normal ∧ ∃ stamp pos rot cov, .pose stamp Demo.P0.mapFrame pos rot cov ∈ o)) := by
  have hx : ∀ x, HasXYZ (Demo.msg x) := by simp [HasXYZ, Demo.msg]
  set h : History := [(.mapcloud 1 (Demo.msg 10), Demo.env 1)] with hh
  set t : History := List.replicate 11 (.cloud ⟨"laser", 3⟩ (Demo.msg 10), Demo.env 3) with ht
  have ht' : ∀ e ∈ t, e = (.cloud ⟨"laser", 3⟩ (Demo.msg 10), Demo.env 3) := fun e he => (List.mem_replicate.1 he).2
  obtain ⟨n0, hs, n, outs, hr, _, _⟩ := Demo.exact_runs (h ++ t) (by
    intro e he
    rcases List.mem_append.1 he with he | he
    · simp only [hh, List.mem_singleton] at he
      subst he
      exact ⟨Demo.env_valid 1, Demo.keeps 1, by simp [SafeEvent]⟩
    · rw [ht' e he]
      exact ⟨Demo.env_valid 3, Demo.keeps 3, by simp [SafeEvent, hx]⟩)
  rw [run_append] at hr
  obtain ⟨⟨n1, os⟩, h1, hr⟩ := Outcome.bind_eq_ok_iff.1 hr
  obtain ⟨⟨n2, osT⟩, h2, hr⟩ := Outcome.bind_eq_ok_iff.1 hr
  refine ⟨n0, n1, n2, os, osT, hs, h1, h2, ?_⟩
  refine C160_published (h := h) (t := t)
    (by constructor <;> simp [Demo.P0, Params.loadFrom, Params.loadLike, Server.intD, Server.getInt] <;> decide)
    (by simp) (by simp) (by simp [batchMax]; decide) (Demo.env_valid 0) ?_ ?_ hs h1 h2 ?_ ?_ ?_ ?_ ?_ ?_
  · intro e he
    rcases List.mem_append.1 he with he | he
    · simp only [hh, List.mem_singleton] at he
      subst he
      exact Demo.env_valid 1
    · rw [ht' e he]; exact Demo.env_valid 3
  · intro e he header msg hm
    rcases List.mem_append.1 he with he | he
    · simp only [hh, List.mem_singleton] at he
      subst he
      cases hm
    · rw [ht' e he] at hm
      cases hm
      exact Demo.regular_msg 10
  · simp [hh, mapAvailable, Demo.validCloud_msg]
  · intro e he
    rw [ht' e he]
    simp
  · intro e he header msg hm
    rw [ht' e he] at hm ⊢
    cases hm
    simp [Demo.scanOf_msg]
  · intro e he
    rw [ht' e he]
    exact ⟨fun _ _ _ => by simp [Demo.env], fun _ _ _ _ _ => by simp [Demo.env]⟩
  · simp [ht, cloudCount, batchMax]
    decide
  · simp [hh, ht]

end Node
end Mcl3dl
