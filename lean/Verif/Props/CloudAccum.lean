import Verif.Proofs.CloudAccum

/-!
# Properties C01–C09: cloud accumulation

All theorems quantify over the configuration, the frame-id function, the results of `accumulate`
(an arbitrary function of the whole history) and every sequence of calls.
-/

namespace Mcl3dl
namespace CloudAccum

variable {K : Type u} [DecidableEq K] {M : Type v}

open Classical in
/-- Every call sequence is defined when `accum_max > 0`, and the private record agrees with the
caller's buffer in the state it reaches. -/
theorem run_inv (cfg : Cfg) (key : M → K) (ok : List (Ev M) → M → Bool)
    (hmax : 0 < cfg.accumMax) (ops : List (Op M)) (s : St K) (tr : List (Ev M))
    (hI : Inv key s (buffer tr)) :
    ∃ s' tr', run cfg key ok s tr ops = .ok (s', tr') ∧ Inv key s' (buffer tr') := by
  induction ops generalizing s tr with
  | nil => exact ⟨s, tr, rfl, hI⟩
  | cons op ops ih =>
    cases op with
    | push m =>
      obtain ⟨s', r, h, hI'⟩ := push_step cfg key ok s tr m hI hmax
      obtain ⟨s2, tr2, h2, hI2⟩ := ih _ _ hI'
      exact ⟨s2, tr2, by rw [run, h]; exact h2, hI2⟩
    | restart =>
      obtain ⟨s2, tr2, h2, hI2⟩ := ih (reset s) (tr ++ [.clr])
        ⟨by simp [reset, St.init], by simp, fun _ => rfl⟩
      exact ⟨s2, tr2, h2, hI2⟩

theorem inv_init (key : M → K) : Inv key (St.init : St K) (buffer ([] : List (Ev M))) :=
  ⟨rfl, by simp [buffer], fun _ => rfl⟩

theorem run_zero (cfg : Cfg) (key : M → K) (ok : List (Ev M) → M → Bool)
    (hmax : cfg.accumMax = 0) (ops : List (Op M)) (s : St K) (tr s' tr')
    (hk : s.keys = []) (h : run cfg key ok s tr ops = .ok (s', tr')) :
    s'.keys = [] := by
  induction ops generalizing s tr with
  | nil => simp only [run, Outcome.ok.injEq, Prod.mk.injEq] at h; rw [← h.1]; exact hk
  | cons op ops ih =>
    cases op with
    | push m => simp [run, push, hmax, hk] at h
    | restart => exact ih _ _ (by simp [reset, St.init]) h

open Classical in
/-- A push in a reachable state behaves as specified by `pushSpec`. -/
theorem push_reachable {cfg : Cfg} {key : M → K} {ok : List (Ev M) → M → Bool}
    {ops : List (Op M)} {s s' : St K} {tr tr' : List (Ev M)} {m : M}
    (hrun : run cfg key ok St.init [] ops = .ok (s, tr))
    (hpush : push cfg s (key m) m (recorder ok) tr = .ok (s', tr')) :
    0 < cfg.accumMax ∧ Inv key s (buffer tr) ∧ Inv key s' (buffer tr') ∧
    ∃ r, tr' = tr ++ pushSpec (Complete cfg key (buffer tr) m) m r := by
  have hmax : 0 < cfg.accumMax := by
    rcases Nat.eq_zero_or_pos cfg.accumMax with h | h
    · have := run_zero cfg key ok h ops _ _ _ _ rfl hrun
      simp [push, h, this] at hpush
    · exact h
  obtain ⟨s1, tr1, h1, hI⟩ := run_inv cfg key ok hmax ops St.init [] (inv_init key)
  rw [h1] at hrun
  simp only [Outcome.ok.injEq, Prod.mk.injEq] at hrun
  obtain ⟨rfl, rfl⟩ := hrun
  obtain ⟨s2, r, h2, hI2⟩ := push_step cfg key ok s1 tr1 m hI hmax
  rw [h2] at hpush
  simp only [Outcome.ok.injEq, Prod.mk.injEq] at hpush
  obtain ⟨rfl, rfl⟩ := hpush
  exact ⟨hmax, hI, hI2, r, rfl⟩

/-- **C01**: in every reachable state, and again after the next push, the frame ids recorded by
the logic are exactly those of the caller's buffer; a batch processed by that push is the buffer
as it was before the push (and therefore has exactly the recorded frame ids). -/
theorem C01_batch_is_recorded {cfg : Cfg} {key : M → K} {ok : List (Ev M) → M → Bool}
    {ops : List (Op M)} {s s' : St K} {tr tr' : List (Ev M)} {m : M}
    (hrun : run cfg key ok St.init [] ops = .ok (s, tr))
    (hpush : push cfg s (key m) m (recorder ok) tr = .ok (s', tr')) :
    s.keys = (buffer tr).map key ∧ s'.keys = (buffer tr').map key ∧
    (batches tr' = batches tr ∨ batches tr' = batches tr ++ [buffer tr]) := by
  classical
  obtain ⟨-, hI, hI', r, rfl⟩ := push_reachable hrun hpush
  refine ⟨hI.keys, hI'.keys, ?_⟩
  rw [batches_append]
  unfold pushSpec
  split
  · right; cases r <;> simp [batchesFrom]
  · left; cases r <;> simp [batchesFrom]

/-- **C02**: one push offers the cloud to `accumulate` exactly once, calls `process` at most once,
never on an empty buffer, and always immediately followed by `clear`. -/
theorem C02_accumulate_once_process_nonempty {cfg : Cfg} {key : M → K}
    {ok : List (Ev M) → M → Bool}
    {ops : List (Op M)} {s s' : St K} {tr tr' : List (Ev M)} {m : M}
    (hrun : run cfg key ok St.init [] ops = .ok (s, tr))
    (hpush : push cfg s (key m) m (recorder ok) tr = .ok (s', tr')) :
    ∃ calls, tr' = tr ++ calls ∧
      (∃ r, calls.filter (fun e => e matches .acc _ _) = [.acc m r]) ∧
      (calls.filter (fun e => e matches .proc)).length ≤ 1 ∧
      (.proc ∈ calls → buffer tr ≠ []) ∧
      (∀ pre post, calls = pre ++ .proc :: post → pre = [] ∧ ∃ post', post = .clr :: post') := by
  classical
  obtain ⟨hmax, -, -, r, rfl⟩ := push_reachable hrun hpush
  refine ⟨_, rfl, ?_⟩
  unfold pushSpec
  split
  · rename_i hc
    refine ⟨⟨r, by simp⟩, by simp, fun _ => ?_, ?_⟩
    · rcases hc with h | ⟨h, t, hb, -⟩
      · intro hb; rw [hb] at h; simp at h; omega
      · simp [hb]
    · intro pre post h
      match pre, h with
      | [], h => simp at h; exact ⟨rfl, _, h.symm⟩
      | [_], h => simp at h
      | [_, _], h => simp at h
      | _ :: _ :: _ :: pre, h => simp at h
  · cases r
    · refine ⟨⟨false, by simp⟩, by simp, by simp, ?_⟩
      intro pre post h
      match pre, h with
      | [], h => simp at h
      | [_], h => simp at h
      | _ :: _ :: pre, h => simp at h
    · refine ⟨⟨true, by simp⟩, by simp, by simp, ?_⟩
      intro pre post h
      match pre, h with
      | [], h => simp at h
      | _ :: pre, h => simp at h

/-- Size bounds of a batch: the statement of C03. -/
def BatchBounds (cfg : Cfg) (key : M → K) (b : List M) : Prop :=
  b.length ≤ cfg.accumMax ∧
    ∀ h t, b = h :: t → (b.filter (fun x => key x = key h)).length ≤ max 1 cfg.accum

theorem bounds_step (cfg : Cfg) (key : M → K) (m : M) (b : List M)
    (h : BatchBounds cfg key b) (hc : ¬ Complete cfg key b m) : BatchBounds cfg key (b ++ [m]) := by
  have hlt : b.length < cfg.accumMax := by
    apply Decidable.byContradiction; intro hx; exact hc (Or.inl (by omega))
  refine ⟨by simp; omega, ?_⟩
  intro x t hb
  cases b with
  | nil => simp at hb; simp [hb.1]; omega
  | cons h' t' =>
    simp only [List.cons_append, List.cons.injEq] at hb
    obtain ⟨rfl, -⟩ := hb
    have h1 := h.2 h' t' rfl
    by_cases hk : key h' = key m
    · have : ¬ cfg.accum ≤ ((h' :: t').filter (fun x => key x = key m)).length :=
        fun hx => hc (Or.inr ⟨h', t', rfl, hk, hx⟩)
      rw [List.filter_append, List.length_append, hk]
      simp only [List.filter_cons, List.filter_nil, decide_true, if_true, List.length_cons,
        List.length_nil]
      simp only [List.filter_cons] at this
      omega
    · rw [List.filter_append, List.length_append]
      have hk' : ¬ key m = key h' := fun e => hk e.symm
      simp only [List.filter_cons, List.filter_nil, decide_true, if_true, hk', decide_false]
      simp only [List.filter_cons, decide_true, if_true] at h1
      simpa using h1

open Classical in
theorem run_bounds (cfg : Cfg) (key : M → K) (ok : List (Ev M) → M → Bool)
    (hmax : 0 < cfg.accumMax) (ops : List (Op M)) (s : St K) (tr : List (Ev M)) (s' tr')
    (hI : Inv key s (buffer tr)) (hb : BatchBounds cfg key (buffer tr))
    (hbs : ∀ b ∈ batches tr, b ≠ [] ∧ BatchBounds cfg key b)
    (hrun : run cfg key ok s tr ops = .ok (s', tr')) :
    (∀ b ∈ batches tr', b ≠ [] ∧ BatchBounds cfg key b) ∧ BatchBounds cfg key (buffer tr') := by
  induction ops generalizing s tr with
  | nil =>
    simp only [run, Outcome.ok.injEq, Prod.mk.injEq] at hrun
    obtain ⟨rfl, rfl⟩ := hrun
    exact ⟨hbs, hb⟩
  | cons op ops ih =>
    cases op with
    | push m =>
      obtain ⟨s1, r, h, hI'⟩ := push_step cfg key ok s tr m hI hmax
      rw [run, h] at hrun
      refine ih _ _ hI' ?_ ?_ hrun
      · unfold pushSpec
        split
        · rw [show ∀ r, tr ++ [Ev.proc, Ev.clr, Ev.acc m r] =
            (tr ++ [Ev.proc]) ++ [Ev.clr] ++ [Ev.acc m r] by simp, buffer_acc, buffer_clr]
          split
          · refine ⟨by simp; omega, ?_⟩
            intro h t hb
            simp at hb
            simp [hb.1]; omega
          · exact ⟨by simp, by simp⟩
        · rename_i hc
          cases r
          · simp only [Bool.false_eq_true, if_false]
            rw [show tr ++ [Ev.acc m false, Ev.clr] = (tr ++ [Ev.acc m false]) ++ [Ev.clr] by simp,
              buffer_clr]
            exact ⟨by simp, by simp⟩
          · simp only [if_true, buffer_acc]
            exact bounds_step cfg key m _ hb hc
      · intro b hbm
        rw [batches_append] at hbm
        rcases List.mem_append.mp hbm with hbm | hbm
        · exact hbs b hbm
        · unfold pushSpec at hbm
          split at hbm
          · rename_i hc
            have hbb : b = buffer tr := by cases r <;> simpa [batchesFrom] using hbm
            subst hbb
            refine ⟨?_, hb⟩
            rcases hc with h | ⟨h, t, hb, -⟩
            · intro hb; rw [hb] at h; simp at h; omega
            · simp [hb]
          · cases r <;> simp [batchesFrom] at hbm
    | restart =>
      rw [run] at hrun
      refine ih (reset s) (tr ++ [.clr]) ⟨by simp [reset, St.init], by simp, fun _ => rfl⟩ ?_ ?_ hrun
      · rw [buffer_clr]; exact ⟨by simp, by simp⟩
      · intro b hbm
        rw [batches_append] at hbm
        exact hbs b (by simpa [batchesFrom] using hbm)

/-- **C03**: every batch ever handed to `process` holds between 1 and `accum_max` clouds, at most
`max 1 accum` of them from the sensor that opened the batch. -/
theorem C03_batch_size_bounds {cfg : Cfg} {key : M → K} {ok : List (Ev M) → M → Bool}
    {ops : List (Op M)} {s : St K} {tr : List (Ev M)}
    (hrun : run cfg key ok St.init [] ops = .ok (s, tr)) (b : List M) (hb : b ∈ batches tr) :
    1 ≤ b.length ∧ b.length ≤ cfg.accumMax ∧
    ∀ h t, b = h :: t → (b.filter (fun x => key x = key h)).length ≤ max 1 cfg.accum := by
  rcases Nat.eq_zero_or_pos cfg.accumMax with h0 | hmax
  · -- with accum_max = 0 no push succeeds, so nothing is ever processed
    exfalso
    suffices ∀ ops tr0 (s0 : St K), s0.keys = [] → batches tr0 = [] →
        run cfg key ok s0 tr0 ops = .ok (s, tr) → batches tr = [] by
      have := this ops [] St.init rfl rfl hrun
      rw [this] at hb; simp at hb
    intro ops
    induction ops with
    | nil => intro tr0 s0 _ h1 h; simp [run] at h; rw [← h.2]; exact h1
    | cons op ops ih =>
      intro tr0 s0 hk h1 h
      cases op with
      | push m => simp [run, push, h0, hk] at h
      | restart =>
        exact ih _ _ (by simp [reset, St.init]) (by rw [batches_append, h1]; rfl) h
  · have := (run_bounds cfg key ok hmax ops St.init [] s tr (inv_init key)
      ⟨by simp [buffer], by simp [buffer]⟩ (by simp [batches, batchesFrom]) hrun).1 b hb
    refine ⟨?_, this.2⟩
    have := this.1
    cases b
    · contradiction
    · simp

/-- **C04**: a push calls `process` iff the pending batch is complete. -/
theorem C04_process_iff_complete {cfg : Cfg} {key : M → K} {ok : List (Ev M) → M → Bool}
    {ops : List (Op M)} {s s' : St K} {tr calls : List (Ev M)} {m : M}
    (hrun : run cfg key ok St.init [] ops = .ok (s, tr))
    (hpush : push cfg s (key m) m (recorder ok) tr = .ok (s', tr ++ calls)) :
    .proc ∈ calls ↔
      (cfg.accumMax ≤ (buffer tr).length ∨
        ∃ h t, buffer tr = h :: t ∧ key h = key m ∧
          cfg.accum ≤ ((buffer tr).filter (fun x => key x = key m)).length) := by
  classical
  obtain ⟨hmax, -, -, r, h⟩ := push_reachable hrun hpush
  rw [List.append_cancel_left h]
  change _ ↔ Complete cfg key (buffer tr) m
  unfold pushSpec
  split
  · simp [*]
  · cases r <;> simp [*]

open Classical in
theorem run_no_loss (cfg : Cfg) (key : M → K) (ok : List (Ev M) → M → Bool)
    (hok : ∀ tr m, ok tr m = true) (hmax : 0 < cfg.accumMax) (ms : List M) (s : St K)
    (tr : List (Ev M)) (s' tr') (hI : Inv key s (buffer tr))
    (hrun : run cfg key ok s tr (ms.map Op.push) = .ok (s', tr')) :
    (batches tr').flatten ++ buffer tr' = (batches tr).flatten ++ buffer tr ++ ms := by
  induction ms generalizing s tr with
  | nil => simp [run] at hrun; simp [hrun.2]
  | cons m ms ih =>
    obtain ⟨s1, r, h, hI'⟩ := push_step cfg key ok s tr m hI hmax
    have hr : r = true ∨ r = false := by cases r <;> simp
    rw [List.map_cons, run, h] at hrun
    rw [ih _ _ hI' hrun]
    -- the recorded result of accumulate is `ok`'s answer, hence true
    have hr : r = true := by
      have hx : ∀ W, (recorder ok).accumulate m W = (true, W ++ [.acc m true]) := by
        intro W; simp [recorder, hok]
      unfold push processAndRestart at h
      simp only [hx] at h
      split at h
      · split at h
        · simp only [Outcome.ok.injEq, Prod.mk.injEq] at h
          cases r
          · have := List.append_cancel_left h.2
            unfold pushSpec at this; split at this <;> simp at this
          · rfl
        · split at h
          · simp only [Outcome.ok.injEq, Prod.mk.injEq] at h
            cases r
            · have := List.append_cancel_left h.2
              unfold pushSpec at this; split at this <;> simp at this
            · rfl
          · simp only [Outcome.ok.injEq, Prod.mk.injEq, recorder] at h
            cases r
            · have h2 := h.2
              simp only [List.append_assoc] at h2
              have := List.append_cancel_left h2
              unfold pushSpec at this; split at this <;> simp at this
            · rfl
      · split at h
        · simp at h
        · simp only [Outcome.ok.injEq, Prod.mk.injEq, recorder] at h
          cases r
          · have h2 := h.2
            simp only [List.append_assoc] at h2
            have := List.append_cancel_left h2
            unfold pushSpec at this; split at this <;> simp at this
          · rfl
    subst hr
    unfold pushSpec
    split
    · rw [batches_append]
      rw [show ∀ r, tr ++ [Ev.proc, Ev.clr, Ev.acc m r] =
            (tr ++ [Ev.proc]) ++ [Ev.clr] ++ [Ev.acc m r] by simp, buffer_acc, buffer_clr]
      simp [batchesFrom]
    · simp only [if_true, batches_append, buffer_acc]
      simp [batchesFrom]

/-- **C05**: if every `accumulate` succeeds, the processed batches followed by the pending batch
are exactly the pushed clouds, in order. -/
theorem C05_no_loss_no_duplication {cfg : Cfg} {key : M → K} {ok : List (Ev M) → M → Bool}
    {ms : List M} {s : St K} {tr : List (Ev M)} (hok : ∀ tr m, ok tr m = true)
    (hrun : run cfg key ok St.init [] (ms.map Op.push) = .ok (s, tr)) :
    (batches tr).flatten ++ buffer tr = ms := by
  rcases Nat.eq_zero_or_pos cfg.accumMax with h | h
  · cases ms with
    | nil => simp [run] at hrun; simp [hrun.2, batches, batchesFrom, buffer]
    | cons m ms => simp [run, push, h, St.init] at hrun
  · have := run_no_loss cfg key ok hok h ms St.init [] s tr (inv_init key) hrun
    simpa [batches, batchesFrom, buffer] using this

/-- **C06**: if `accumulate` fails during a push, the caller's buffer is empty afterwards, no
batch containing the pending clouds is processed by this push unless it was complete, and the
logic is in its initial state; without a preceding `process` the last call is `clear`. -/
theorem C06_failure_discards {cfg : Cfg} {key : M → K} {ok : List (Ev M) → M → Bool}
    {ops : List (Op M)} {s s' : St K} {tr calls : List (Ev M)} {m : M}
    (hrun : run cfg key ok St.init [] ops = .ok (s, tr))
    (hpush : push cfg s (key m) m (recorder ok) tr = .ok (s', tr ++ calls))
    (hfail : .acc m false ∈ calls) :
    s' = St.init ∧ buffer (tr ++ calls) = [] ∧
    (.proc ∉ calls → calls = [.acc m false, .clr] ∧ batches (tr ++ calls) = batches tr) ∧
    (.proc ∈ calls → calls = [.proc, .clr, .acc m false] ∧
      batches (tr ++ calls) = batches tr ++ [buffer tr]) := by
  classical
  obtain ⟨hmax, -, hI', r, h⟩ := push_reachable hrun hpush
  have hcalls := List.append_cancel_left h
  have key1 : buffer (tr ++ calls) = [] ∧
    (.proc ∉ calls → calls = [.acc m false, .clr] ∧ batches (tr ++ calls) = batches tr) ∧
    (.proc ∈ calls → calls = [.proc, .clr, .acc m false] ∧
      batches (tr ++ calls) = batches tr ++ [buffer tr]) := by
    subst hcalls
    unfold pushSpec at hfail ⊢
    split at hfail
    · rename_i hc
      have hr : r = false := by cases r <;> simp_all
      subst hr
      simp only [hc, if_true]
      refine ⟨?_, by simp, ?_⟩
      · rw [show tr ++ [Ev.proc, Ev.clr, Ev.acc m false] =
          (tr ++ [Ev.proc]) ++ [Ev.clr] ++ [Ev.acc m false] by simp, buffer_acc, buffer_clr]
        simp
      · intro _
        refine ⟨trivial, ?_⟩
        rw [batches_append]; simp [batchesFrom]
    · rename_i hc
      have hr : r = false := by cases r <;> simp_all
      subst hr
      simp only [hc, if_false, Bool.false_eq_true]
      refine ⟨?_, ?_, by simp⟩
      · rw [show tr ++ [Ev.acc m false, Ev.clr] = (tr ++ [Ev.acc m false]) ++ [Ev.clr] by simp,
          buffer_clr]
      · intro _
        refine ⟨trivial, ?_⟩
        rw [batches_append]; simp [batchesFrom]
  refine ⟨?_, key1⟩
  have h1 := hI'.keys
  have h2 := hI'.cnt0 key1.1
  rw [key1.1] at h1
  cases s'
  simp_all [St.init]

open Classical in
/-- Without `process` or `clear`, every push enlarges the buffer. -/
theorem run_latency (cfg : Cfg) (key : M → K) (ok : List (Ev M) → M → Bool)
    (hmax : 0 < cfg.accumMax) (ms : List M) (s : St K) (tr : List (Ev M)) (s' calls)
    (hI : Inv key s (buffer tr))
    (hrun : run cfg key ok s tr (ms.map Op.push) = .ok (s', tr ++ calls))
    (hp : .proc ∉ calls) (hc : .clr ∉ calls) (hb : (buffer tr).length ≤ cfg.accumMax) :
    (buffer tr).length + ms.length ≤ cfg.accumMax := by
  induction ms generalizing s tr calls with
  | nil => simpa using hb
  | cons m ms ih =>
    obtain ⟨s1, r, h, hI'⟩ := push_step cfg key ok s tr m hI hmax
    rw [List.map_cons, run, h] at hrun
    simp only [Outcome.bind_ok] at hrun
    -- the final trace extends the trace after the first push
    have hext : ∀ (ops : List (Op M)) (s : St K) (t s' t'), Inv key s (buffer t) →
        run cfg key ok s t ops = .ok (s', t') → ∃ e, t' = t ++ e := by
      intro ops
      induction ops with
      | nil => intro s t s' t' _ h; simp [run] at h; exact ⟨[], by simp [h.2]⟩
      | cons op ops ih2 =>
        intro s t s' t' hI h
        cases op with
        | push m =>
          obtain ⟨s1, r, h1, hI1⟩ := push_step cfg key ok s t m hI hmax
          rw [run, h1] at h
          obtain ⟨e, he⟩ := ih2 _ _ _ _ hI1 h
          exact ⟨_, by rw [he, List.append_assoc]⟩
        | restart =>
          rw [run] at h
          obtain ⟨e, he⟩ := ih2 (reset s) (t ++ [.clr]) _ _
            ⟨by simp [reset, St.init], by simp, fun _ => rfl⟩ h
          exact ⟨_, by rw [he, List.append_assoc]⟩
    obtain ⟨e, he⟩ := hext _ _ _ _ _ hI' hrun
    have hcalls : calls = pushSpec (Complete cfg key (buffer tr) m) m r ++ e := by
      apply List.append_cancel_left (as := tr); rw [he, List.append_assoc]
    have hspec : pushSpec (Complete cfg key (buffer tr) m) m r = [.acc m true] := by
      unfold pushSpec at hcalls ⊢
      split at hcalls
      · simp [hcalls] at hp
      · rename_i hn
        cases r
        · simp [hcalls] at hc
        · simp [hn]
    have hnc : ¬ Complete cfg key (buffer tr) m := by
      intro hn; simp [pushSpec, hn] at hspec
    rw [hspec] at hrun hI' hcalls he
    rw [he] at hrun
    have := ih _ _ e hI' hrun (by rw [hcalls] at hp; simp_all) (by rw [hcalls] at hc; simp_all)
      (by
        simp only [buffer_acc, if_true, List.length_append, List.length_cons, List.length_nil]
        have : ¬ cfg.accumMax ≤ (buffer tr).length := fun hx => hnc (Or.inl hx)
        omega)
    simp at this
    simp
    omega

/-- **C07**: in any reachable state, any `accum_max + 1` consecutive pushes call `process` or
`clear` at least once. -/
theorem C07_bounded_latency {cfg : Cfg} {key : M → K} {ok : List (Ev M) → M → Bool}
    {ops : List (Op M)} {ms : List M} {s s' : St K} {tr calls : List (Ev M)}
    (hrun : run cfg key ok St.init [] ops = .ok (s, tr))
    (hms : ms.length = cfg.accumMax + 1)
    (hpush : run cfg key ok s tr (ms.map Op.push) = .ok (s', tr ++ calls)) :
    .proc ∈ calls ∨ .clr ∈ calls := by
  apply Classical.byContradiction
  intro hn
  simp only [not_or] at hn
  rcases Nat.eq_zero_or_pos cfg.accumMax with h | hmax
  · have hk := run_zero cfg key ok h ops _ _ _ _ rfl hrun
    cases ms with
    | nil => simp at hms
    | cons m ms => simp [run, push, h, hk] at hpush
  · obtain ⟨s1, tr1, h1, hI⟩ := run_inv cfg key ok hmax ops St.init [] (inv_init key)
    have hb := (run_bounds cfg key ok hmax ops St.init [] s tr (inv_init key)
      ⟨by simp [buffer], by simp [buffer]⟩ (by simp [batches, batchesFrom]) hrun).2
    rw [h1] at hrun
    simp only [Outcome.ok.injEq, Prod.mk.injEq] at hrun
    obtain ⟨rfl, rfl⟩ := hrun
    have := run_latency cfg key ok hmax ms s1 tr1 s' calls hI hpush hn.1 hn.2 hb.1
    omega

/-- **C08**, first direction: with `total_accum_cloud_max > 0` no sequence of calls is undefined. -/
theorem C08_push_defined (cfg : Cfg) (key : M → K) (ok : List (Ev M) → M → Bool)
    (hmax : 0 < cfg.accumMax) (ops : List (Op M)) :
    (run cfg key ok St.init [] ops).isOk = true := by
  obtain ⟨s, tr, h, -⟩ := run_inv cfg key ok hmax ops St.init [] (inv_init key)
  rw [h]; rfl

/-- **C08**, second direction: `total_accum_cloud_max: 0` with a non-zero `accum_cloud` is
accepted (parameters.cpp:157-158, mcl_3dl.cpp:1291-1295) and the first push reads the front of an
empty vector, for every cloud and every callback. -/
theorem C08_zero_max_undefined (accum : Nat) (key : M → K) (ok : List (Ev M) → M → Bool) (m : M) :
    (run ⟨accum, 0⟩ key ok St.init [] [.push m]).isUb = true := by
  simp [run, push, St.init, Outcome.isUb]

/-- **C08**: a sequence of calls is free of undefined behaviour exactly if `total_accum_cloud_max` is positive or
nothing is ever pushed. -/
theorem C08_defined_iff (cfg : Cfg) (key : M → K) (ok : List (Ev M) → M → Bool) (ops : List (Op M)) :
    (run cfg key ok St.init [] ops).isOk = true ↔ 0 < cfg.accumMax ∨ ∀ m, Op.push m ∉ ops := by
  constructor
  · intro h
    rcases Nat.eq_zero_or_pos cfg.accumMax with h0 | h0
    · right
      intro m hm
      obtain ⟨a, b, rfl⟩ := List.append_of_mem hm
      have key2 : ∀ (ops : List (Op M)) (s : St K) (tr : List (Ev M)), s.keys = [] →
          (run cfg key ok s tr (ops ++ .push m :: b)).isOk = true → False := by
        intro ops
        induction ops with
        | nil =>
          intro s tr hs hr
          simp [run, push, h0, hs, Outcome.isOk] at hr
        | cons op ops ih =>
          intro s tr hs hr
          cases op with
          | push m' => simp [run, push, h0, hs, Outcome.isOk] at hr
          | restart => exact ih _ _ rfl hr
      exact key2 a St.init [] rfl h
    · exact .inl h0
  · rintro (h | h)
    · exact C08_push_defined cfg key ok h ops
    · have key2 : ∀ (ops : List (Op M)) (s : St K) (tr : List (Ev M)), (∀ m, Op.push m ∉ ops) →
          (run cfg key ok s tr ops).isOk = true := by
        intro ops
        induction ops with
        | nil => intro s tr _; rfl
        | cons op ops ih =>
          intro s tr hn
          cases op with
          | push m' => exact absurd List.mem_cons_self (hn m')
          | restart => exact ih _ _ fun m hm => hn m (List.mem_cons_of_mem _ hm)
      exact key2 ops _ _ h

/-- Run of the pass-through logic (its `reset` does nothing, cloud_accum.h:64-66). -/
def runPassThrough (ok : List (Ev M) → M → Bool) (tr : List (Ev M)) (ms : List M) :
    List (Ev M) :=
  ms.foldl (fun tr m => pushPassThrough m (recorder ok) tr) tr

/-- **C09**: in pass-through mode every push calls `clear`, then `accumulate`, then `process`
exactly if accumulation succeeded; a processed batch is exactly that single cloud. -/
theorem C09_pass_through (ok : List (Ev M) → M → Bool) (ms : List M) (m : M) :
    ∃ r calls, runPassThrough ok [] (ms ++ [m]) = runPassThrough ok [] ms ++ calls ∧
      calls = [.clr, .acc m r] ++ (if r then [.proc] else []) ∧
      batches (runPassThrough ok [] (ms ++ [m])) =
        batches (runPassThrough ok [] ms) ++ (if r then [[m]] else []) := by
  unfold runPassThrough
  rw [List.foldl_append]
  generalize List.foldl (fun tr m => pushPassThrough m (recorder ok) tr) [] ms = tr
  have hp : pushPassThrough m (recorder ok) tr = tr ++ ([.clr, .acc m (ok (tr ++ [.clr]) m)] ++
      (if ok (tr ++ [.clr]) m then [.proc] else [])) := by
    unfold pushPassThrough recorder
    cases h : ok (tr ++ [.clr]) m <;> simp [h]
  refine ⟨ok (tr ++ [.clr]) m, _, hp, rfl, ?_⟩
  simp only [List.foldl_cons, List.foldl_nil, hp]
  rw [batches_append]
  cases h : ok (tr ++ [.clr]) m <;> simp [batchesFrom]

/-! ## Non-vacuity: a concrete history that reaches the interesting branches -/

/-- Two sensors 0 and 1, `accum = 2`, `accum_max = 4`; the fifth push completes a batch of three
clouds and the sixth fails. -/
example :
    ∃ s tr s' calls,
      run ⟨2, 4⟩ (fun m : Nat × Nat => m.1) (fun _ m => m.2 ≠ 99) St.init []
        [.push (0, 10), .push (1, 11), .push (0, 12)] = .ok (s, tr) ∧
      buffer tr = [(0, 10), (1, 11), (0, 12)] ∧
      push ⟨2, 4⟩ s 0 (0, 13) (recorder fun _ m => m.2 ≠ 99) tr = .ok (s', tr ++ calls) ∧
      calls = [.proc, .clr, .acc (0, 13) true] ∧
      batches (tr ++ calls) = [[(0, 10), (1, 11), (0, 12)]] ∧
      .acc (0, 99) false ∈ [Ev.acc (0, 99) false, .clr] :=
  ⟨_, _, _, [.proc, .clr, .acc (0, 13) true], rfl, rfl, rfl, rfl, rfl, by simp⟩

/-- A failing accumulation after two successes (hypotheses of C06). -/
example :
    ∃ s tr s',
      run ⟨2, 4⟩ (fun m : Nat × Nat => m.1) (fun _ m => m.2 ≠ 99) St.init []
        [.push (0, 10), .push (1, 11)] = .ok (s, tr) ∧
      push ⟨2, 4⟩ s 0 (0, 99) (recorder fun _ m => m.2 ≠ 99) tr =
        .ok (s', tr ++ [.acc (0, 99) false, .clr]) :=
  ⟨_, _, _, rfl, rfl⟩

end CloudAccum
end Mcl3dl
