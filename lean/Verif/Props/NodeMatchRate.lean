import Verif.Spec.NodeMatchRate
import Verif.Props.NodeMatch

/-! # C116: how often the matched and unmatched points are published -/

set_option linter.unusedSectionVars false

namespace Mcl3dl
namespace Node

variable {C : Type}

theorem minor_matchStamp {o : List Out} (h : ∀ x ∈ o, x.Minor) : o.filterMap Out.matchStamp = [] := by
  rw [List.filterMap_eq_nil_iff]
  intro x hx
  have := h x hx
  cases x <;> first | rfl | exact absurd this id

/-- What a callback publishes of matched and unmatched clouds, and the time it remembers. -/
theorem step_matchLast {P : Params} {lib : Lib C} {env : Env} {n n' : Node C} {ev : Event} {o : List Out}
    (h : step P lib env n ev = .ok (n', o)) :
    ((∀ stamp frame pos rot cov, .pose stamp frame pos rot cov ∉ o) ∧ o.filterMap Out.matchStamp = [] ∧
      n'.loc.matchLast = n.loc.matchLast) ∨
    ∃ stamp, (∃ frame pos rot cov, .pose stamp frame pos rot cov ∈ o) ∧
      (∀ st frame pos rot cov, .pose st frame pos rot cov ∈ o → st = stamp) ∧
      ((matchDue P.matchOutputInterval n.loc.matchLast stamp ∧ (env.subMatched = true ∨ env.subUnmatched = true) ∧
          n'.loc.matchLast = stamp ∧ ∃ l1 l2, o.filter (fun x => x.matchStamp.isSome) =
            (if env.subMatched then [.matched stamp l1] else []) ++
              (if env.subUnmatched then [.unmatched stamp l2] else [])) ∨
        (¬ (matchDue P.matchOutputInterval n.loc.matchLast stamp ∧ (env.subMatched = true ∨ env.subUnmatched = true)) ∧
          n'.loc.matchLast = n.loc.matchLast ∧ o.filter (fun x => x.matchStamp.isSome) = [])) := by
  rcases step_cases h with ⟨hsame, h4 | ⟨b, rfl | ⟨rfl, _⟩⟩⟩ | ⟨_, _, hd, p, acc, outs', _, _, _, _, hl, rfl⟩
  · left
    exact ⟨fun _ _ _ _ _ hp => absurd (h4 _ hp) id, minor_matchStamp h4, hsame.2.2.2.2.2.2⟩
  · left
    exact ⟨by simp, rfl, hsame.2.2.2.2.2.2⟩
  · left
    exact ⟨by simp [publishStatus], rfl, hsame.2.2.2.2.2.2⟩
  right
  obtain ⟨r, _, _, _, _, _, hmo, _, _, _, _, hloc, rfl⟩ := localize_ok hl
  have hmm := matchOutput_only hmo
  refine ⟨hd.stamp, ⟨P.mapFrame, (r.smooth P n.odo (freshen env n).loc).pos, (r.smooth P n.odo (freshen env n).loc).rot,
    r.cov, ?_⟩, ?_, ?_⟩
  · simp
  · intro st frame pos rot cov hp
    have hnp : .pose st frame pos rot cov ∉ r.mo.2 := by
      intro hx; obtain ⟨s, l, hc | hc⟩ := hmm _ hx <;> cases hc
    have : .pose st frame pos rot cov ∉ (if P.publishTf = true then
        [Out.transforms (transformsOf P (outStamp P n.odo (freshen env n).loc.tolBase (env.now 1))
          (r.smooth P n.odo (freshen env n).loc))] else []) := by split_ifs <;> simp
    simp only [List.mem_cons, List.mem_append, List.not_mem_nil, or_false, hnp, this, publishParticles, publishStatus,
      reduceCtorEq, false_or, Out.pose.injEq] at hp
    exact hp.1
  have hfilt : ∀ l : List Out, (.batch true :: ([.markers r.marks.1] ++
        (if P.publishTf then
          [.transforms (transformsOf P (outStamp P n.odo (freshen env n).loc.tolBase (env.now 1)) (r.smooth P n.odo (freshen env n).loc))]
          else []) ++
        [.pose hd.stamp P.mapFrame (r.smooth P n.odo (freshen env n).loc).pos (r.smooth P n.odo (freshen env n).loc).rot r.cov] ++ l ++
        [publishParticles P n.odo (freshen env n).loc.tolBase (env.now 2) (r.pf2 P (freshen env n).loc),
          publishStatus (r.status P n.stdWarn (freshen env n).loc) r.pf6]) : List Out).filter (fun x => x.matchStamp.isSome) =
      l.filter (fun x => x.matchStamp.isSome) := by
    intro l
    cases P.publishTf <;> simp [List.filter_append, Out.matchStamp, publishParticles, publishStatus]
  rw [hfilt]
  have hml : n'.loc.matchLast = r.mo.1 := by rw [hloc]
  rw [hml]
  rw [matchOutput] at hmo
  have e1 : (freshen env n).loc.matchLast = n.loc.matchLast := rfl
  rw [e1] at hmo
  by_cases hcond : (n.loc.matchLast + P.matchOutputInterval < hd.stamp ∨ hd.stamp + 1 < n.loc.matchLast) ∧
      (env.subMatched ∨ env.subUnmatched)
  · left
    rw [if_pos hcond] at hmo
    obtain ⟨res, _, hmo⟩ := Outcome.bind_eq_ok_iff.1 hmo
    simp only [Outcome.ok.injEq] at hmo
    rw [← hmo]
    refine ⟨hcond.1, hcond.2, rfl, res.1, res.2, ?_⟩
    cases env.subMatched <;> cases env.subUnmatched <;> simp [Out.matchStamp]
  · right
    rw [if_neg hcond] at hmo
    simp only [Outcome.ok.injEq] at hmo
    rw [← hmo]
    exact ⟨hcond, rfl, rfl⟩

/-- The time the node remembers is that of its last output. -/
theorem step_lastMatch {P : Params} {lib : Lib C} {env : Env} {n n' : Node C} {ev : Event} {o : List Out}
    (h : step P lib env n ev = .ok (n', o)) :
    n'.loc.matchLast = ((o.filterMap Out.matchStamp).getLast?).getD n.loc.matchLast := by
  have key : ∀ l : List Out, l.filterMap Out.matchStamp =
      (l.filter (fun x => x.matchStamp.isSome)).filterMap Out.matchStamp := by
    intro l
    induction l with
    | nil => rfl
    | cons a l ih =>
      rw [List.filter_cons, List.filterMap_cons, ih]
      cases ha : a.matchStamp <;> simp [ha]
  rcases step_matchLast h with ⟨_, h2, h3⟩ | ⟨st, _, _, ⟨_, hs, h3, l1, l2, h4⟩ | ⟨_, h3, h4⟩⟩
  · rw [h2, h3]; rfl
  · rw [key, h4, h3]
    cases h1 : env.subMatched <;> cases h2 : env.subUnmatched <;> simp [Out.matchStamp]
    simp [h1, h2] at hs
  · rw [key, h4, h3]; rfl

theorem run_lastMatch {P : Params} {lib : Lib C} {h : History} {n n' : Node C} {outs : List (List Out)}
    (hr : run P lib n h = .ok (n', outs)) :
    n'.loc.matchLast = ((outs.flatten.filterMap Out.matchStamp).getLast?).getD n.loc.matchLast := by
  induction h generalizing n outs with
  | nil =>
    simp only [run, Outcome.ok.injEq, Prod.mk.injEq] at hr
    rw [← hr.1, ← hr.2]; rfl
  | cons e h ih =>
    obtain ⟨ev, env⟩ := e
    obtain ⟨n1, o, os, h1, h2, rfl⟩ := run_cons_ok hr
    rw [ih h2, step_lastMatch h1, List.flatten_cons, List.filterMap_append, List.getLast?_append]
    cases (os.flatten.filterMap Out.matchStamp).getLast? <;>
      cases (o.filterMap Out.matchStamp).getLast? <;> rfl

/-- C116: a callback after any history publishes matched and unmatched clouds only together with a pose, with its
time stamp, and exactly if an output is due since the last one published and there is a subscriber for it. -/
theorem C116_rate {P : Params} {lib : Lib C} {env0 : Env} {motion0 : Motion ℝ} {h : History} {n0 n n' : Node C}
    {outs : List (List Out)} (hs : start P lib env0 motion0 = .ok n0) (hr : run P lib n0 h = .ok (n, outs))
    {env : Env} {ev : Event} {o : List Out} (hst : step P lib env n ev = .ok (n', o)) :
    (∀ st l, .matched st l ∈ o ∨ .unmatched st l ∈ o → ∃ frame pos rot cov, .pose st frame pos rot cov ∈ o) ∧
    ∀ stamp frame pos rot cov, .pose stamp frame pos rot cov ∈ o →
      ((∃ l, .matched stamp l ∈ o) ↔
        matchDue P.matchOutputInterval (lastMatch outs) stamp ∧ env.subMatched = true) ∧
      ((∃ l, .unmatched stamp l ∈ o) ↔
        matchDue P.matchOutputInterval (lastMatch outs) stamp ∧ env.subUnmatched = true) := by
  have hlast : n.loc.matchLast = lastMatch outs := by
    rw [run_lastMatch hr, lastMatch]
    obtain ⟨_, ns, _, rfl⟩ := start_ok hs
    rfl
  have hmem : ∀ x : Out, x.matchStamp.isSome = true → (x ∈ o ↔ x ∈ o.filter (fun x => x.matchStamp.isSome)) := by
    intro x hx
    rw [List.mem_filter]
    simp [hx]
  rcases step_matchLast hst with ⟨h1, h2, _⟩ | ⟨st0, ⟨fr0, ps0, rt0, cv0, hp0⟩, huniq, hcase⟩
  · refine ⟨fun st l hx => ?_, fun stamp frame pos rot cov hp => absurd hp (h1 _ _ _ _ _)⟩
    rw [List.filterMap_eq_nil_iff] at h2
    rcases hx with hx | hx <;> exact absurd (h2 _ hx) (by simp [Out.matchStamp])
  rw [hlast] at hcase
  rcases hcase with ⟨hdue, _, _, l1, l2, hf⟩ | ⟨hno, _, hf⟩
  · constructor
    · intro st l hx
      have : st = st0 := by
        rcases hx with hx | hx
        all_goals
          rw [hmem _ rfl, hf] at hx
          cases h1 : env.subMatched <;> cases h2 : env.subUnmatched <;> simp [h1, h2] at hx <;> exact hx.1
      subst this
      exact ⟨_, _, _, _, hp0⟩
    · intro stamp frame pos rot cov hp
      have := huniq _ _ _ _ _ hp
      subst this
      constructor
      · constructor
        · rintro ⟨l, hx⟩
          rw [hmem _ rfl, hf] at hx
          refine ⟨hdue, ?_⟩
          cases h1 : env.subMatched
          · cases h2 : env.subUnmatched <;> simp [h1, h2] at hx
          · rfl
        · rintro ⟨_, hsub⟩
          exact ⟨l1, by rw [hmem _ rfl, hf]; simp [hsub]⟩
      · constructor
        · rintro ⟨l, hx⟩
          rw [hmem _ rfl, hf] at hx
          refine ⟨hdue, ?_⟩
          cases h1 : env.subUnmatched
          · cases h2 : env.subMatched <;> simp [h1, h2] at hx
          · rfl
        · rintro ⟨_, hsub⟩
          exact ⟨l2, by rw [hmem _ rfl, hf]; simp [hsub]⟩
  · constructor
    · intro st l hx
      rcases hx with hx | hx <;> rw [hmem _ rfl, hf] at hx <;> simp at hx
    · intro stamp frame pos rot cov hp
      have := huniq _ _ _ _ _ hp
      subst this
      constructor
      · constructor
        · rintro ⟨l, hx⟩
          rw [hmem _ rfl, hf] at hx; simp at hx
        · rintro ⟨hd, hsub⟩
          exact absurd ⟨hd, .inl hsub⟩ hno
      · constructor
        · rintro ⟨l, hx⟩
          rw [hmem _ rfl, hf] at hx; simp at hx
        · rintro ⟨hd, hsub⟩
          exact absurd ⟨hd, .inr hsub⟩ hno

end Node
end Mcl3dl
