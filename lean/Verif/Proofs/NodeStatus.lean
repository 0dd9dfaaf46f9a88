import Verif.Proofs.NodeSafe
import Verif.Spec.NodeStatus

/-! # What each callback publishes of a measurement, and the state behind it -/

namespace Mcl3dl
namespace Node

variable {C : Type}

/-- The messages of the callbacks other than the cloud callback. -/
def Out.Minor : Out → Prop
  | .updatedMap _ | .response _ | .synthImu | .synthOdom | .particles _ _ => True
  | _ => False

theorem mapTimer_minor {P : Params} {env : Env} {m m' : MapSt} {o : List Out}
    (h : mapTimer P env m = .ok (m', o)) : ∀ x ∈ o, x.Minor := by
  rw [mapTimer] at h
  cases hm : m.hasMap with
  | false =>
    simp only [hm, Bool.false_eq_true, if_false, Outcome.ok.injEq, Prod.mk.injEq] at h
    simp [← h.2]
  | true =>
    simp only [hm, if_true] at h
    cases hu : m.update with
    | some u =>
      rw [hu] at h
      simp only at h
      split at h
      · simp at h
      · simp only [Outcome.ok.injEq, Prod.mk.injEq] at h
        simp [← h.2, Out.Minor]
    | none =>
      rw [hu] at h
      simp only at h
      cases hme : m.merged with
      | some r =>
        rw [hme] at h
        simp only [Outcome.ok.injEq, Prod.mk.injEq] at h
        simp [← h.2]
      | none =>
        rw [hme] at h
        simp only at h
        cases hb : m.base with
        | none => rw [hb] at h; simp at h
        | some b =>
          rw [hb] at h
          simp only at h
          cases hc : m.heap[b]? with
          | none => rw [hc] at h; simp at h
          | some c =>
            rw [hc] at h
            simp only [Outcome.ok.injEq, Prod.mk.injEq] at h
            simp [← h.2, Out.Minor]

theorem step_minor {P : Params} {lib : Lib C} {env : Env} {n n' : Node C} {ev : Event} {o : List Out}
    (h : step P lib env n ev = .ok (n', o)) (hev : ∀ header msg, ev ≠ .cloud header msg) :
    ∀ x ∈ o, x.Minor := by
  have hload : ∀ {stamp pts n' o}, loadMapCloud P env n stamp pts = .ok (n', o) → ∀ x ∈ o, x.Minor := by
    intro stamp pts n' o h
    obtain ⟨m, hm, _⟩ := loadMapCloud_ok h
    exact mapTimer_minor hm
  cases ev with
  | mapcloud stamp msg =>
    rcases cbMapcloud_ok h with ⟨_, _, rfl⟩ | ⟨_, hl⟩
    · simp
    · exact hload hl
  | mapcloudUpdate msg =>
    simp only [step, Outcome.ok.injEq, Prod.mk.injEq] at h
    simp [← h.2]
  | loadPcd file =>
    rcases cbLoadPcd_ok h with ⟨_, _, rfl⟩ | ⟨pts, o', _, hl, rfl⟩
    · simp [Out.Minor]
    · intro x hx
      rcases List.mem_append.1 hx with hx | hx
      · exact hload hl x hx
      · rw [List.mem_singleton.1 hx]; trivial
  | timer =>
    obtain ⟨⟨m, o'⟩, hm, h⟩ := Outcome.bind_eq_ok_iff.1 h
    simp only [Outcome.ok.injEq, Prod.mk.injEq] at h
    rw [← h.2]
    exact mapTimer_minor hm
  | cloud header msg => exact absurd rfl (hev header msg)
  | odom msg =>
    intro x hx
    rcases (sensor_frame _ h).2.2.2.2.2.2 x hx with rfl | rfl <;> trivial
  | imu msg =>
    intro x hx
    rcases (sensor_frame _ h).2.2.2.2.2.2 x hx with rfl | rfl <;> trivial
  | initialpose msg =>
    rcases cbPosition_ok h with ⟨_, rfl, _⟩ | ⟨_, _, _, _, _, rfl⟩
    · simp
    · simp [publishParticles, Out.Minor]
  | landmark msg =>
    obtain ⟨_, _, _, rfl⟩ := cbLandmark_ok h
    simp [publishParticles, Out.Minor]
  | resize size =>
    obtain ⟨_, _, _, rfl⟩ := cbResize_ok h
    simp [publishParticles, Out.Minor]
  | expansionReset =>
    obtain ⟨_, _, _, rfl⟩ := cbExpansionReset_ok h
    simp [publishParticles, Out.Minor]
  | globalLocalization =>
    rcases cbGlobalLocalization_ok h with ⟨_, _, rfl⟩ | ⟨_, _, _, _, _, _, _, _, rfl⟩ <;> simp [Out.Minor]
  | reconfigure w =>
    simp only [step, Outcome.ok.injEq, Prod.mk.injEq] at h
    simp [← h.2]

theorem matchOutput_only {P : Params} {lib : Lib C} {env : Env} {m : MapSt} {stamp last : ℝ}
    {pts : List Point} {r : ℝ × List Out} (h : matchOutput P lib env m stamp last pts = .ok r) :
    ∀ x ∈ r.2, ∃ s l, x = .matched s l ∨ x = .unmatched s l := by
  unfold matchOutput at h
  by_cases hc : (last + P.matchOutputInterval < stamp ∨ stamp + 1 < last) ∧
      (env.subMatched = true ∨ env.subUnmatched = true)
  · rw [if_pos hc] at h
    obtain ⟨s, _, h⟩ := Outcome.bind_eq_ok_iff.1 h
    simp only [Outcome.ok.injEq] at h
    rw [← h]
    cases env.subMatched <;> cases env.subUnmatched <;> simp
  · rw [if_neg hc] at h
    simp only [Outcome.ok.injEq] at h
    rw [← h]
    simp

/-- What one callback does to the measurement state. -/
structure StepView (P : Params) (n n' : Node C) (ev : Event) (o : List Out) : Prop where
  warn : n'.stdWarn = warnAfter n.stdWarn ev
  batch : (batches [o] = [] ∧ n'.cnt = n.cnt ∧ ∀ x ∈ o, x.Minor) ∨
    (Params.toSize P.skipMeasure ≠ 0 ∧ n'.cnt = (n.cnt + 1) % 2 ^ 64 ∧
      ((n'.cnt % Params.toSize P.skipMeasure ≠ 0 ∧ o = [.batch false]) ∨
        (n'.cnt % Params.toSize P.skipMeasure = 0 ∧ batches [o] = [true])))
  shown : (shown n.stdWarn o = none ∧ n'.loc.fixCnt = n.loc.fixCnt ∧
      ((∀ size, ev ≠ .resize size) → ev ≠ .globalLocalization →
        n'.loc.pf.particles.length = n.loc.pf.particles.length)) ∨
    ∃ s fix, shown n.stdWarn o = some s ∧ s.warn = n.stdWarn ∧ s.count = n.loc.pf.particles.length ∧
      s.status.particleSize = shrink P.numParticles.toNat s.count ∧
      n'.loc.pf.particles.length = shrink P.numParticles.toNat s.count ∧
      newFixCount P s.count n.loc.fixCnt = .ok fix ∧ n'.loc.fixCnt = fix - 1 ∧
      s.status.status = statusCode P s.status.matchRatio fix .normal ∧
      s.status.convergence = convergenceOf P s.warn n.loc.fixCnt s.cov .normal

theorem batches_nil {o : List Out} (h : ∀ x ∈ o, ∀ b, x ≠ .batch b) : batches [o] = [] := by
  simp only [batches, List.flatten_cons, List.flatten_nil, List.append_nil, List.filterMap_eq_nil_iff]
  intro x hx
  have := h x hx
  cases x <;> simp [Out.batchOf] at this ⊢

theorem batches_cons (o : List Out) (os : List (List Out)) : batches (o :: os) = batches [o] ++ batches os := by
  simp [batches]

theorem shown_none {warn : Vec3 ℝ} {o : List Out} (h : ∀ x ∈ o, x.poseCov = none) : shown warn o = none := by
  have : o.findSome? Out.poseCov = none := List.findSome?_eq_none_iff.2 h
  simp [shown, this]

theorem Out.Minor.cov {x : Out} (h : x.Minor) : x.poseCov = none := by
  cases x <;> first | rfl | exact absurd h id

theorem Out.Minor.batch {x : Out} (h : x.Minor) (b : Bool) : x ≠ .batch b := by
  cases x <;> first | (intro h'; cases h'; done) | exact absurd h id

/-- The messages of a localization. -/
theorem localized_outs {P : Params} {warn : Vec3 ℝ} {a b : List Out} {ms : List Marker} {tfs : List TfMsg}
    {stamp stamp2 : ℝ} {frame : String} {pos : Vec3 ℝ} {rot : Quat ℝ} {cov : ℕ → ℕ → ℝ}
    {ps : List (Vec3 ℝ × Quat ℝ)} {st : Status} {ent : Option ℝ} {lev : Level}
    (hb : ∀ x ∈ b, ∃ s l, x = .matched s l ∨ x = .unmatched s l)
    (ha : a = .batch true :: ([.markers ms] ++ (if P.publishTf then [.transforms tfs] else []) ++
      [.pose stamp frame pos rot cov] ++ b ++ [.particles stamp2 ps, .status st ent lev])) :
    shown warn a = some ⟨warn, cov, ps.length, st⟩ ∧ batches [a] = [true] := by
  have h1 : ∀ x ∈ b, x.poseCov = none ∧ x.particleCount = none ∧ x.statusMsg = none ∧ ∀ c, x ≠ .batch c := by
    intro x hx
    obtain ⟨s, l, rfl | rfl⟩ := hb x hx <;> exact ⟨rfl, rfl, rfl, by simp⟩
  have f1 : b.findSome? Out.particleCount = none := List.findSome?_eq_none_iff.2 fun x hx => (h1 x hx).2.1
  have f2 : b.findSome? Out.statusMsg = none := List.findSome?_eq_none_iff.2 fun x hx => (h1 x hx).2.2.1
  have f3 : b.filterMap Out.batchOf = [] := by
    have := batches_nil fun x hx => (h1 x hx).2.2.2
    simpa [batches] using this
  subst ha
  constructor
  · by_cases ht : P.publishTf = true <;>
      simp [shown, ht, List.findSome?_append, List.findSome?_cons, Out.poseCov, Out.particleCount, Out.statusMsg, f1, f2]
  · simp only [batches, List.flatten_cons, List.flatten_nil, List.append_nil, List.filterMap_cons,
      List.filterMap_append, f3]
    by_cases ht : P.publishTf = true <;> simp [ht, Out.batchOf]

theorem step_minor_frame {P : Params} {lib : Lib C} {env : Env} (hv : env.Valid) {n n' : Node C} {ev : Event}
    {o : List Out} (h : step P lib env n ev = .ok (n', o)) (hev : ∀ header msg, ev ≠ .cloud header msg) :
    n'.stdWarn = warnAfter n.stdWarn ev ∧ ((∀ size, ev ≠ .resize size) → ev ≠ .globalLocalization →
        n'.loc.pf.particles.length = n.loc.pf.particles.length) := by
  cases ev with
  | mapcloud stamp msg =>
    rcases cbMapcloud_ok h with ⟨_, rfl, _⟩ | ⟨_, hl⟩
    · exact ⟨rfl, fun _ _ => rfl⟩
    · obtain ⟨_, _, _, h4, h5, _⟩ := load_frame hl
      exact ⟨h4, fun _ _ => by rw [h5]⟩
  | mapcloudUpdate msg =>
    simp only [step, Outcome.ok.injEq, Prod.mk.injEq] at h
    rw [← h.1]
    simp only [cbMapcloudUpdate]
    split <;> exact ⟨rfl, fun _ _ => rfl⟩
  | loadPcd file =>
    rcases cbLoadPcd_ok h with ⟨_, rfl, _⟩ | ⟨_, _, _, hl, _⟩
    · exact ⟨rfl, fun _ _ => rfl⟩
    · obtain ⟨_, _, _, h4, h5, _⟩ := load_frame hl
      exact ⟨h4, fun _ _ => by rw [h5]⟩
  | timer =>
    obtain ⟨⟨m, o'⟩, hm, h⟩ := Outcome.bind_eq_ok_iff.1 h
    simp only [Outcome.ok.injEq, Prod.mk.injEq] at h
    rw [← h.1]
    exact ⟨rfl, fun _ _ => rfl⟩
  | cloud header msg => exact absurd rfl (hev header msg)
  | odom msg =>
    obtain ⟨_, _, _, h4, _, h6, _⟩ := sensor_frame _ h
    exact ⟨h4, fun _ _ => h6⟩
  | imu msg =>
    obtain ⟨_, _, _, h4, _, h6, _⟩ := sensor_frame _ h
    exact ⟨h4, fun _ _ => h6⟩
  | initialpose msg =>
    rcases cbPosition_ok h with ⟨rfl, _⟩ | ⟨_, _, _, _, rfl, _⟩
    · exact ⟨rfl, fun _ _ => rfl⟩
    · exact ⟨rfl, fun _ _ => by simp [PF.Filter.init, PF.Filter.predict]⟩
  | landmark msg =>
    obtain ⟨pf, h1, rfl, _⟩ := cbLandmark_ok h
    refine ⟨rfl, fun _ _ => ?_⟩
    simp only
    rw [(resampleFilter_spec hv h1).1]
    simp only [PF.Filter.measure]
    split_ifs <;> simp [PF.weigh]
  | resize size =>
    obtain ⟨_, _, rfl, _⟩ := cbResize_ok h
    exact ⟨rfl, fun h => absurd rfl (h size)⟩
  | expansionReset =>
    obtain ⟨_, h1, rfl, _⟩ := cbExpansionReset_ok h
    exact ⟨rfl, fun _ _ => (addNoise_spec h1).1⟩
  | globalLocalization =>
    refine ⟨?_, fun _ h => absurd rfl h⟩
    rcases cbGlobalLocalization_ok h with ⟨_, rfl, _⟩ | ⟨_, _, _, _, _, _, _, rfl, _⟩ <;> rfl
  | reconfigure w =>
    simp only [step, Outcome.ok.injEq, Prod.mk.injEq] at h
    rw [← h.1]
    exact ⟨rfl, fun _ _ => rfl⟩

theorem step_view {P : Params} (h0 : 0 ≤ P.numParticles) {lib : Lib C} {env : Env} (hv : env.Valid)
    {n n' : Node C} {ev : Event} {o : List Out} (h : step P lib env n ev = .ok (n', o)) :
    StepView P n n' ev o := by
  by_cases hc : ∃ header msg, ev = .cloud header msg
  · obtain ⟨header, msg, rfl⟩ := hc
    obtain ⟨_, _, _, hw, hcase⟩ := cbCloud_loc h
    rcases hcase with ⟨hl, hcnt, rfl⟩ | ⟨hm, acc, c, hcore⟩
    · refine ⟨hw, .inl ⟨rfl, hcnt, by simp⟩, .inl ⟨rfl, by rw [hl]; rfl, fun _ _ => by rw [hl]; rfl⟩⟩
    obtain ⟨hs, hcnt, hk⟩ := measureCore_ok hcore
    generalize hloc2 : n'.loc = loc2 at hk
    rcases hk with ⟨hk, _, rfl, rfl⟩ | ⟨hk, hme⟩
    · exact ⟨hw, .inr ⟨hs, hcnt, .inl ⟨hk, rfl⟩⟩,
        .inl ⟨rfl, by rw [hloc2]; rfl, fun _ _ => by rw [hloc2]; rfl⟩⟩
    cases hme with
    | noHeader _ => exact ⟨hw, .inr ⟨hs, hcnt, .inr ⟨hk, rfl⟩⟩,
        .inl ⟨rfl, by rw [hloc2]; rfl, fun _ _ => by rw [hloc2]; rfl⟩⟩
    | noTf _ _ _ => exact ⟨hw, .inr ⟨hs, hcnt, .inr ⟨hk, rfl⟩⟩,
        .inl ⟨rfl, by rw [hloc2]; rfl, fun _ _ => by rw [hloc2]; rfl⟩⟩
    | noOrigin _ _ _ _ => exact ⟨hw, .inr ⟨hs, hcnt, .inr ⟨hk, rfl⟩⟩,
        .inl ⟨rfl, by rw [hloc2]; rfl, fun _ _ => by rw [hloc2]; rfl⟩⟩
    | noPoints _ _ _ _ _ => exact ⟨hw, .inr ⟨hs, hcnt, .inr ⟨hk, rfl⟩⟩,
        .inl ⟨rfl, by rw [hloc2]; rfl, fun _ _ => by rw [hloc2]; rfl⟩⟩
    | localized hd p _ outs _ _ _ hl =>
      obtain ⟨r, hwl, _, _, _, _, hmo, h3, h5, h6, hf, hloc, houts⟩ := localize_ok hl
      obtain ⟨_, e2, e5⟩ := localize_sizes hv hwl h3 h5
      have hfl : (freshen env n).loc.pf = n.loc.pf := rfl
      have hff : (freshen env n).loc.fixCnt = n.loc.fixCnt := rfl
      rw [hfl] at e2 e5
      rw [hff] at hf
      have hlen := reduce_length h0 hv h6
      rw [e5] at hf hlen
      have hsh : r.pf6.particles.length = shrink P.numParticles.toNat n.loc.pf.particles.length := by
        rw [hlen]
        unfold shrink
        split_ifs <;> first | rfl | omega
      obtain ⟨hshown, hb⟩ := localized_outs (P := P) (warn := n.stdWarn) (matchOutput_only hmo)
        (congrArg (Out.batch true :: ·) houts)
      refine ⟨hw, .inr ⟨hs, hcnt, .inr ⟨hk, hb⟩⟩, .inr ⟨_, r.fix, hshown, rfl, ?_, ?_, ?_, ?_, ?_, ?_, ?_⟩⟩
      · simpa using e2
      · simp only [List.length_map, LocRun.status, e2, hsh]
      · rw [hloc2, hloc]
        simp only [List.length_map, e2, hsh]
      · simpa only [List.length_map, e2] using hf
      · rw [hloc2, hloc]
      · rfl
      · rfl
  · push Not at hc
    have hm := step_minor h hc
    obtain ⟨hl, hcnt⟩ := step_loc h hc
    obtain ⟨hw, hlen⟩ := step_minor_frame hv h hc
    exact ⟨hw, .inl ⟨batches_nil fun x hx => (hm x hx).batch, hcnt, hm⟩,
      .inl ⟨shown_none fun x hx => (hm x hx).cov, by rw [hl], hlen⟩⟩

end Node
end Mcl3dl
