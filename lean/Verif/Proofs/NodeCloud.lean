import Verif.Proofs.NodeTotal
import Verif.Props.Sampler
import Verif.Props.PFEstimate
import Verif.Props.NodeMap

/-! # The accumulated cloud and its labels -/

namespace Mcl3dl
namespace Node

variable {C : Type}

/-- Every label is an index into the headers. -/
def AccSt.Labelled (a : AccSt) : Prop := ∀ c, a.cloud = some c → ∀ p ∈ c, p.attr < a.headers.length

theorem accumClear_labelled (a : AccSt) : (accumClear a).Labelled := by
  intro c hc p hp
  simp only [accumClear, Option.some.injEq] at hc
  rw [← hc] at hp
  simp at hp

theorem accumCloud_spec {P : Params} {env : Env} {header : Header} {msg : Conv.Msg} {a a' : AccSt} {b : Bool}
    (h : accumCloud P env header msg a = .ok (b, a')) :
    (b = false → a' = a) ∧ (b = true → a'.cloud ≠ none ∧ a'.headers = a.headers ++ [header] ∧ a'.logic = a.logic) ∧
    (a.Labelled → a'.Labelled) ∧ (a.cloud ≠ none → a'.cloud ≠ none) := by
  unfold accumCloud at h
  cases ht : env.tf P.odomFrame header.frame header.stamp with
  | none =>
    rw [ht] at h
    simp only [Outcome.ok.injEq, Prod.mk.injEq] at h
    obtain ⟨rfl, rfl⟩ := h
    exact ⟨fun _ => rfl, by simp, id, id⟩
  | some t =>
    rw [ht] at h
    obtain ⟨m, _, h⟩ := Outcome.bind_eq_ok_iff.1 h
    rcases hc : Conv.fromROSMsg m [] with ⟨_ | _, pts⟩
    · rw [hc] at h
      simp only [Outcome.ok.injEq, Prod.mk.injEq] at h
      obtain ⟨rfl, rfl⟩ := h
      exact ⟨fun _ => rfl, by simp, id, id⟩
    · rw [hc] at h
      cases ha : a.cloud with
      | none => simp [ha] at h
      | some c =>
        simp only [ha, Outcome.ok.injEq, Prod.mk.injEq] at h
        obtain ⟨rfl, rfl⟩ := h
        refine ⟨by simp, fun _ => ⟨by simp, rfl, rfl⟩, fun hl c' hc' p hp => ?_, by simp⟩
        simp only [Option.some.injEq] at hc'
        rw [← hc'] at hp
        simp only [List.length_append, List.length_singleton]
        rcases List.mem_append.1 hp with hp | hp
        · exact Nat.lt_succ_of_lt (hl c ha p hp)
        · obtain ⟨q, _, rfl⟩ := List.mem_map.1 hp
          exact Nat.lt_succ_of_le (Nat.mod_le _ _)

/-- What `measure` does to the accumulation members. -/
theorem measure_acc {P : Params} {lib : Lib C} {env : Env} {n n' : Node C} {outs : List Out}
    (h : measure P lib env n = .ok (n', outs)) :
    n'.acc.headers = n.acc.headers ∧ n'.acc.logic = n.acc.logic ∧ (n.acc.Labelled → n'.acc.Labelled) ∧
      (n.acc.cloud ≠ none → n'.acc.cloud ≠ none) := by
  obtain ⟨c, hc, hn⟩ := measure_ok h
  rw [hn]
  refine ⟨rfl, rfl, ?_⟩
  simp only [AccSt.Labelled]
  obtain ⟨_, _, ⟨_, rfl, _⟩ | ⟨_, hm⟩⟩ := measureCore_ok hc
  · exact ⟨id, id⟩
  have trans : ∀ header p, prepare P lib env n.acc n.loc header = .ok (.ready p) →
      ∃ (pts : List Point) (f : Vec3 ℝ → Vec3 ℝ), n.acc.cloud = some pts ∧ p.cloud = pts.map (fun q : Point => { q with pos := f q.pos }) := by
    intro header p hp
    unfold prepare at hp
    cases ha : n.acc.cloud with
    | none => simp [ha] at hp
    | some pts =>
      rw [ha] at hp
      simp only at hp
      split at hp
      · simp at hp
      · rename_i t _
        split at hp
        · simp at hp
        · obtain ⟨_, _, hp⟩ := Outcome.bind_eq_ok_iff.1 hp
          obtain ⟨_, _, hp⟩ := Outcome.bind_eq_ok_iff.1 hp
          obtain ⟨_, _, hp⟩ := Outcome.bind_eq_ok_iff.1 hp
          simp only [Outcome.ok.injEq, Prepared.ready.injEq] at hp
          rw [← hp]
          exact ⟨pts, t.point, rfl, rfl⟩
  have trans2 : ∀ header cl, prepare P lib env n.acc n.loc header = .ok (.noOrigin cl) →
      ∃ (pts : List Point) (f : Vec3 ℝ → Vec3 ℝ), n.acc.cloud = some pts ∧ cl = pts.map (fun q : Point => { q with pos := f q.pos }) := by
    intro header cl hp
    unfold prepare at hp
    cases ha : n.acc.cloud with
    | none => simp [ha] at hp
    | some pts =>
      rw [ha] at hp
      simp only at hp
      split at hp
      · simp at hp
      · rename_i t _
        split at hp
        · simp only [Outcome.ok.injEq, Prepared.noOrigin.injEq] at hp
          rw [← hp]
          exact ⟨pts, t.point, rfl, rfl⟩
        · obtain ⟨_, _, hp⟩ := Outcome.bind_eq_ok_iff.1 hp
          obtain ⟨_, _, hp⟩ := Outcome.bind_eq_ok_iff.1 hp
          obtain ⟨_, _, hp⟩ := Outcome.bind_eq_ok_iff.1 hp
          simp at hp
  have lab : ∀ (pts : List Point) (f : Vec3 ℝ → Vec3 ℝ), n.acc.cloud = some pts →
      (∀ c, n.acc.cloud = some c → ∀ p ∈ c, p.attr < n.acc.headers.length) →
      ∀ p ∈ pts.map (fun q : Point => { q with pos := f q.pos }), p.attr < n.acc.headers.length := by
    intro pts f hp hl p hmem
    obtain ⟨q, hq, rfl⟩ := List.mem_map.1 hmem
    exact hl pts hp q hq
  generalize n'.loc = loc' at hm
  cases hm with
  | noHeader _ => exact ⟨id, id⟩
  | noTf _ _ _ => exact ⟨id, id⟩
  | noOrigin header cl _ hp =>
    obtain ⟨pts, f, hpts, rfl⟩ := trans2 _ _ hp
    exact ⟨fun hl c hc p hp => by cases hc; exact lab pts f hpts hl p hp, by simp⟩
  | noPoints header p _ hp _ =>
    obtain ⟨pts, f, hpts, hcl⟩ := trans _ _ hp
    exact ⟨fun hl c hc q hq => by cases hc; rw [hcl] at hq; exact lab pts f hpts hl q hq, by simp⟩
  | localized header p _ _ _ hp _ _ =>
    obtain ⟨pts, f, hpts, hcl⟩ := trans _ _ hp
    exact ⟨fun hl c hc q hq => by cases hc; rw [hcl] at hq; exact lab pts f hpts hl q hq, by simp⟩

/-- The invariant of the accumulation members: the buffers exist once a map has been loaded. -/
structure AccInv (n : Node C) : Prop where
  labelled : n.acc.Labelled
  cloud : n.map.hasMap = true → n.acc.cloud ≠ none
  all : n.map.hasMap = true → n.loc.allAccum ≠ none

theorem accumAll_some {P : Params} {old : Option (List Point)} {pts : List Point} {r : Option (List Point)}
    (h : accumAll P old pts = .ok r) (ho : old ≠ none) : r ≠ none := by
  unfold accumAll at h
  cases old with
  | none => exact absurd rfl ho
  | some a =>
    split_ifs at h
    · simp only [Outcome.ok.injEq] at h
      rw [← h]; simp
    · simp only [Outcome.ok.injEq] at h
      rw [← h]; simp

theorem cbCloud_accInv {P : Params} {lib : Lib C} {env : Env} {n n' : Node C} {header : Header}
    {msg : Conv.Msg} {outs : List Out} (hi : AccInv n) (h : cbCloud P lib env n header msg = .ok (n', outs)) :
    AccInv n' := by
  have hall : n'.map.hasMap = true → n'.loc.allAccum ≠ none := by
    obtain ⟨hm, _, _, _, ⟨hl, _, _⟩ | ⟨_, acc, c, hc⟩⟩ := cbCloud_loc h
    · rw [hm, hl]; exact hi.all
    · rw [hm]
      intro hmap
      have h0 : (freshen env n).loc.allAccum ≠ none := hi.all hmap
      obtain ⟨_, _, ⟨_, _, hl, _⟩ | ⟨_, hme⟩⟩ := measureCore_ok hc
      · rw [hl]; exact h0
      · generalize n'.loc = loc' at hme
        cases hme with
        | noHeader _ => exact h0
        | noTf _ _ _ => exact h0
        | noOrigin _ _ _ _ => exact h0
        | noPoints _ _ _ _ _ => exact h0
        | localized header p l o _ _ _ hl =>
          obtain ⟨r, _, _, _, _, h5, _, _, _, _, _, rfl, _⟩ := localize_ok hl
          exact accumAll_some h5 h0
  cases hm : n.map.hasMap with
  | false =>
    rw [cbCloud_noMap hm] at h
    simp only [Outcome.ok.injEq, Prod.mk.injEq] at h
    obtain ⟨rfl, rfl⟩ := h
    exact ⟨hi.labelled, hi.cloud, hall⟩
  | true =>
    rcases cbCloud_ok hm h with ⟨_, _, b, a, l, ha, rfl⟩ | ⟨_, _, a, ha, rfl⟩ | ⟨_, a, ha, hme⟩ |
      ⟨_, n1, b, a, l, hme, ha, rfl⟩
    · obtain ⟨_, _, h3, h4⟩ := accumCloud_spec ha
      refine ⟨?_, fun _ => ?_, hall⟩
      · cases b with
        | true => exact h3 hi.labelled
        | false => exact accumClear_labelled a
      · cases b with
        | true => exact h4 (hi.cloud hm)
        | false => simp [accumClear]
    · obtain ⟨_, _, h3, h4⟩ := accumCloud_spec ha
      exact ⟨h3 (accumClear_labelled _), fun _ => h4 (by simp [accumClear]), hall⟩
    · obtain ⟨_, _, h3, h4⟩ := accumCloud_spec ha
      obtain ⟨_, _, h5, h6⟩ := measure_acc hme
      exact ⟨h5 (h3 (accumClear_labelled _)), fun _ => h6 (h4 (by simp [accumClear])), hall⟩
    · obtain ⟨_, _, h3, h4⟩ := accumCloud_spec ha
      exact ⟨h3 (accumClear_labelled _), fun _ => h4 (by simp [accumClear]), hall⟩

theorem step_accInv {P : Params} {lib : Lib C} {env : Env} {n n' : Node C} {ev : Event} {o : List Out}
    (hi : AccInv n) (h : step P lib env n ev = .ok (n', o)) : AccInv n' := by
  have load : ∀ (stamp : ℕ) (pts : List Point) (n' : Node C) (o : List Out),
      loadMapCloud P env n stamp pts = .ok (n', o) → AccInv n' := by
    intro stamp pts n' o h
    obtain ⟨m, _, rfl⟩ := loadMapCloud_ok h
    exact ⟨accumClear_labelled n.acc, by simp [accumClear], by simp⟩
  cases ev with
  | mapcloud stamp msg =>
    rcases cbMapcloud_ok h with ⟨_, rfl, _⟩ | ⟨_, hl⟩
    · exact ⟨hi.labelled, by simp, by simp⟩
    · exact load _ _ _ _ hl
  | mapcloudUpdate msg =>
    simp only [step, Outcome.ok.injEq, Prod.mk.injEq] at h
    rw [← h.1]
    simp only [cbMapcloudUpdate]
    rcases Conv.fromROSMsg msg [] with ⟨_ | _, pts⟩
    · exact hi
    · exact ⟨hi.labelled, hi.cloud, hi.all⟩
  | loadPcd file =>
    rcases cbLoadPcd_ok h with ⟨_, rfl, _⟩ | ⟨_, _, _, hl, _⟩
    · exact ⟨hi.labelled, by simp, by simp⟩
    · exact load _ _ _ _ hl
  | timer =>
    obtain ⟨r, hr, h⟩ := Outcome.bind_eq_ok_iff.1 h
    simp only [Outcome.ok.injEq, Prod.mk.injEq] at h
    rw [← h.1]
    have := (mapTimer_ok (m' := r.1) (o := r.2) hr).1
    exact ⟨hi.labelled, fun hm => hi.cloud (by rw [← this]; exact hm), fun hm => hi.all (by rw [← this]; exact hm)⟩
  | cloud header msg => exact cbCloud_accInv hi h
  | odom msg =>
    obtain ⟨h1, h2, _, _, h5, _⟩ := sensor_frame _ h
    exact ⟨by rw [h2]; exact hi.labelled, by rw [h1, h2]; exact hi.cloud, by rw [h1, h5]; exact hi.all⟩
  | imu msg =>
    obtain ⟨h1, h2, _, _, h5, _⟩ := sensor_frame _ h
    exact ⟨by rw [h2]; exact hi.labelled, by rw [h1, h2]; exact hi.cloud, by rw [h1, h5]; exact hi.all⟩
  | initialpose msg =>
    rcases cbPosition_ok h with ⟨rfl, _⟩ | ⟨_, t, st, _, rfl, _⟩
    · exact hi
    · exact ⟨hi.labelled, hi.cloud, hi.all⟩
  | landmark msg =>
    obtain ⟨pf, _, rfl, _⟩ := cbLandmark_ok h; exact ⟨hi.labelled, hi.cloud, hi.all⟩
  | resize size =>
    obtain ⟨pf, _, rfl, _⟩ := cbResize_ok h; exact ⟨hi.labelled, hi.cloud, hi.all⟩
  | expansionReset =>
    obtain ⟨pf, _, rfl, _⟩ := cbExpansionReset_ok h; exact ⟨hi.labelled, hi.cloud, hi.all⟩
  | globalLocalization =>
    rcases cbGlobalLocalization_ok h with ⟨_, rfl, _⟩ | ⟨_, c, pf, ps, _, _, _, rfl, _⟩
    · exact hi
    · exact ⟨hi.labelled, hi.cloud, hi.all⟩
  | reconfigure w =>
    simp only [step, Outcome.ok.injEq, Prod.mk.injEq] at h
    rw [← h.1]; exact ⟨hi.labelled, hi.cloud, hi.all⟩

theorem start_accInv {P : Params} {lib : Lib C} {env : Env} {motion0 : Motion ℝ} {n : Node C}
    (h : start P lib env motion0 = .ok n) : AccInv n := by
  obtain ⟨_, ns, _, rfl⟩ := start_ok h
  exact ⟨(fun c hc => by simp at hc), by simp, by simp⟩

theorem reachable_accInv {P : Params} {lib : Lib C} {n : Node C} (hn : Reachable P lib n) : AccInv n :=
  reachable_inv (I := AccInv) (fun _ _ _ _ h => start_accInv h) (fun _ _ _ _ _ hi _ h => step_accInv hi h) hn

theorem originsOf_length {P : Params} {env : Env} {stamp : ℝ} {hs : List Header} {os : List (Vec3 ℝ)}
    (h : originsOf P env stamp hs = some os) : os.length = hs.length := by
  induction hs generalizing os with
  | nil => simp only [originsOf, Option.some.injEq] at h; rw [← h]; rfl
  | cons x hs ih =>
    unfold originsOf at h
    split at h
    · cases h
    · cases ho : originsOf P env stamp hs with
      | none => simp [ho] at h
      | some l =>
        simp only [ho, Option.map_some, Option.some.injEq] at h
        rw [← h]
        simp [ih ho]

theorem sample_subset {P : Params} {env : Env} (hv : env.Valid) {call : ℕ} {stats : Option (Sampler.Stats ℝ)}
    {pts out : List Point} {num : ℕ} (h : sample P env call stats pts num = .ok out) : ∀ q ∈ out, q ∈ pts := by
  unfold sample at h
  split_ifs at h
  · obtain ⟨c, hc, h⟩ := Outcome.bind_eq_ok_iff.1 h
    simp only [Outcome.ok.injEq] at h
    rw [← h]
    obtain ⟨_, h1, h2, h3⟩ := Sampler.C73_distinct hv.order hc
    rcases Nat.eq_zero_or_pos num with h0 | h0
    · rw [h1 (.inl h0)]; simp
    · by_cases hl : pts.length ≤ num
      · rw [h2 h0 hl]; exact fun q hq => hq
      · obtain ⟨_, ids, _, hf⟩ := h3 h0 (by simpa using hl)
        intro q hq
        obtain ⟨i, hi, rfl⟩ := List.getElem_of_mem hq
        have := List.forall₂_iff_get.1 hf
        have h4 := this.2 i (by rw [this.1]; exact hi) hi
        exact List.mem_of_getElem? h4
  · obtain ⟨c, hc, h⟩ := Outcome.bind_eq_ok_iff.1 h
    simp only [Outcome.ok.injEq] at h
    rw [← h]
    obtain ⟨out', h1, _, h2, _⟩ := Sampler.C72_uniform (env.index call pts.length) ⟨(), pts⟩ num
      (fun hne k => hv.index call pts.length k (List.length_pos_of_ne_nil hne))
    rw [hc] at h1
    simp only [Outcome.ok.injEq] at h1
    rw [h1]; exact h2

/-- The labels of the points used for beams are indices into the origins. -/
theorem prepare_labels {P : Params} {lib : Lib C} {env : Env} (hv : env.Valid) {acc : AccSt} {loc : LocSt C}
    {header : Header} {p : Prep} (hl : acc.Labelled) (h : prepare P lib env acc loc header = .ok (.ready p)) :
    p.origins.length = acc.headers.length ∧ (∀ q ∈ p.beamPc, q.attr < p.origins.length) ∧
      (∀ q ∈ p.likePc, q.attr < p.origins.length) := by
  unfold prepare at h
  cases ha : acc.cloud with
  | none => simp [ha] at h
  | some pts =>
    rw [ha] at h
    simp only at h
    split at h
    · simp at h
    · rename_i t _
      cases ho : originsOf P env header.stamp acc.headers with
      | none => simp [ho] at h
      | some os =>
        rw [ho] at h
        obtain ⟨st, _, h⟩ := Outcome.bind_eq_ok_iff.1 h
        obtain ⟨bp, hb, h⟩ := Outcome.bind_eq_ok_iff.1 h
        obtain ⟨lp, hlp, h⟩ := Outcome.bind_eq_ok_iff.1 h
        simp only [Outcome.ok.injEq, Prepared.ready.injEq] at h
        rw [← h]
        have e := originsOf_length ho
        have key : ∀ q ∈ env.voxel P.downsample (pts.map fun p => { p with pos := t.point p.pos }),
            q.attr < os.length := by
          intro q hq
          obtain ⟨r, hr, hle⟩ := hv.voxel _ _ q hq
          obtain ⟨s, hs, rfl⟩ := List.mem_map.1 hr
          rw [e]
          exact lt_of_le_of_lt hle (hl pts ha s hs)
        refine ⟨e, fun q hq => ?_, fun q hq => ?_⟩
        · have := sample_subset hv hb q hq
          exact key q (List.mem_filter.1 this).1
        · have := sample_subset hv hlp q hq
          exact key q (List.mem_filter.1 this).1

end Node
end Mcl3dl
