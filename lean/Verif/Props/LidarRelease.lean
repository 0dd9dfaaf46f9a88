import Verif.Props.LidarBeam

/-! # C62: a beam evaluated on a map whose stamp did not change -/

set_option linter.unusedSectionVars false

namespace Mcl3dl
namespace Lidar

theorem loop_released {cfg : DDA.Cfg} {c c' : DDA.Cloud} (hid : c'.id ≠ c.id) (b : Beam) (scan : Vec3 ℝ) {n : ℕ} :
    ∀ {s s2 : DDA.St} {rs : List (Option DDA.CastResult)} {res : DDA.CastResult}, AllInto c s →
    DDA.nexts cfg n s = .ok (rs, s2) → some res ∈ rs → res.collision = true →
    loopO (beamRound b (ddaCaster cfg (some c')) scan) s = .ub "points_ points into a released cloud" := by
  classical
  induction n with
  | zero =>
    intro s s2 rs res _ h hres
    cases h
    simp at hres
  | succ n ih =>
    intro s s2 rs res hJ h hres hcol
    rw [DDA.nexts] at h
    obtain ⟨⟨o, s1⟩, h1, h⟩ := DDA.bind_eq_ok h
    obtain ⟨⟨l, s3⟩, h2, h⟩ := DDA.bind_eq_ok h
    simp only [Outcome.ok.injEq, Prod.mk.injEq] at h
    obtain ⟨rfl, rfl⟩ := h
    have hJ1 : AllInto c s1 := fun g hg => hJ g (by rw [← getNext_grid h1]; exact hg)
    rw [loopO_eq, beamRound]
    unfold ddaCaster
    simp only
    by_cases hrel : DDA.readsReleased (some c') s
    · rw [if_pos hrel]; rfl
    rw [if_neg hrel, h1]
    simp only [Outcome.bind_ok]
    unfold DDA.getNext at h1
    split at h1
    · rename_i g r hg hr
      split at h1
      · rename_i r' hadv
        simp only [Outcome.ok.injEq, Prod.mk.injEq] at h1
        obtain ⟨rfl, rfl⟩ := h1
        exfalso
        obtain ⟨s', hs'⟩ := DDA.nexts_exhausted cfg n g r' (DDA.advance_false hadv)
        rw [h2] at hs'
        cases hs'
        simp at hres
      · rename_i r' hadv
        obtain ⟨hit, hh, h1⟩ := DDA.bind_eq_ok h1
        simp only [Outcome.ok.injEq, Prod.mk.injEq] at h1
        obtain ⟨rfl, rfl⟩ := h1
        have hnone : hit = none := by
          unfold DDA.hasIntersection at hh
          obtain ⟨a, ha, hh⟩ := DDA.bind_eq_ok hh
          split_ifs at hh with h3 h4 h5
          · cases hh; rfl
          · exfalso
            cases hc : g.cells a with
            | nil => exact h5 hc
            | cons p ps =>
              refine hrel ⟨g, r, r', a, p, hg, hr, hadv, ha, by rw [hc]; rfl, ?_⟩
              rw [hJ g hg a p (by rw [hc]; exact List.mem_cons_self)]
              simpa using hid
        subst hnone
        have hres' : some res ∈ l := by
          rcases List.mem_cons.1 hres with h | h
          · cases h; simp at hcol
          · exact h
        have := ih hJ1 h2 hres' hcol
        simp only [Option.map_some, Option.isSome_none, Bool.not_false, if_true, Outcome.bind_ok]
        exact this
    · cases h1

/-- C62, equal stamps: after a new map `c'` with the stamp of the map `c` in use has replaced it, evaluating a beam that
would have hit something in the old map dereferences a dangling pointer. -/
theorem C62_dangling {cfg : DDA.Cfg} (hg : 0 < cfg.gridSize) {c c' : DDA.Cloud} (hst : c'.stamp = c.stamp)
    (hid : c'.id ≠ c.id) {lidar0 scan0 lidar scan : Vec3 ℝ} {s0 s1 s2 : DDA.St}
    (h0 : DDA.setRay cfg DDA.St.fresh (some c) lidar0 scan0 = .ok s0)
    (hs : DDA.setRay cfg s0 (some c) lidar scan = .ok s1) {n : ℕ} {rs : List (Option DDA.CastResult)}
    (hn : DDA.nexts cfg n s1 = .ok (rs, s2)) {res : DDA.CastResult} (hres : some res ∈ rs)
    (hcol : res.collision = true) (b : Beam) :
    getBeamStatus b (ddaCaster cfg (some c')) lidar scan s0 = .ub "points_ points into a released cloud" := by
  have hS : DDA.StampsDiffer {c} := by
    intro x hx y hy _
    rw [Set.mem_singleton_iff] at hx hy
    rw [hx, hy]
  have hr : DDA.Reachable cfg {c} s0 := .setRay .fresh (fun x hx => by cases hx; rfl) h0
  obtain ⟨-, -, g, r, rfl, -, hG, -⟩ := DDA.setRay_inv hg (DDA.reachable_inv hg hr)
    (fun x hx => by cases hx; rfl) hs
  have hG := hG hS c rfl
  have hJ : AllInto c ⟨some g, some r⟩ := by
    intro g' hg' a p hp
    cases hg'
    rw [hG.cells_eq] at hp
    have := (List.mem_filter.1 hp).1
    unfold DDA.Cloud.refs at this
    obtain ⟨x, -, rfl⟩ := List.mem_map.1 this
    rfl
  unfold getBeamStatus
  rw [show (ddaCaster cfg (some c')).setRay s0 lidar scan = DDA.setRay cfg s0 (some c') lidar scan from rfl,
    DDA.C62_same_stamp_ignored hg hst h0, hs, Outcome.bind_ok]
  exact loop_released hid b scan hJ hn hres hcol

/-- The wall that is gone. -/
example (b : Beam) : ∃ s0, getBeamStatus b (ddaCaster DDA.Example.cfg (some DDA.Example.map2)) DDA.Example.b
    DDA.Example.e s0 = .ub "points_ points into a released cloud" := by
  obtain ⟨s, hs⟩ := DDA.Example.setRay_ok DDA.Reachable.fresh
  have hr : DDA.Reachable DDA.Example.cfg {DDA.Example.map1} s :=
    .setRay .fresh (fun c hc => by cases hc; rfl) hs
  obtain ⟨s', hs'⟩ := DDA.Example.setRay_ok hr
  obtain ⟨n, rs, s'', hn, res, p, hres, hp, hpc, hpp⟩ := DDA.Example.hit hr hs'
  refine ⟨s, C62_dangling (by norm_num [DDA.Example.cfg]) (c := DDA.Example.map1) (c' := DDA.Example.map2) rfl
    (by simp [DDA.Example.map1, DDA.Example.map2]) hs hs' hn hres ?_ b⟩
  have hI := DDA.Example.stampsDiffer
  have hinv := DDA.C61_collisions (by norm_num [DDA.Example.cfg]) hI hr rfl hs' DDA.Example.box1 DDA.Example.inside_b n
  obtain ⟨path, rs', s3, hn', hF⟩ := hinv
  rw [hn] at hn'
  cases hn'
  simp only [List.mem_append, List.mem_map, Option.some.injEq, exists_eq_right, List.mem_replicate, reduceCtorEq,
    and_false, or_false] at hres
  obtain ⟨k, hk, rfl⟩ := List.getElem_of_mem hres
  have := (List.forall₂_iff_get.1 hF).2 k (by rw [hF.length_eq]; exact hk) hk
  simp only [List.get_eq_getElem] at this
  exact this.collision.2 ⟨p, hp⟩

end Lidar
end Mcl3dl
