import Verif.Spec.RayLocal
import Verif.Props.BeamResult
import Verif.Props.Aligned

/-! # C179: what the kd-tree beam model takes from the map -/

set_option linter.unusedSectionVars false

namespace Mcl3dl
namespace KDRay
open DDA (len rayPoint)

/-- What an exact search for one point finds. -/
theorem found {pts : List (Vec3 ℝ × ℕ)} {w q : Vec3 ℝ} {r : ℝ} {res : List (ℕ × ℝ)}
    (h : ExactSearch (pts.map Prod.fst) (weightedDist w q) r 1 res) :
    (res = [] ∧ ∀ m ∈ pts, r ^ 2 ≤ weightedDist w q m.1) ∨
    ∃ id m, res = [(id, weightedDist w q m.1)] ∧ pts[id]? = some m ∧ weightedDist w q m.1 < r ^ 2 ∧ IsNearest pts w q m := by
  cases res with
  | nil =>
    refine .inl ⟨rfl, fun m hm => ?_⟩
    by_contra hd
    obtain ⟨i, hi⟩ := List.mem_iff_getElem?.1 (List.mem_map_of_mem (f := Prod.fst) hm)
    rcases h.complete i m.1 hi (not_le.1 hd) with h | ⟨-, h', -⟩
    · simp at h
    · simp at h'
  | cons a l =>
    obtain ⟨id, sq⟩ := a
    have hl : l = [] := by
      have := h.bounded one_ne_zero
      simp at this; exact this
    subst hl
    obtain ⟨p, hp, hpd, hpr⟩ := h.sound (id, sq) (by simp)
    simp only [List.getElem?_map] at hp
    obtain ⟨m, hm, rfl⟩ := Option.map_eq_some_iff.1 hp
    simp only at hpd
    subst hpd
    refine .inr ⟨id, m, rfl, hm, hpr, List.mem_of_getElem? hm, fun x hx => ?_⟩
    by_cases hxd : weightedDist w q x.1 < r ^ 2
    · obtain ⟨i, hi⟩ := List.mem_iff_getElem?.1 hx
      rcases h.complete i x.1 (by rw [List.getElem?_map, hi]; rfl) hxd with h | ⟨-, -, h⟩
      · simp at h
        subst h
        rw [hm] at hi; cases hi; exact le_rfl
      · exact h (id, weightedDist w q m.1) (by simp)
    · exact hpr.le.trans (not_lt.1 hxd)

theorem SameNear.symm {pts pts' : List (Vec3 ℝ × ℕ)} {w q : Vec3 ℝ} {r : ℝ} (h : SameNear pts pts' w r q) :
    SameNear pts' pts w r q := fun m hm => (h m hm).symm

theorem SameNear.mono {pts pts' : List (Vec3 ℝ × ℕ)} {w q : Vec3 ℝ} {r r' : ℝ} (h : SameNear pts pts' w r q)
    (hr : r' ^ 2 ≤ r ^ 2) : SameNear pts pts' w r' q := fun m hm => h m (lt_of_lt_of_le hm hr)

/-- A nearest point within the radius is one also in a map that is the same there. -/
theorem IsNearest.same {pts pts' : List (Vec3 ℝ × ℕ)} {w q : Vec3 ℝ} {r : ℝ} (h : SameNear pts pts' w r q)
    {m : Vec3 ℝ × ℕ} (hm : IsNearest pts w q m) (hr : weightedDist w q m.1 < r ^ 2) : IsNearest pts' w q m := by
  refine ⟨(h m hr).1 hm.1, fun x hx => ?_⟩
  by_cases hxd : weightedDist w q x.1 < r ^ 2
  · exact hm.2 x ((h x hxd).2 hx)
  · exact hr.le.trans (not_lt.1 hxd)

/-- The result of a search over two maps that are the same within the radius. -/
theorem found_same {pts pts' : List (Vec3 ℝ × ℕ)} {w q : Vec3 ℝ} {r : ℝ} {res res' : List (ℕ × ℝ)}
    (h : SameNear pts pts' w r q)
    (hs : ExactSearch (pts.map Prod.fst) (weightedDist w q) r 1 res)
    (hs' : ExactSearch (pts'.map Prod.fst) (weightedDist w q) r 1 res') :
    (res = [] ∧ res' = []) ∨
    ∃ id m id' m', res = [(id, weightedDist w q m.1)] ∧ res' = [(id', weightedDist w q m'.1)] ∧ pts[id]? = some m ∧
      pts'[id']? = some m' ∧ weightedDist w q m.1 < r ^ 2 ∧ IsNearest pts w q m ∧ IsNearest pts w q m' ∧
      weightedDist w q m'.1 = weightedDist w q m.1 := by
  rcases found hs with ⟨e, hn⟩ | ⟨id, m, e, hm, hr, hnear⟩ <;> rcases found hs' with ⟨e', hn'⟩ | ⟨id', m', e', hm', hr', hnear'⟩
  · exact .inl ⟨e, e'⟩
  · have := hn m' ((h m' hr').2 hnear'.1)
    linarith
  · have := hn' m ((h m hr).1 hnear.1)
    linarith
  · have k := hnear'.same h.symm hr'
    exact .inr ⟨id, m, id', m', e, e', hm, hm', hr, hnear, k, le_antisymm (k.2 m hnear.1) (hnear.2 m' k.1)⟩

theorem radius_largest (cfg : Cfg) : cfg.radius = largest cfg / Real.sqrt 2 := by
  have h2 : Real.sqrt 2 * Real.sqrt 2 = 2 := Real.mul_self_sqrt (by norm_num)
  have h3 : 0 < Real.sqrt 2 := Real.sqrt_pos.2 (by norm_num)
  unfold Cfg.radius
  rw [largest_eq, eq_div_iff h3.ne']
  calc Real.sqrt 2 * cfg.gridMax / 2 * Real.sqrt 2 = (Real.sqrt 2 * Real.sqrt 2) * cfg.gridMax / 2 := by ring
    _ = cfg.gridMax := by rw [h2]; ring

theorem radius_nonneg {cfg : Cfg} (hg : 0 < stepOf cfg) : 0 ≤ cfg.radius := by
  rw [stepOf_eq] at hg
  have : cfg.gridMin ≤ cfg.gridMax := by
    unfold Cfg.gridMin Cfg.gridMax
    exact (min_le_left _ _).trans ((min_le_left _ _).trans ((le_max_left _ _).trans (le_max_left _ _)))
  unfold Cfg.radius
  have : 0 ≤ Real.sqrt 2 * cfg.gridMax := mul_nonneg (Real.sqrt_nonneg _) (by linarith)
  linarith

end KDRay

namespace Lidar
open KDRay
open DDA (len rayPoint)

/-- One call of the caster over two maps that are the same along the ray. -/
theorem kd_next_same {cfg : KDRay.Cfg} (hg : 0 < stepOf cfg) {w : Vec3 ℝ} {pts pts' : List (Vec3 ℝ × ℕ)}
    {search search' : Vec3 ℝ → ℝ → Outcome (List (ℕ × ℝ))} (hs : ExactOver cfg (pts.map Prod.fst) w search)
    (hs' : ExactOver cfg (pts'.map Prod.fst) w search') {b e : Vec3 ℝ} (hsame : SameAlong cfg w pts pts' b e)
    (hties : NoTies cfg w pts b e) (j : ℕ) :
    (kdCaster cfg search pts).next (some ⟨rayPoint b e ((j + 1) * cfg.gridMin), some ((e - b).normalized.smul cfg.gridMin),
      ⌊(len (e - b) + cfg.hitTolerance) / cfg.gridMin⌋, j + 1⟩) =
    (kdCaster cfg search' pts').next (some ⟨rayPoint b e ((j + 1) * cfg.gridMin), some ((e - b).normalized.smul cfg.gridMin),
      ⌊(len (e - b) + cfg.hitTolerance) / cfg.gridMin⌋, j + 1⟩) := by
  have hg' : 0 < cfg.gridMin := by rw [← stepOf_eq]; exact hg
  have hr := radius_nonneg hg
  have hreach : reachOf cfg = 2 * cfg.gridMin + cfg.radius := by
    unfold reachOf; rw [stepOf_eq, radius_largest]
  simp only [kdCaster, KDRay.getNext]
  by_cases hL : ⌊(len (e - b) + cfg.hitTolerance) / cfg.gridMin⌋ ≤ ((j : ℤ) + 1)
  · rw [if_pos hL, if_pos hL]; rfl
  · rw [if_neg hL, if_neg hL]
    have hfl := Int.floor_le ((len (e - b) + cfg.hitTolerance) / cfg.gridMin)
    have hj : ((j : ℝ) + 1) * cfg.gridMin ≤ len (e - b) + cfg.hitTolerance := by
      rw [← le_div_iff₀ hg']
      refine le_trans ?_ hfl
      have : ((j : ℤ) + 1) ≤ ⌊(len (e - b) + cfg.hitTolerance) / cfg.gridMin⌋ := by omega
      exact_mod_cast this
    have hprev : rayPoint b e ((j + 1) * cfg.gridMin) - ((e - b).normalized.smul cfg.gridMin).smul 2 =
        rayPoint b e ((j - 1) * cfg.gridMin) := by
      have h := rayPoint_add (b := b) (e := e) ((j - 1) * cfg.gridMin) (cfg.gridMin * 2)
      rw [show ((j : ℝ) - 1) * cfg.gridMin + cfg.gridMin * 2 = (j + 1) * cfg.gridMin by ring] at h
      rw [← h]
      apply Vec3.ext <;> simp only [Vec3.add_x, Vec3.add_y, Vec3.add_z, Vec3.sub_x, Vec3.sub_y, Vec3.sub_z, Vec3.smul_x,
        Vec3.smul_y, Vec3.smul_z] <;> ring
    have hj0 : (0 : ℝ) ≤ j := Nat.cast_nonneg j
    have s1 : SameNear pts pts' w cfg.radius (rayPoint b e ((j + 1) * cfg.gridMin)) := by
      refine (hsame _ ?_ hj).mono ?_
      · rw [stepOf_eq]; nlinarith
      · rw [hreach]; nlinarith
    have s2 : SameNear pts pts' w (cfg.gridMin * 2 + cfg.radius) (rayPoint b e ((j - 1) * cfg.gridMin)) := by
      refine (hsame _ ?_ (by nlinarith)).mono ?_
      · rw [stepOf_eq]; nlinarith
      · rw [hreach]; exact le_of_eq (by ring)
    obtain ⟨r0, e0, x0⟩ := hs (rayPoint b e ((j + 1) * cfg.gridMin)) _ (.inl rfl)
    obtain ⟨r0', e0', x0'⟩ := hs' (rayPoint b e ((j + 1) * cfg.gridMin)) _ (.inl rfl)
    obtain ⟨r1, e1, x1⟩ := hs (rayPoint b e ((j - 1) * cfg.gridMin)) _ (.inr rfl)
    obtain ⟨r1', e1', x1'⟩ := hs' (rayPoint b e ((j - 1) * cfg.gridMin)) _ (.inr rfl)
    simp only [resultAt, hprev]
    rw [e0, e0', Outcome.bind_ok, Outcome.bind_ok]
    rcases found_same s1 x0 x0' with ⟨rfl, rfl⟩ | ⟨id, m, id', m', rfl, rfl, hm, hm', hd, hn, hn', heq⟩
    · rfl
    · have hmm : m = m' := by
        refine hties j m m' (by rw [stepOf_eq]; exact hj) ?_ (by rw [stepOf_eq]; exact hn) (by rw [stepOf_eq]; exact hn')
        rw [stepOf_eq, ← radius_sq]; exact hd
      subst hmm
      have i1 : id < pts.length := (List.getElem?_eq_some_iff.1 hm).1
      have i2 : id' < pts'.length := (List.getElem?_eq_some_iff.1 hm').1
      simp only
      rw [if_neg (not_le.2 i1), if_neg (not_le.2 i2), e1, e1', Outcome.bind_ok, Outcome.bind_ok]
      rcases found_same s2 x1 x1' with ⟨rfl, rfl⟩ | ⟨_, n, _, n', rfl, rfl, _, _, _, _, _, heq'⟩
      · simp only [Outcome.bind_ok, Option.map_some, Option.bind_some, hm, hm']
      · simp only [Outcome.bind_ok, Option.map_some, Option.bind_some, hm, hm', heq']

theorem loopO_same {S R : Type*} {f g : S → Outcome (S ⊕ R)} {I : S → Prop} (he : ∀ s, I s → f s = g s)
    (hk : ∀ s s', I s → f s = .ok (.inl s') → I s') {s : S} (h0 : I s) : loopO f s = loopO g s := by
  have hi : ∀ n s, I s → iterO f n s = iterO g n s := by
    intro n
    induction n with
    | zero => intro s _; rfl
    | succ n ih =>
      intro s h
      rw [iterO_succ, iterO_succ, ← he s h]
      cases hf : f s with
      | ok x =>
        cases x with
        | inl s' => exact ih s' (hk s s' h hf)
        | inr r => rfl
      | throws m => rfl
      | ub m => rfl
  classical
  unfold loopO
  have hp : (∃ n, (iterO f n s).Ended) ↔ ∃ n, (iterO g n s).Ended := by simp only [hi _ s h0]
  by_cases h : ∃ n, (iterO f n s).Ended
  · have h' := hp.1 h
    rw [dif_pos h, dif_pos h']
    have hfind : Nat.find h = Nat.find h' := by
      rw [Nat.find_eq_iff]
      refine ⟨by rw [hi _ s h0]; exact Nat.find_spec h', fun n hn => by rw [hi _ s h0]; exact Nat.find_min h' hn⟩
    rw [hfind, hi _ s h0]
  · rw [dif_neg h, dif_neg (fun hh => h (hp.2 hh))]

/-- **C179**: two maps that have the same labelled points near a beam — from one step before the sensor to the tolerance
behind the measured point, within two steps and the largest grid size over √2 — give the beam the same status, if no
sample of the ray has two different nearest map points.  Everything else in the map, its order and repetitions do not
matter. -/
theorem C179_beam {cfg : KDRay.Cfg} (hg : 0 < stepOf cfg) {w : Vec3 ℝ} {pts pts' : List (Vec3 ℝ × ℕ)}
    {search search' : Vec3 ℝ → ℝ → Outcome (List (ℕ × ℝ))} (hs : ExactOver cfg (pts.map Prod.fst) w search)
    (hs' : ExactOver cfg (pts'.map Prod.fst) w search') (b : Beam) {lidar scan : Vec3 ℝ}
    (hsame : SameAlong cfg w pts pts' lidar scan) (hties : NoTies cfg w pts lidar scan) (c : Option KDRay.St) :
    getBeamStatus b (kdCaster cfg search' pts') lidar scan c = getBeamStatus b (kdCaster cfg search pts) lidar scan c := by
  have hmin : cfg.gridMin ≠ 0 := by rw [← stepOf_eq]; exact hg.ne'
  unfold getBeamStatus
  show ((KDRay.setRay cfg lidar scan).bind fun s => .ok (some s)).bind _ = ((KDRay.setRay cfg lidar scan).bind fun s => .ok (some s)).bind _
  unfold KDRay.setRay
  rw [if_neg hmin]
  unfold DDA.i32
  by_cases h1 : -2 ^ 31 ≤ ⌊((scan - lidar).norm + cfg.hitTolerance) / cfg.gridMin⌋ ∧
      ⌊((scan - lidar).norm + cfg.hitTolerance) / cfg.gridMin⌋ < 2 ^ 31
  swap
  · rw [if_neg h1]; rfl
  rw [if_pos h1]
  by_cases h2 : (scan - lidar).dot (scan - lidar) = 0
  · simp only [if_pos h2, Outcome.bind_ok]
    -- a ray of length 0
    rw [loopO_eq, loopO_eq]
    unfold beamRound
    simp only [kdCaster, KDRay.getNext]
    by_cases hL : ⌊((scan - lidar).norm + cfg.hitTolerance) / cfg.gridMin⌋ ≤ 1
    · rw [if_pos hL]; rfl
    · rw [if_neg hL]; rfl
  · simp only [if_neg h2, Outcome.bind_ok]
    rw [DDA.norm_eq_len]
    have hst : lidar + (scan - lidar).normalized.smul cfg.gridMin = rayPoint lidar scan (((0 : ℕ) + 1) * cfg.gridMin) := by
      have h := rayPoint_add (b := lidar) (e := scan) 0 cfg.gridMin
      have h0 : rayPoint lidar scan 0 = lidar := by
        apply Vec3.ext <;> simp [rayPoint]
      rw [h0, zero_add] at h
      rw [h]; norm_num
    symm
    refine loopO_same (I := fun c => ∃ j : ℕ, c = some ⟨rayPoint lidar scan ((j + 1) * cfg.gridMin),
      some ((scan - lidar).normalized.smul cfg.gridMin), ⌊(len (scan - lidar) + cfg.hitTolerance) / cfg.gridMin⌋, j + 1⟩) ?_ ?_
      ⟨0, by rw [hst]; simp⟩
    · rintro c ⟨j, rfl⟩
      unfold beamRound
      rw [kd_next_same hg hs hs' hsame hties j]
    · rintro c c' ⟨j, rfl⟩ hc
      unfold beamRound at hc
      obtain ⟨⟨r, c2⟩, hnext, hrest⟩ := Outcome.bind_eq_ok_iff.1 hc
      have hc2 : c' = c2 ∧ ∃ x, r = some x := by
        cases r with
        | none => simp at hrest
        | some x =>
          refine ⟨?_, x, rfl⟩
          simp only at hrest
          cases hx : x.collision <;> rw [hx] at hrest
          · simpa using hrest.symm
          · cases hp : x.point with
            | none => rw [hp] at hrest; simp at hrest
            | some y =>
              rw [hp] at hrest
              simp only [Bool.not_true, Bool.false_eq_true, if_false] at hrest
              split_ifs at hrest <;> simpa using hrest.symm
      obtain ⟨rfl, x, rfl⟩ := hc2
      simp only [kdCaster, KDRay.getNext] at hnext
      obtain ⟨⟨r', s'⟩, hr', hfin⟩ := Outcome.bind_eq_ok_iff.1 hnext
      by_cases hL : ⌊(len (scan - lidar) + cfg.hitTolerance) / cfg.gridMin⌋ ≤ ((j : ℤ) + 1)
      · rw [if_pos hL] at hr'
        cases hr'
        simp at hfin
      · rw [if_neg hL] at hr'
        obtain ⟨y, _, hy⟩ := Outcome.bind_eq_ok_iff.1 hr'
        cases hy
        simp only [Outcome.ok.injEq, Prod.mk.injEq] at hfin
        refine ⟨j + 1, ?_⟩
        rw [← hfin.2, rayPoint_add]
        push_cast
        congr 3
        ring

/-- **C179**: … and so the likelihood of the whole scan is the same for two maps that are the same along its beams: from
the place of the sensor of each point, `pose ∘ origin`, to the place of the point. -/
theorem C179_scan {cfg : KDRay.Cfg} (hg : 0 < stepOf cfg) {w : Vec3 ℝ} {pts pts' : List (Vec3 ℝ × ℕ)}
    {search search' : Vec3 ℝ → ℝ → Outcome (List (ℕ × ℝ))} (hs : ExactOver cfg (pts.map Prod.fst) w search)
    (hs' : ExactOver cfg (pts'.map Prod.fst) w search') (b : Beam) (s : State6 ℝ) (origins : List (Vec3 ℝ))
    (pc : List (Pt ℝ ℕ))
    (h : ∀ p ∈ pc, ∀ o, origins[p.attr]? = some o →
      SameAlong cfg w pts pts' (s.pos + s.rot.rotate o) (s.rot.normalized.rotate p.pos + s.pos) ∧
      NoTies cfg w pts (s.pos + s.rot.rotate o) (s.rot.normalized.rotate p.pos + s.pos)) (c : Option KDRay.St) :
    b.measure (kdCaster cfg search' pts') (some pc) origins s c = b.measure (kdCaster cfg search pts) (some pc) origins s c := by
  have hloop : ∀ (qs : List (Pt ℝ ℕ)) (score : ℝ) (c : Option KDRay.St), (∀ p ∈ qs, ∀ o, origins[p.attr]? = some o →
      SameAlong cfg w pts pts' (s.pos + s.rot.rotate o) p.pos ∧ NoTies cfg w pts (s.pos + s.rot.rotate o) p.pos) →
      beamLoop b (kdCaster cfg search' pts') origins s qs score c = beamLoop b (kdCaster cfg search pts) origins s qs score c := by
    intro qs
    induction qs with
    | nil => intro _ _ _; rfl
    | cons q qs ih =>
      intro score c hq
      unfold beamLoop
      cases ho : origins[q.attr]? with
      | none => rfl
      | some o =>
        obtain ⟨k1, k2⟩ := hq q List.mem_cons_self o ho
        simp only
        rw [C179_beam hg hs hs' b k1 k2 c]
        congr 1
        funext r
        exact ih _ _ fun p hp => hq p (List.mem_cons_of_mem _ hp)
  unfold Beam.measure
  simp only
  rw [hloop (s.transform pc)]
  intro q hq o ho
  unfold State6.transform at hq
  obtain ⟨p, hp, rfl⟩ := List.mem_map.1 hq
  exact h p hp o ho

/-! ## Non-vacuity -/

/-- C179 applied: a beam of length 10 that is stopped by a map point beside its middle is stopped in the same way when the
map has a further point 50 away and the same point twice. -/
example : ∃ (search search' : Vec3 ℝ → ℝ → Outcome (List (ℕ × ℝ))) (st : BeamStatus) (c : Option KDRay.St), st ≠ .long ∧
    getBeamStatus (Beam.make exParams) (kdCaster ⟨1, 1, 1, 1/2⟩ search [((⟨5, 3/10, 0⟩ : Vec3 ℝ), 0)]) ⟨0, 0, 0⟩ ⟨10, 0, 0⟩ none =
      .ok (st, c) ∧
    getBeamStatus (Beam.make exParams) (kdCaster ⟨1, 1, 1, 1/2⟩ search' [((⟨5, 50, 0⟩ : Vec3 ℝ), 3), (⟨5, 3/10, 0⟩, 0),
      (⟨5, 3/10, 0⟩, 0)]) ⟨0, 0, 0⟩ ⟨10, 0, 0⟩ none = .ok (st, c) := by
  obtain ⟨search, st, res, s3, hex, hpos, hb, hl⟩ := example_stopped
  obtain ⟨search', hex'⟩ := KDRay.exactOver_exists ⟨1, 1, 1, 1/2⟩ (([((⟨5, 50, 0⟩ : Vec3 ℝ), 3), (⟨5, 3/10, 0⟩, 0),
      (⟨5, 3/10, 0⟩, 0)] : List (Vec3 ℝ × ℕ)).map Prod.fst) ⟨1, 1, 1⟩
  have hstep : KDRay.stepOf ⟨1, 1, 1, 1/2⟩ = 1 := by rw [KDRay.stepOf_eq]; simp [KDRay.Cfg.gridMin]
  have hlarge : KDRay.largest ⟨1, 1, 1, 1/2⟩ = 1 := by rw [KDRay.largest_eq]; simp [KDRay.Cfg.gridMax]
  have h0 : getBeamStatus (Beam.make exParams) (kdCaster ⟨1, 1, 1, 1/2⟩ search [((⟨5, 3/10, 0⟩ : Vec3 ℝ), 0)]) ⟨0, 0, 0⟩
      ⟨10, 0, 0⟩ none = .ok (st, s3) := by
    rw [← kdFull_plain, C163_status _ _ _ _ FullCast.default, hb]; rfl
  refine ⟨search, search', st, s3, hl, h0, ?_⟩
  rw [C179_beam (by rw [hstep]; norm_num) hex hex' (Beam.make exParams) ?_ ?_ none, h0]
  · intro t _ _ m hm
    have hr : KDRay.reachOf ⟨1, 1, 1, 1/2⟩ ^ 2 ≤ 3 ^ 2 := by
      unfold KDRay.reachOf
      rw [hstep, hlarge]
      have h1 : (1:ℝ) ≤ Real.sqrt 2 := by rw [Real.one_le_sqrt]; norm_num
      have h2 : 1 / Real.sqrt 2 ≤ 1 := by rw [div_le_one (by linarith)]; exact h1
      have h3 : 0 ≤ 1 / Real.sqrt 2 := by positivity
      nlinarith
    have hy : m ≠ ((⟨5, 50, 0⟩ : Vec3 ℝ), 3) := by
      rintro rfl
      have hd := lt_of_lt_of_le hm hr
      unfold weightedDist at hd
      simp only [rayPoint] at hd
      norm_num at hd
      nlinarith [sq_nonneg (5 - t * (10 / len ((⟨10, 0, 0⟩ : Vec3 ℝ) - ⟨0, 0, 0⟩)))]
    simp [hy]
  · intro k m m' _ _ h1 h2
    have e1 := h1.1
    have e2 := h2.1
    simp only [List.mem_singleton] at e1 e2
    rw [e1, e2]

/-- C179 applied to a whole scan: two beams with no map point anywhere near, and a map far away. -/
example : ∃ (search search' : Vec3 ℝ → ℝ → Outcome (List (ℕ × ℝ))) ,
    KDRay.ExactOver ⟨1, 1, 1, 1/2⟩ [] ⟨1, 1, 1⟩ search ∧ KDRay.ExactOver ⟨1, 1, 1, 1/2⟩ [⟨5, 50, 0⟩] ⟨1, 1, 1⟩ search' ∧
    (Beam.make exParams).measure (kdCaster ⟨1, 1, 1, 1/2⟩ search' [((⟨5, 50, 0⟩ : Vec3 ℝ), 3)])
      (some [⟨⟨10, 0, 0⟩, 0⟩, ⟨⟨7, 0, 0⟩, 0⟩]) [⟨0, 0, 0⟩] (poseAt 2) none =
    (Beam.make exParams).measure (kdCaster ⟨1, 1, 1, 1/2⟩ search []) (some [⟨⟨10, 0, 0⟩, 0⟩, ⟨⟨7, 0, 0⟩, 0⟩]) [⟨0, 0, 0⟩]
      (poseAt 2) none := by
  obtain ⟨search, hex⟩ := KDRay.exactOver_exists ⟨1, 1, 1, 1/2⟩ [] ⟨1, 1, 1⟩
  obtain ⟨search', hex'⟩ := KDRay.exactOver_exists ⟨1, 1, 1, 1/2⟩ [⟨5, 50, 0⟩] ⟨1, 1, 1⟩
  have hstep : KDRay.stepOf ⟨1, 1, 1, 1/2⟩ = 1 := by rw [KDRay.stepOf_eq]; simp [KDRay.Cfg.gridMin]
  have hlarge : KDRay.largest ⟨1, 1, 1, 1/2⟩ = 1 := by rw [KDRay.largest_eq]; simp [KDRay.Cfg.gridMax]
  have hr : KDRay.reachOf ⟨1, 1, 1, 1/2⟩ ^ 2 ≤ 3 ^ 2 := by
    unfold KDRay.reachOf
    rw [hstep, hlarge]
    have h1 : (1:ℝ) ≤ Real.sqrt 2 := by rw [Real.one_le_sqrt]; norm_num
    have h2 : 1 / Real.sqrt 2 ≤ 1 := by rw [div_le_one (by linarith)]; exact h1
    have h3 : 0 ≤ 1 / Real.sqrt 2 := by positivity
    nlinarith
  refine ⟨search, search', hex, hex', C179_scan (by rw [hstep]; norm_num) hex hex' _ _ _ _ (fun p hp o ho => ⟨?_, ?_⟩) _⟩
  · intro t _ _ m hm
    have hb : ((poseAt 2).pos + (poseAt 2).rot.rotate o).y = 0 ∧ ((poseAt 2).rot.normalized.rotate p.pos + (poseAt 2).pos).y = 0 := by
      have hp2 : p.pos.y = 0 ∧ p.attr = 0 := by
        simp only [List.mem_cons, List.not_mem_nil, or_false] at hp
        rcases hp with rfl | rfl <;> exact ⟨rfl, rfl⟩
      rw [hp2.2] at ho
      have ho' : (⟨0, 0, 0⟩ : Vec3 ℝ) = o := by simpa using ho
      refine ⟨?_, by rw [poseAt_point]; exact hp2.1⟩
      rw [← ho']
      simp [poseAt, Vec3.add_y, Quat.rotate_y]
    have hy : m ≠ ((⟨5, 50, 0⟩ : Vec3 ℝ), 3) := by
      rintro rfl
      have hd := lt_of_lt_of_le hm hr
      unfold weightedDist at hd
      simp only [rayPoint, hb.1, hb.2] at hd
      norm_num at hd
      nlinarith [sq_nonneg (5 - (rayPoint ((poseAt 2).pos + (poseAt 2).rot.rotate o) ((poseAt 2).rot.normalized.rotate p.pos + (poseAt 2).pos) t).x),
        sq_nonneg (rayPoint ((poseAt 2).pos + (poseAt 2).rot.rotate o) ((poseAt 2).rot.normalized.rotate p.pos + (poseAt 2).pos) t).z]
    simp [hy]
  · intro k m m' _ _ h1 _
    exact absurd h1.1 List.not_mem_nil

end Lidar
end Mcl3dl
