import Verif.Spec.BeamWork
import Verif.Spec.NodeWork
import Verif.Proofs.NodeReal
import Verif.Props.LidarBeam

/-! # C184: the work of measuring a scan with the beam model is bounded by the parameters -/

set_option linter.unusedSectionVars false

namespace Mcl3dl
namespace Lidar

/-! ## counting does not change the measurement -/

theorem beamLoop_map {C C' : Type} (φ : C → C') {b : Beam} {c : Caster C} {c' : Caster C'}
    (h1 : ∀ s l e, c'.setRay (φ s) l e = (c.setRay s l e).bind fun x => .ok (φ x))
    (h2 : ∀ s, c'.next (φ s) = (c.next s).bind fun x => .ok (x.1, φ x.2)) (origins : List (Vec3 ℝ)) (s : State6 ℝ)
    (pc : List (Pt ℝ ℕ)) : ∀ (score : ℝ) (t : C), beamLoop b c' origins s pc score (φ t) =
      (beamLoop b c origins s pc score t).bind fun r => .ok (r.1, φ r.2) := by
  induction pc with
  | nil => intros; rfl
  | cons p ps ih =>
    intro score t
    rw [beamLoop, beamLoop]
    cases origins[p.attr]? with
    | none => rfl
    | some o =>
      simp only
      rw [Node.getBeamStatus_map φ h1 h2]
      cases getBeamStatus b c (s.pos + s.rot.rotate o) p.pos t with
      | throws m => rfl
      | ub m => rfl
      | ok r => simp only [Outcome.bind_ok]; exact ih _ _

/-- **C184**: counting does not change what is measured. -/
theorem C184_counting {C : Type} (b : Beam) (caster : Caster C) (pc : Option (List (Pt ℝ ℕ))) (origins : List (Vec3 ℝ))
    (s : State6 ℝ) (c : C) (k : ℕ) :
    b.measure caster pc origins s c =
      (b.measure (counting caster) pc origins s (c, k)).bind fun r => .ok (r.1, r.2.1) := by
  cases pc with
  | none => rfl
  | some pc =>
    unfold Beam.measure
    simp only
    split_ifs
    · rfl
    · have := beamLoop_map (b := b) (c := counting caster) (c' := caster) Prod.fst
        (fun t l e => by
          show caster.setRay t.1 l e = ((caster.setRay t.1 l e).bind fun x => .ok (x, t.2)).bind fun x => .ok x.1
          cases caster.setRay t.1 l e <;> rfl)
        (fun t => by
          show caster.next t.1 = ((caster.next t.1).bind fun r => .ok (r.1, (r.2, t.2 + 1))).bind fun x => .ok (x.1, x.2.1)
          rcases caster.next t.1 with ⟨_, _⟩ | _ | _ <;> rfl) origins s (s.transform pc) 1 (c, k)
      rw [this]
      cases beamLoop b (counting caster) origins s (s.transform pc) 1 (c, k) <;> rfl

/-- … so the calls of a scan that is measured can be counted. -/
theorem C184_counted {C : Type} {b : Beam} {caster : Caster C} {pc : Option (List (Pt ℝ ℕ))} {origins : List (Vec3 ℝ)}
    {s : State6 ℝ} {c : C} (h : ∃ r, b.measure caster pc origins s c = .ok r) : ∃ k, b.calls caster pc origins s c = .ok k := by
  obtain ⟨r, h⟩ := h
  rw [C184_counting b caster pc origins s c 0] at h
  obtain ⟨x, hx, -⟩ := Outcome.bind_eq_ok_iff.1 h
  exact ⟨x.2.2, Outcome.bind_eq_ok_iff.2 ⟨x, hx, rfl⟩⟩

/-! ## casters that end -/

/-- After at most `m` calls the ray is over. -/
def EndsWithin {C : Type} (caster : Caster C) : ℕ → C → Prop
  | 0, _ => False
  | m + 1, c => ∀ r, caster.next c = .ok r → r.1 = none ∨ EndsWithin caster m r.2

theorem status_calls {C : Type} {b : Beam} {caster : Caster C} {B : ℝ} {l e : Vec3 ℝ}
    (hset : ∀ c c', caster.setRay c l e = .ok c' → ∃ m : ℕ, EndsWithin caster m c' ∧ (m : ℝ) ≤ B)
    {c : C} {k : ℕ} {r : BeamStatus × C × ℕ} (h : getBeamStatus b (counting caster) l e (c, k) = .ok r) :
    (r.2.2 : ℝ) ≤ k + B := by
  unfold getBeamStatus at h
  obtain ⟨⟨c1, k1⟩, hs, hl⟩ := Outcome.bind_eq_ok_iff.1 h
  obtain ⟨x, hx, hx'⟩ := Outcome.bind_eq_ok_iff.1 hs
  simp only [Outcome.ok.injEq, Prod.mk.injEq] at hx'
  obtain ⟨rfl, rfl⟩ := hx'
  obtain ⟨m, hm, hB⟩ := hset _ _ hx
  refine loopO_inv (I := fun t : C × ℕ => ∃ m : ℕ, EndsWithin caster m t.1 ∧ (t.2 : ℝ) + m ≤ k + B)
    (Q := fun r : BeamStatus × C × ℕ => (r.2.2 : ℝ) ≤ k + B) ?_ ?_ ⟨m, hm, by simpa using hB⟩ hl
  · rintro ⟨c, n⟩ ⟨c', n'⟩ ⟨m, hm, hB⟩ hr
    unfold beamRound at hr
    obtain ⟨⟨o, c2, n2⟩, hn, hr⟩ := Outcome.bind_eq_ok_iff.1 hr
    obtain ⟨y, hy, hy'⟩ := Outcome.bind_eq_ok_iff.1 hn
    simp only [Outcome.ok.injEq, Prod.mk.injEq] at hy'
    obtain ⟨rfl, rfl, rfl⟩ := hy'
    obtain _ | m := m
    · exact hm.elim
    obtain ⟨o, c2⟩ := y
    rcases hm _ hy with h0 | h0
    · simp only at h0; subst h0; simp only at hr; cases hr
    · refine ⟨m, ?_⟩
      have key : (c', n') = (c2, n + 1) := by
        cases o with
        | none => simp only at hr; cases hr
        | some res =>
          obtain ⟨col, sin, point⟩ := res
          rcases point with _ | ⟨q, label⟩ <;> simp only at hr <;> split_ifs at hr <;>
            simp only [Outcome.ok.injEq, Sum.inl.injEq, reduceCtorEq] at hr <;> exact hr.symm
      simp only [Prod.mk.injEq] at key
      obtain ⟨rfl, rfl⟩ := key
      refine ⟨h0, ?_⟩
      push_cast at hB ⊢
      linarith
  · rintro ⟨c, n⟩ r ⟨m, hm, hB⟩ hr
    unfold beamRound at hr
    obtain ⟨⟨o, c2, n2⟩, hn, hr⟩ := Outcome.bind_eq_ok_iff.1 hr
    obtain ⟨y, hy, hy'⟩ := Outcome.bind_eq_ok_iff.1 hn
    simp only [Outcome.ok.injEq, Prod.mk.injEq] at hy'
    obtain ⟨rfl, rfl, rfl⟩ := hy'
    obtain _ | m := m
    · exact hm.elim
    have key : r.2 = (y.2, n + 1) := by
      obtain ⟨o, c2⟩ := y
      cases o with
      | none => simp only [Outcome.ok.injEq, Sum.inr.injEq] at hr; rw [← hr]
      | some res =>
        obtain ⟨col, sin, point⟩ := res
        rcases point with _ | ⟨q, label⟩ <;> simp only at hr <;> split_ifs at hr <;>
          simp only [Outcome.ok.injEq, Sum.inr.injEq, reduceCtorEq] at hr <;> rw [← hr]
    rw [key]
    push_cast at hB ⊢
    have : (0 : ℝ) ≤ m := Nat.cast_nonneg m
    linarith

theorem measure_calls {C : Type} {b : Beam} {caster : Caster C} {origins : List (Vec3 ℝ)} {s : State6 ℝ} {B : Pt ℝ ℕ → ℝ}
    {pc : List (Pt ℝ ℕ)}
    (hset : ∀ p ∈ pc, ∀ o, origins[p.attr]? = some o → ∀ c c',
      caster.setRay c (s.pos + s.rot.rotate o) (s.rot.normalized.rotate p.pos + s.pos) = .ok c' →
      ∃ m : ℕ, EndsWithin caster m c' ∧ (m : ℝ) ≤ B p) {c : C} {k0 : ℕ}
    {r : Result × C × ℕ} (h1 : b.measure (counting caster) (some pc) origins s (c, k0) = .ok r) :
    (r.2.2 : ℝ) ≤ k0 + (pc.map B).sum := by
  unfold Beam.measure at h1
  simp only at h1
  split_ifs at h1 with h0
  · simp only [Outcome.ok.injEq] at h1
    rw [← h1]
    rw [List.length_eq_zero_iff] at h0
    subst h0; simp
  · obtain ⟨⟨sc, c2, k2⟩, h3, h4⟩ := Outcome.bind_eq_ok_iff.1 h1
    simp only [Outcome.ok.injEq] at h4
    rw [← h4]
    have key : ∀ (l : List (Pt ℝ ℕ)), (∀ p ∈ l, ∀ o, origins[p.attr]? = some o → ∀ c c',
        caster.setRay c (s.pos + s.rot.rotate o) (s.rot.normalized.rotate p.pos + s.pos) = .ok c' →
        ∃ m : ℕ, EndsWithin caster m c' ∧ (m : ℝ) ≤ B p) →
        ∀ {score : ℝ} {c : C} {k : ℕ} {r : ℝ × C × ℕ}, beamLoop b (counting caster) origins s (s.transform l) score (c, k) = .ok r →
        (r.2.2 : ℝ) ≤ k + (l.map B).sum := by
      intro l
      induction l with
      | nil =>
        intro _ score c k r h
        simp only [State6.transform, List.map_nil, beamLoop, Outcome.ok.injEq] at h
        rw [← h]; simp
      | cons p ps ih =>
        intro hset score c k r h
        rw [show s.transform (p :: ps) = { p with pos := s.rot.normalized.rotate p.pos + s.pos } :: s.transform ps from rfl,
          beamLoop] at h
        simp only at h
        cases ho : origins[p.attr]? with
        | none => rw [ho] at h; cases h
        | some o =>
          rw [ho] at h
          obtain ⟨⟨st, c1, k1⟩, h1, h2⟩ := Outcome.bind_eq_ok_iff.1 h
          have a1 := status_calls (hset p (by simp) o ho) h1
          have a2 := ih (fun q hq => hset q (by simp [hq])) h2
          simp only [List.map_cons, List.sum_cons] at a1 a2 ⊢
          linarith
    exact key pc hset h3

theorem calls_le {C : Type} {b : Beam} {caster : Caster C} {origins : List (Vec3 ℝ)} {s : State6 ℝ} {B : Pt ℝ ℕ → ℝ}
    {pc : List (Pt ℝ ℕ)}
    (hset : ∀ p ∈ pc, ∀ o, origins[p.attr]? = some o → ∀ c c',
      caster.setRay c (s.pos + s.rot.rotate o) (s.rot.normalized.rotate p.pos + s.pos) = .ok c' →
      ∃ m : ℕ, EndsWithin caster m c' ∧ (m : ℝ) ≤ B p) {c : C} {k : ℕ}
    (h : b.calls caster (some pc) origins s c = .ok k) : (k : ℝ) ≤ (pc.map B).sum := by
  obtain ⟨x, h1, h2⟩ := Outcome.bind_eq_ok_iff.1 h
  simp only [Outcome.ok.injEq] at h2
  have := measure_calls hset h1
  rw [h2] at this
  simpa using this

/-! ## the kd-tree caster -/

theorem kd_ends (cfg : KDRay.Cfg) (search : Vec3 ℝ → ℝ → Outcome (List (ℕ × ℝ))) (pts : List (Vec3 ℝ × ℕ)) :
    ∀ (m : ℕ) (s : KDRay.St), 1 ≤ m → s.length - s.count + 1 ≤ m → EndsWithin (kdCaster cfg search pts) m (some s) := by
  intro m
  induction m with
  | zero => intro s h; omega
  | succ m ih =>
    intro s _ h r hr
    obtain ⟨⟨o, s'⟩, hn, hr⟩ := Outcome.bind_eq_ok_iff.1 hr
    simp only [Outcome.ok.injEq] at hr
    unfold KDRay.getNext at hn
    split_ifs at hn with hc
    · simp only [Outcome.ok.injEq, Prod.mk.injEq] at hn
      left; rw [← hr, ← hn.1]; rfl
    · cases hi : s.inc with
      | none => rw [hi] at hn; cases hn
      | some inc =>
        rw [hi] at hn
        obtain ⟨res, _, hn⟩ := Outcome.bind_eq_ok_iff.1 hn
        simp only [Outcome.ok.injEq, Prod.mk.injEq] at hn
        right
        rw [← hr, ← hn.2]
        push_cast at h
        exact ih _ (by omega) (by simp only; omega)

theorem kd_setRay (cfg : KDRay.Cfg) (search : Vec3 ℝ → ℝ → Outcome (List (ℕ × ℝ))) (pts : List (Vec3 ℝ × ℕ)) {l e : Vec3 ℝ}
    {c c' : Option KDRay.St} (h : (kdCaster cfg search pts).setRay c l e = .ok c') :
    ∃ m : ℕ, EndsWithin (kdCaster cfg search pts) m c' ∧
      (m : ℝ) ≤ max 1 ((DDA.len (e - l) + cfg.hitTolerance) / cfg.gridMin) := by
  obtain ⟨s, hs, hc⟩ := Outcome.bind_eq_ok_iff.1 h
  simp only [Outcome.ok.injEq] at hc
  subst hc
  unfold KDRay.setRay at hs
  have hsl : s.length = ⌊((e - l).norm + cfg.hitTolerance) / cfg.gridMin⌋ ∧ s.count = 1 := by
    split_ifs at hs <;> obtain ⟨n, hn, hs⟩ := Outcome.bind_eq_ok_iff.1 hs <;> obtain ⟨rfl, -, -⟩ := DDA.i32_ok hn <;>
      simp only [Outcome.ok.injEq] at hs <;> rw [← hs] <;> exact ⟨rfl, rfl⟩
  refine ⟨(max 1 s.length).toNat, kd_ends _ _ _ _ _ (by omega) (by rw [hsl.2]; omega), ?_⟩
  have h1 : (((max 1 s.length).toNat : ℤ) : ℝ) = max 1 (s.length : ℝ) := by
    rw [Int.toNat_of_nonneg (by omega)]; push_cast; rfl
  rw [Int.cast_natCast] at h1
  rw [h1, hsl.1, ← DDA.norm_eq_len]
  exact max_le_max le_rfl (Int.floor_le _)

/-! ## the grid caster -/

theorem dda_ends (cfg : DDA.Cfg) (cloud : Option DDA.Cloud) (g : DDA.Grid) :
    ∀ (m : ℕ) (r : DDA.Ray), 1 ≤ m → r.maxMov - r.pos ≤ m → EndsWithin (ddaCaster cfg cloud) m ⟨some g, some r⟩ := by
  intro m
  induction m with
  | zero => intro r h; omega
  | succ m ih =>
    intro r _ h x hx
    unfold ddaCaster at hx
    simp only at hx
    split_ifs at hx with hd
    obtain ⟨⟨o, s'⟩, hn, hx⟩ := Outcome.bind_eq_ok_iff.1 hx
    simp only [Outcome.ok.injEq] at hx
    unfold DDA.getNext at hn
    simp only at hn
    rcases ha : DDA.advance g r with ⟨b, r'⟩
    rw [ha] at hn
    cases b with
    | false =>
      simp only [Outcome.ok.injEq, Prod.mk.injEq] at hn
      left; rw [← hx, ← hn.1]; rfl
    | true =>
      obtain ⟨hit, _, hn⟩ := Outcome.bind_eq_ok_iff.1 hn
      simp only [Outcome.ok.injEq, Prod.mk.injEq] at hn
      right
      rw [← hx, ← hn.2]
      have key : r'.maxMov = r.maxMov ∧ r'.pos = r.pos + 1 ∧ r.pos + 1 < r.maxMov := by
        unfold DDA.advance at ha
        simp only at ha
        split_ifs at ha with hp
        · simp at ha
        · unfold DDA.incrementIndex at ha
          simp only at ha
          split_ifs at ha with hq
          · simp at ha
          · simp only [Prod.mk.injEq, true_and] at ha
            rw [← ha]; exact ⟨rfl, rfl, by simpa using hp⟩
      push_cast at h
      exact ih _ (by omega) (by omega)

theorem truncZ_near (u v : ℝ) : (|DDA.truncZ u - DDA.truncZ v| : ℤ) ≤ |u - v| + 1 := by
  have hu := Int.floor_le u; have hu' := Int.lt_floor_add_one u
  have hv := Int.floor_le v; have hv' := Int.lt_floor_add_one v
  have gu := Int.le_ceil u; have gu' := Int.ceil_lt_add_one u
  have gv := Int.le_ceil v; have gv' := Int.ceil_lt_add_one v
  push_cast
  have a1 := le_abs_self (u - v)
  have a2 := neg_abs_le (u - v)
  rw [abs_le]
  have c1 : 0 ≤ u → (0 : ℝ) ≤ ⌊u⌋ := fun h => by exact_mod_cast Int.floor_nonneg.2 h
  have c2 : 0 ≤ v → (0 : ℝ) ≤ ⌊v⌋ := fun h => by exact_mod_cast Int.floor_nonneg.2 h
  have c3 : ¬ 0 ≤ u → (⌈u⌉ : ℝ) ≤ 0 := fun h => by exact_mod_cast Int.ceil_le.2 (by push_cast; linarith)
  have c4 : ¬ 0 ≤ v → (⌈v⌉ : ℝ) ≤ 0 := fun h => by exact_mod_cast Int.ceil_le.2 (by push_cast; linarith)
  unfold DDA.truncZ
  split_ifs with h1 h2 h2 <;> (try have := c1 ‹_›) <;> (try have := c2 ‹_›) <;> (try have := c3 ‹_›) <;> (try have := c4 ‹_›) <;> constructor <;> linarith

theorem sum_abs_le (v : Vec3 ℝ) (h : v.x ^ 2 + v.y ^ 2 + v.z ^ 2 ≤ 1) : |v.x| + |v.y| + |v.z| ≤ Real.sqrt 3 := by
  refine Real.le_sqrt_of_sq_le ?_
  have := sq_abs v.x; have := sq_abs v.y; have := sq_abs v.z
  nlinarith [sq_nonneg (|v.x| - |v.y|), sq_nonneg (|v.y| - |v.z|), sq_nonneg (|v.x| - |v.z|)]

theorem dda_setRay {cfg : DDA.Cfg} (hg : 0 < cfg.gridSize) (htol : 0 ≤ cfg.hitTolerance) (cloud : Option DDA.Cloud) {l e : Vec3 ℝ}
    {c c' : DDA.St} (h : (ddaCaster cfg cloud).setRay c l e = .ok c') :
    ∃ m : ℕ, EndsWithin (ddaCaster cfg cloud) m c' ∧
      (m : ℝ) ≤ 3 + Real.sqrt 3 * ((DDA.len (e - l) + cfg.hitTolerance) / cfg.gridSize) := by
  have hlen : 0 ≤ DDA.len (e - l) := Real.sqrt_nonneg _
  have hnn : 0 ≤ Real.sqrt 3 * ((DDA.len (e - l) + cfg.hitTolerance) / cfg.gridSize) := by positivity
  obtain ⟨go, _, h⟩ := Outcome.bind_eq_ok_iff.1 h
  cases go with
  | none => cases h
  | some g =>
    dsimp only at h
    by_cases hin : DDA.isPointWithinMap g l
    swap
    · rw [if_pos hin] at h
      simp only [Outcome.ok.injEq] at h
      subst h
      refine ⟨1, dda_ends _ _ _ _ _ le_rfl (by simp), ?_⟩
      push_cast; linarith
    · rw [if_neg (not_not.2 hin)] at h
      obtain ⟨r, hr, h⟩ := Outcome.bind_eq_ok_iff.1 h
      simp only [Outcome.ok.injEq] at h
      subst h
      unfold DDA.startRay at hr
      split_ifs at hr with h0
      simp only at hr
      obtain ⟨bi, hbi, hr⟩ := Outcome.bind_eq_ok_iff.1 hr
      obtain ⟨ei, hei, hr⟩ := Outcome.bind_eq_ok_iff.1 hr
      obtain ⟨d0, e0, hr⟩ := Outcome.bind_eq_ok_iff.1 hr
      obtain ⟨d1, e1, hr⟩ := Outcome.bind_eq_ok_iff.1 hr
      obtain ⟨d2, e2, hr⟩ := Outcome.bind_eq_ok_iff.1 hr
      obtain ⟨a0, f0, hr⟩ := Outcome.bind_eq_ok_iff.1 hr
      obtain ⟨a1, f1, hr⟩ := Outcome.bind_eq_ok_iff.1 hr
      obtain ⟨a01, f01, hr⟩ := Outcome.bind_eq_ok_iff.1 hr
      obtain ⟨a2, f2, hr⟩ := Outcome.bind_eq_ok_iff.1 hr
      obtain ⟨mm, fm, hr⟩ := Outcome.bind_eq_ok_iff.1 hr
      simp only [Outcome.ok.injEq] at hr
      have hmm : r.maxMov = |ei 0 - bi 0| + |ei 1 - bi 1| + |ei 2 - bi 2| ∧ r.pos = 0 := by
        rw [← hr]
        refine ⟨?_, rfl⟩
        simp only
        rw [(DDA.i32_ok fm).1, (DDA.i32_ok f01).1, (DDA.i32_ok f0).1, (DDA.i32_ok f1).1, (DDA.i32_ok f2).1,
          (DDA.i32_ok e0).1, (DDA.i32_ok e1).1, (DDA.i32_ok e2).1]
      have hb := DDA.toIndex_ok hbi
      have he := DDA.toIndex_ok hei
      set dir := (e - l).normalized with hdir
      have hpos : 0 < DDA.len (e - l) := by
        rw [← DDA.norm_eq_len]; unfold Vec3.norm
        refine Real.sqrt_pos.2 (lt_of_le_of_ne ?_ (Ne.symm h0))
        simp only [Vec3.dot]
        nlinarith [mul_self_nonneg (e - l).x, mul_self_nonneg (e - l).y, mul_self_nonneg (e - l).z]
      have hd : ∀ i : Fin 3, dir.get i = (e.get i - l.get i) / DDA.len (e - l) := by
        intro i
        rw [hdir]; unfold Vec3.normalized; rw [DDA.get_sdiv, DDA.norm_eq_len, DDA.get_sub]
      set q := (DDA.len (e - l) + cfg.hitTolerance) / cfg.gridSize with hq
      have hq0 : 0 ≤ q := by positivity
      have hax : ∀ i : Fin 3, ((|ei i - bi i| : ℤ) : ℝ) ≤ q * |dir.get i| + 1 := by
        intro i
        rw [hb.1, he.1]
        refine (truncZ_near _ _).trans_eq ?_
        congr 1
        rw [← abs_of_nonneg hq0, ← abs_mul, hq]
        congr 1
        rw [DDA.get_add, DDA.get_smul, hd i]
        field_simp
        ring
      have hunit : dir.x ^ 2 + dir.y ^ 2 + dir.z ^ 2 ≤ 1 := by
        have hx : dir.x = (e.x - l.x) / DDA.len (e - l) := hd 0
        have hy : dir.y = (e.y - l.y) / DDA.len (e - l) := hd 1
        have hz : dir.z = (e.z - l.z) / DDA.len (e - l) := hd 2
        rw [hx, hy, hz]
        have := Real.sq_sqrt (show 0 ≤ (e - l).x ^ 2 + (e - l).y ^ 2 + (e - l).z ^ 2 by positivity)
        rw [show Real.sqrt ((e - l).x ^ 2 + (e - l).y ^ 2 + (e - l).z ^ 2) = DDA.len (e - l) from rfl] at this
        simp only [Vec3.sub_x, Vec3.sub_y, Vec3.sub_z] at this
        rw [div_pow, div_pow, div_pow, ← add_div, ← add_div, ← this, div_self (by positivity)]
      have hs := sum_abs_le dir hunit
      have h0 := hax 0; have h1 := hax 1; have h2 := hax 2
      refine ⟨(max 1 r.maxMov).toNat, dda_ends _ _ _ _ _ (by omega) (by rw [hmm.2]; omega), ?_⟩
      have hc : (((max 1 r.maxMov).toNat : ℤ) : ℝ) = max 1 (r.maxMov : ℝ) := by
        rw [Int.toNat_of_nonneg (by omega)]; push_cast; rfl
      rw [Int.cast_natCast] at hc
      rw [hc, hmm.1, max_le_iff]
      refine ⟨by linarith, ?_⟩
      have : q * (|dir.x| + |dir.y| + |dir.z|) ≤ q * Real.sqrt 3 := mul_le_mul_of_nonneg_left hs hq0
      rw [Int.cast_add, Int.cast_add]
      change _ ≤ q * |dir.x| + 1 at h0
      change _ ≤ q * |dir.y| + 1 at h1
      change _ ≤ q * |dir.z| + 1 at h2
      nlinarith

/-! ## the bounds -/

theorem beam_len {s : State6 ℝ} (hs : s.rot.dot s.rot = 1) (p o : Vec3 ℝ) :
    DDA.len (s.rot.normalized.rotate p + s.pos - (s.pos + s.rot.rotate o)) = DDA.len (p - o) := by
  have hn : s.rot.normalized = s.rot := Quat.C31_normalized_unit _ hs
  rw [hn]
  have e : s.rot.rotate p + s.pos - (s.pos + s.rot.rotate o) = s.rot.rotate (p - o) := by
    ext <;> simp only [Vec3.sub_x, Vec3.sub_y, Vec3.sub_z, Vec3.add_x, Vec3.add_y, Vec3.add_z,
      Quat.rotate_x, Quat.rotate_y, Quat.rotate_z] <;> ring
  rw [e, Node.len_rotate hs]

/-- **C184**: with the kd-tree ray caster, measuring a scan for a particle calls `getNextCastResult` at most
`(length of the beam + hit tolerance) / smallest map grid size` times per point (at least once), whatever the map is, and
whatever was cast before. -/
theorem C184_kd (cfg : KDRay.Cfg) (search : Vec3 ℝ → ℝ → Outcome (List (ℕ × ℝ))) (map : List (Vec3 ℝ × ℕ)) (b : Beam)
    {s : State6 ℝ} (hs : s.rot.dot s.rot = 1) (origins : List (Vec3 ℝ)) (pc : List (Pt ℝ ℕ)) (c : Option KDRay.St) {k : ℕ}
    (h : b.calls (kdCaster cfg search map) (some pc) origins s c = .ok k) :
    (k : ℝ) ≤ (pc.map fun p => max 1 ((beamLength origins p + cfg.hitTolerance) / cfg.gridMin)).sum := by
  refine calls_le (fun p _ o ho c c' hset => ?_) h
  have := kd_setRay cfg search map hset
  rw [beam_len hs] at this
  simpa only [beamLength, ho, Option.getD_some] using this

/-- **C184**: … and with the grid ray caster at most `3 + √3 (length of the beam + hit tolerance) / grid size` times. -/
theorem C184_dda {cfg : DDA.Cfg} (hg : 0 < cfg.gridSize) (htol : 0 ≤ cfg.hitTolerance) (map : Option DDA.Cloud) (b : Beam)
    {s : State6 ℝ} (hs : s.rot.dot s.rot = 1) (origins : List (Vec3 ℝ)) (pc : List (Pt ℝ ℕ)) (c : DDA.St) {k : ℕ}
    (h : b.calls (ddaCaster cfg map) (some pc) origins s c = .ok k) :
    (k : ℝ) ≤ (pc.map fun p => 3 + Real.sqrt 3 * ((beamLength origins p + cfg.hitTolerance) / cfg.gridSize)).sum := by
  refine calls_le (fun p _ o ho c c' hset => ?_) h
  have := dda_setRay hg htol map hset
  rw [beam_len hs] at this
  simpa only [beamLength, ho, Option.getD_some] using this

theorem len_add_le (u v : Vec3 ℝ) : DDA.len (u - v) ≤ DDA.len u + DDA.len v := by
  unfold DDA.len
  refine Real.sqrt_le_iff.2 ⟨by positivity, ?_⟩
  have h1 := Real.sq_sqrt (show 0 ≤ u.x ^ 2 + u.y ^ 2 + u.z ^ 2 by positivity)
  have h2 := Real.sq_sqrt (show 0 ≤ v.x ^ 2 + v.y ^ 2 + v.z ^ 2 by positivity)
  have h3 : -(u.x * v.x + u.y * v.y + u.z * v.z) ≤
      Real.sqrt (u.x ^ 2 + u.y ^ 2 + u.z ^ 2) * Real.sqrt (v.x ^ 2 + v.y ^ 2 + v.z ^ 2) := by
    rw [← Real.sqrt_mul (by positivity)]
    refine Real.le_sqrt_of_sq_le ?_
    nlinarith [sq_nonneg (u.x * v.y - u.y * v.x), sq_nonneg (u.x * v.z - u.z * v.x), sq_nonneg (u.y * v.z - u.z * v.y)]
  simp only [Vec3.sub_x, Vec3.sub_y, Vec3.sub_z]
  nlinarith

theorem len_le_of_clip {v : Vec3 ℝ} {far H : ℝ} (hf : 0 ≤ far) (h : v.x * v.x + v.y * v.y ≤ far * far) (hz : |v.z| ≤ H) :
    DDA.len v ≤ far + H := by
  have hH : 0 ≤ H := (abs_nonneg _).trans hz
  unfold DDA.len
  refine Real.sqrt_le_iff.2 ⟨by positivity, ?_⟩
  have : v.z ^ 2 ≤ H ^ 2 := by rw [← sq_abs v.z]; exact pow_le_pow_left₀ (abs_nonneg _) hz 2
  nlinarith [mul_nonneg hf hH]

theorem Beam.Reach.limits {p : BeamParams} {b : Beam} (h : Beam.Reach p b) :
    b.params = p ∧ b.clipFarSq = p.clip.far * p.clip.far ∧ b.numPoints ≤ max p.numDefault p.numGlobal := by
  induction h with
  | make => exact ⟨rfl, rfl, le_max_left _ _⟩
  | @set b n cur _ ih =>
    obtain ⟨h1, h2, _⟩ := ih
    refine ⟨h1, h2, ?_⟩
    show globalNumPoints b.params.numDefault b.params.numGlobal n cur ≤ _
    rw [h1]
    unfold globalNumPoints
    simp only
    split_ifs with a c
    · exact le_max_left _ _
    · exact le_max_right _ _
    · refine le_trans ?_ (le_max_left _ _)
      refine Nat.div_le_of_le_mul ?_
      refine (Nat.mod_le _ _).trans ?_
      rw [Nat.mul_comm cur]
      exact Nat.mul_le_mul_left _ (by omega)

theorem sum_le_card {l : List (Pt ℝ ℕ)} {f : Pt ℝ ℕ → ℝ} {B : ℝ} {n : ℕ} (hB : 0 ≤ B) (h : ∀ p ∈ l, f p ≤ B)
    (hl : l.length ≤ n) : (l.map f).sum ≤ n * B := by
  have h1 : (l.map f).sum ≤ (l.map f).length • B :=
    List.sum_le_card_nsmul _ _ fun x hx => by
      obtain ⟨p, hp, rfl⟩ := List.mem_map.1 hx
      exact h p hp
  rw [List.length_map, nsmul_eq_mul] at h1
  exact h1.trans (mul_le_mul_of_nonneg_right (by exact_mod_cast hl) hB)

/-- What the filter of the beam model leaves of a scan: at most so many points, near the robot. -/
theorem filtered {p : BeamParams} {b : Beam} (hb : Beam.Reach p b) (hfar : 0 ≤ p.clip.far)
    {sampler : List (Pt ℝ ℕ) → ℕ → List (Pt ℝ ℕ)} (hsam : ∀ l n, (sampler l n).length ≤ n ∧ ∀ x ∈ sampler l n, x ∈ l)
    {H O : ℝ} (hH : |p.clip.zMin| ≤ H ∧ |p.clip.zMax| ≤ H) {origins : List (Vec3 ℝ)} (hO0 : 0 ≤ O)
    (hO : ∀ o ∈ origins, DDA.len o ≤ O) (raw : List (Pt ℝ ℕ)) :
    (b.filter sampler raw).length ≤ max p.numDefault p.numGlobal ∧
    ∀ q ∈ b.filter sampler raw, beamLength origins q ≤ p.clip.far + H + O := by
  obtain ⟨h1, h2, h3⟩ := hb.limits
  refine ⟨(hsam _ _).1.trans h3, fun q hq => ?_⟩
  have hq := (hsam _ _).2 q hq
  have hr := (List.mem_filter.1 hq).2
  rw [h1, h2] at hr
  unfold rejected at hr
  split_ifs at hr with a c d
  · cases hr
  · cases hr
  · cases hr
  rw [not_lt] at a
  rw [not_or, not_lt, not_lt] at d
  have hz : |q.pos.z| ≤ H := by
    have := abs_le.1 hH.1; have := abs_le.1 hH.2
    rw [abs_le]; constructor <;> linarith
  refine (len_add_le _ _).trans (add_le_add (len_le_of_clip hfar a hz) ?_)
  cases ho : origins[q.attr]? with
  | none => simpa [DDA.len] using hO0
  | some o => exact hO o (List.mem_of_getElem? ho)

/-- **C184**: so the work for a scan and a particle is bounded by the parameters, however large the map and the scan are:
by the number of points times the number of map grid steps along the longest beam (`far`: the clipping distance, `H`: the
clipping heights, `O`: the distances of the sensors from the robot) -/
theorem C184_work {p : BeamParams} {b : Beam} (hb : Beam.Reach p b) (hfar : 0 ≤ p.clip.far)
    {sampler : List (Pt ℝ ℕ) → ℕ → List (Pt ℝ ℕ)} (hsam : ∀ l n, (sampler l n).length ≤ n ∧ ∀ x ∈ sampler l n, x ∈ l)
    {H O : ℝ} (hH : |p.clip.zMin| ≤ H ∧ |p.clip.zMax| ≤ H) {origins : List (Vec3 ℝ)} (hO0 : 0 ≤ O)
    (hO : ∀ o ∈ origins, DDA.len o ≤ O) (raw : List (Pt ℝ ℕ)) {s : State6 ℝ} (hs : s.rot.dot s.rot = 1) :
    (∀ (cfg : KDRay.Cfg) (search : Vec3 ℝ → ℝ → Outcome (List (ℕ × ℝ))) (map : List (Vec3 ℝ × ℕ)) (c : Option KDRay.St) (k : ℕ),
      0 < cfg.gridMin → b.calls (kdCaster cfg search map) (some (b.filter sampler raw)) origins s c = .ok k →
      (k : ℝ) ≤ (max p.numDefault p.numGlobal : ℕ) * max 1 ((p.clip.far + H + O + cfg.hitTolerance) / cfg.gridMin)) ∧
    (∀ (cfg : DDA.Cfg) (map : Option DDA.Cloud) (c : DDA.St) (k : ℕ), 0 < cfg.gridSize → 0 ≤ cfg.hitTolerance →
      b.calls (ddaCaster cfg map) (some (b.filter sampler raw)) origins s c = .ok k →
      (k : ℝ) ≤ (max p.numDefault p.numGlobal : ℕ) *
        (3 + Real.sqrt 3 * ((p.clip.far + H + O + cfg.hitTolerance) / cfg.gridSize))) := by
  obtain ⟨h1, h2⟩ := filtered hb hfar hsam hH hO0 hO raw
  have hH0 : 0 ≤ H := (abs_nonneg _).trans hH.1
  refine ⟨fun cfg search map c k hg h => ?_, fun cfg map c k hg htol h => ?_⟩
  · refine (C184_kd cfg search map b hs origins _ c h).trans (sum_le_card (by positivity) (fun q hq => ?_) h1)
    have := h2 q hq
    exact max_le_max le_rfl (by gcongr)
  · refine (C184_dda hg htol map b hs origins _ c h).trans (sum_le_card (by positivity) (fun q hq => ?_) h1)
    have := h2 q hq
    gcongr

end Lidar

namespace Node

open Lidar

/-- Counting does not change the likelihoods of the particles. -/
theorem C184_batch_counting {C : Type} (P : Params) (lib : Lib C) (m : MapSt) (p : Prep) (qs : List Particle) :
    ∀ (w : WeighSt C) (k : ℕ), weighLoop P lib m p qs w =
      (weighLoop P (countingLib lib) m p qs ⟨(w.caster, k), w.ratioMin, w.ratioMax⟩).bind fun r =>
        .ok (r.1, ⟨r.2.caster.1, r.2.ratioMin, r.2.ratioMax⟩) := by
  induction qs with
  | nil => intros; rfl
  | cons q qs ih =>
    intro w k
    rw [weighLoop, weighLoop]
    unfold particleLikelihood
    rw [show caster P (countingLib lib) m = counting (caster P lib m) from rfl,
      show search P (countingLib lib) m = search P lib m from rfl, C184_counting _ (caster P lib m) _ _ _ w.caster k]
    simp only
    cases p.beam.measure (counting (caster P lib m)) (some p.beamPc) p.origins q.state (w.caster, k) with
    | throws _ => rfl
    | ub _ => rfl
    | ok rb =>
      simp only [Outcome.bind_ok]
      cases p.like.measure (search P lib m) (some p.likePc) q.state with
      | throws _ => rfl
      | ub _ => rfl
      | ok rl =>
        simp only [Outcome.bind_ok]
        rw [ih _ rb.2.2]
        simp only
        cases weighLoop P (countingLib lib) m p qs _ <;> rfl

theorem ends_inl {P : Params} {cloud : Option DDA.Cloud} {search : Vec3 ℝ → ℝ → Outcome (List (ℕ × ℝ))} :
    ∀ (m : ℕ) (c : DDA.St), EndsWithin (ddaCaster ⟨P.mapDownsample.x, P.mapDownsample.y, P.mapDownsample.z, P.ddaGridSize,
      P.rayAngleHalf, P.beam.hitRange⟩ cloud) m c → EndsWithin (realCaster P cloud search) m (.inl c) := by
  intro m
  induction m with
  | zero => intro c h; exact h
  | succ m ih =>
    intro c h r hr
    obtain ⟨x, hx, hr⟩ := Outcome.bind_eq_ok_iff.1 hr
    simp only [Outcome.ok.injEq] at hr
    rcases h x hx with h0 | h0
    · left; rw [← hr]; exact h0
    · right; rw [← hr]; exact ih _ h0

theorem ends_inr {P : Params} {cloud : Option DDA.Cloud} {search : Vec3 ℝ → ℝ → Outcome (List (ℕ × ℝ))} :
    ∀ (m : ℕ) (c : Option KDRay.St), EndsWithin (kdCaster ⟨P.mapDownsample.x, P.mapDownsample.y, P.mapDownsample.z, P.beam.hitRange⟩
      search ((cloud.map DDA.Cloud.pts).getD [])) m c → EndsWithin (realCaster P cloud search) m (.inr c) := by
  intro m
  induction m with
  | zero => intro c h; exact h
  | succ m ih =>
    intro c h r hr
    obtain ⟨x, hx, hr⟩ := Outcome.bind_eq_ok_iff.1 hr
    simp only [Outcome.ok.injEq] at hr
    rcases h x hx with h0 | h0
    · left; rw [← hr]; exact h0
    · right; rw [← hr]; exact ih _ h0

/-- **C184**: in the node, while the likelihoods of all the particles are computed for a batch, the ray caster (whichever is
configured) is asked for at most `particles × points × steps` results. -/
theorem C184_batch {P : Params} (hg : 0 < min (min P.mapDownsample.x P.mapDownsample.y) P.mapDownsample.z)
    (hdg : 0 < P.ddaGridSize) (hr : 0 ≤ P.beam.hitRange)
    {flann : List (Vec3 ℝ) → Vec3 ℝ → ℝ → ℕ → List (ℕ × ℝ)}
    {solve3 : Matrix (Fin 3) (Fin 3) ℝ → (Fin 3 → ℝ) × Matrix (Fin 3) (Fin 3) ℝ}
    {solve6 : (Fin 6 → Fin 6 → ℝ) → (Fin 6 → ℝ) × (Fin 6 → Fin 6 → ℝ)} {m : MapSt} {p : Prep} {N : ℕ} {R : ℝ}
    (hN : p.beamPc.length ≤ N) (_hR0 : 0 ≤ R) (hR : ∀ q ∈ p.beamPc, beamLength p.origins q ≤ R) {qs : List Particle} :
    (∀ q ∈ qs, q.state.rot.dot q.state.rot = 1) →
    ∀ {w : WeighSt (CastSt × ℕ)} {r : List ℝ × WeighSt (CastSt × ℕ)},
      weighLoop P (countingLib (realLib P flann solve3 solve6)) m p qs w = .ok r →
      (r.2.caster.2 : ℝ) ≤ w.caster.2 + qs.length * (N * max
        (max 1 ((R + P.beam.hitRange) / min (min P.mapDownsample.x P.mapDownsample.y) P.mapDownsample.z))
        (3 + Real.sqrt 3 * ((R + P.beam.hitRange) / P.ddaGridSize))) := by
  set S := max (max 1 ((R + P.beam.hitRange) / min (min P.mapDownsample.x P.mapDownsample.y) P.mapDownsample.z))
    (3 + Real.sqrt 3 * ((R + P.beam.hitRange) / P.ddaGridSize)) with hS
  have hS0 : 0 ≤ S := zero_le_one.trans ((le_max_left _ _).trans (le_max_left _ _))
  induction qs with
  | nil =>
    intro _ w r h
    simp only [weighLoop, Outcome.ok.injEq] at h
    rw [← h]; simp
  | cons q qs ih =>
    intro hu w r h
    rw [weighLoop] at h
    obtain ⟨⟨l1, w1⟩, h1, h2⟩ := Outcome.bind_eq_ok_iff.1 h
    obtain ⟨⟨ls, w2⟩, h3, h4⟩ := Outcome.bind_eq_ok_iff.1 h2
    simp only [Outcome.ok.injEq] at h4
    have a2 := ih (fun x hx => hu x (List.mem_cons_of_mem _ hx)) h3
    obtain ⟨rb, hb, h5⟩ := Outcome.bind_eq_ok_iff.1 h1
    obtain ⟨rl, hl, h6⟩ := Outcome.bind_eq_ok_iff.1 h5
    simp only [Outcome.ok.injEq, Prod.mk.injEq] at h6
    obtain ⟨-, rfl⟩ := h6
    have hq := hu q List.mem_cons_self
    have a1 : (rb.2.2 : ℝ) ≤ w.caster.2 + (p.beamPc.map fun _ => S).sum := by
      refine measure_calls (caster := caster P (realLib P flann solve3 solve6) m) (B := fun _ => S)
        (fun x hx o ho c c' hset => ?_) hb
      have hlen : DDA.len (q.state.rot.normalized.rotate x.pos + q.state.pos - (q.state.pos + q.state.rot.rotate o)) ≤ R := by
        rw [beam_len hq]
        have := hR x hx
        simpa only [beamLength, ho, Option.getD_some] using this
      cases c with
      | inl c =>
        obtain ⟨y, hy, hc⟩ := Outcome.bind_eq_ok_iff.1 hset
        simp only [Outcome.ok.injEq] at hc
        obtain ⟨k, hk, hk'⟩ := dda_setRay (cfg := ⟨P.mapDownsample.x, P.mapDownsample.y, P.mapDownsample.z, P.ddaGridSize,
          P.rayAngleHalf, P.beam.hitRange⟩) hdg hr _ hy
        refine ⟨k, hc ▸ ends_inl k y hk, hk'.trans (le_trans ?_ (le_max_right _ _))⟩
        simp only
        gcongr
      | inr c =>
        obtain ⟨y, hy, hc⟩ := Outcome.bind_eq_ok_iff.1 hset
        simp only [Outcome.ok.injEq] at hc
        obtain ⟨k, hk, hk'⟩ := kd_setRay ⟨P.mapDownsample.x, P.mapDownsample.y, P.mapDownsample.z, P.beam.hitRange⟩ _ _ hy
        refine ⟨k, hc ▸ ends_inr k y hk, hk'.trans (le_trans ?_ (le_max_left _ _))⟩
        refine max_le_max le_rfl ?_
        rw [show KDRay.Cfg.gridMin ⟨P.mapDownsample.x, P.mapDownsample.y, P.mapDownsample.z, P.beam.hitRange⟩ =
          min (min P.mapDownsample.x P.mapDownsample.y) P.mapDownsample.z from rfl]
        gcongr
    have a3 : (p.beamPc.map fun _ => S).sum ≤ N * S := sum_le_card hS0 (fun _ _ => le_rfl) hN
    rw [← h4]
    simp only [List.length_cons] at a2 ⊢
    push_cast
    linarith

end Node

namespace Lidar

/-- C184: the bound is attained: a beam of 3 m in an empty place of a map with 1 m cells takes 3 calls. -/
theorem C184_attained : ∃ (b : Beam) (cfg : KDRay.Cfg) (search : Vec3 ℝ → ℝ → Outcome (List (ℕ × ℝ))) (origins : List (Vec3 ℝ))
    (pc : List (Pt ℝ ℕ)) (s : State6 ℝ) (k : ℕ), s.rot.dot s.rot = 1 ∧ pc ≠ [] ∧
    b.calls (kdCaster cfg search []) (some pc) origins s none = .ok k ∧
    (k : ℝ) = (pc.map fun p => max 1 ((beamLength origins p + cfg.hitTolerance) / cfg.gridMin)).sum := by
  have hr : ∀ v : Vec3 ℝ, (1 : Quat ℝ).rotate v = v := fun v => (Quat.C29_one 1 v).2.2
  have hz : ∀ v : Vec3 ℝ, v + 0 = v := fun v => Vec3.ext (add_zero _) (add_zero _) (add_zero _)
  have hz' : ∀ v : Vec3 ℝ, 0 + v = v := fun v => Vec3.ext (zero_add _) (zero_add _) (zero_add _)
  have hn : (1 : Quat ℝ).normalized = 1 := Quat.C31_normalized_unit 1 (by simp [Quat.dot])
  let cfg : KDRay.Cfg := ⟨1, 1, 1, 0⟩
  have hgm : cfg.gridMin = 1 := by norm_num [KDRay.Cfg.gridMin, cfg]
  let search : Vec3 ℝ → ℝ → Outcome (List (ℕ × ℝ)) := fun _ _ => .ok []
  let b := Beam.make exParams
  let e : Vec3 ℝ := ⟨3, 0, 0⟩
  have h9 : Real.sqrt 9 = 3 := by rw [show (9 : ℝ) = 3 ^ 2 by norm_num]; exact Real.sqrt_sq (by norm_num)
  have hnorm : (e - 0).norm = 3 := by
    unfold Vec3.norm
    rw [← h9]; congr 1
    show (3 - 0) * (3 - 0) + (0 - 0) * (0 - 0) + (0 - 0) * (0 - 0) = (9 : ℝ)
    norm_num
  have hdot : (e - 0).dot (e - 0) ≠ 0 := by
    show (3 - 0) * (3 - 0) + (0 - 0) * (0 - 0) + (0 - 0) * (0 - 0) ≠ (0 : ℝ)
    norm_num
  obtain ⟨p0, inc, hset⟩ : ∃ p0 inc, KDRay.setRay cfg 0 e = .ok ⟨p0, some inc, 3, 1⟩ := by
    refine ⟨0 + (e - 0).normalized.smul 1, (e - 0).normalized.smul 1, ?_⟩
    unfold KDRay.setRay
    rw [hgm, if_neg one_ne_zero, hnorm]
    rw [show ⌊((3 : ℝ) + cfg.hitTolerance) / 1⌋ = 3 by
      show ⌊((3 : ℝ) + 0) / 1⌋ = 3
      norm_num, DDA.i32_of (by norm_num) (by norm_num), Outcome.bind_ok, if_neg hdot]
  have hnext : ∀ (p : Vec3 ℝ) (n : ℤ) (k : ℕ), n < 3 → (counting (kdCaster cfg search [])).next (some ⟨p, some inc, 3, n⟩, k) =
      .ok (some ⟨false, 0, none⟩, (some ⟨p + inc, some inc, 3, n + 1⟩, k + 1)) := by
    intro p n k h
    show (((KDRay.getNext cfg search 0 ⟨p, some inc, 3, n⟩).bind _).bind _ : Outcome _) = _
    unfold KDRay.getNext
    rw [if_neg (by simpa using h)]
    rfl
  have hend : ∀ (p : Vec3 ℝ) (k : ℕ), (counting (kdCaster cfg search [])).next (some ⟨p, some inc, 3, 3⟩, k) =
      .ok (none, (some ⟨p, some inc, 3, 3⟩, k + 1)) := by
    intro p k
    have hn : KDRay.getNext cfg search 0 ⟨p, some inc, 3, 3⟩ = .ok (none, ⟨p, some inc, 3, 3⟩) := by
      unfold KDRay.getNext
      rw [if_pos le_rfl]
    unfold counting kdCaster
    simp only [List.length_nil, hn, Outcome.bind_ok, Option.map_none]
  have hbeam : ∃ x, getBeamStatus b (counting (kdCaster cfg search [])) 0 e (none, 0) = .ok (.long, (x, 3)) := by
    have hs : (counting (kdCaster cfg search [])).setRay (none, 0) 0 e = .ok (some ⟨p0, some inc, 3, 1⟩, 0) := by
      show (((KDRay.setRay cfg 0 e).bind _).bind _ : Outcome _) = _
      rw [hset]; rfl
    unfold getBeamStatus
    rw [hs, Outcome.bind_ok, beamRound_skip b _ e (hnext p0 1 0 (by norm_num)) (by simp) (by simp [Accepted]),
      beamRound_skip b _ e (hnext _ (1 + 1) (0 + 1) (by norm_num)) (by simp) (by simp [Accepted]),
      show (1 + 1 + 1 : ℤ) = 3 from rfl, beamRound_end b _ e (hend _ _)]
    exact ⟨_, rfl⟩
  obtain ⟨x, hbeam⟩ := hbeam
  refine ⟨b, cfg, search, [0], [⟨e, 0⟩], State6.default, 3, by simp [State6.default, Quat.dot], by simp, ?_, ?_⟩
  · have ht : (State6.default : State6 ℝ).transform [(⟨e, 0⟩ : Pt ℝ ℕ)] = [⟨e, 0⟩] := by
      simp only [State6.transform, State6.default, hn, hr, hz, List.map_cons, List.map_nil]
    unfold Beam.calls Beam.measure
    simp only [List.length_singleton, one_ne_zero, if_false, ht]
    rw [beamLoop]
    simp only [List.getElem?_cons_zero]
    rw [show (State6.default : State6 ℝ).pos + (State6.default : State6 ℝ).rot.rotate 0 = 0 by
      show (0 : Vec3 ℝ) + (1 : Quat ℝ).rotate 0 = 0
      rw [hr, hz], hbeam]
    rfl
  · have hl : beamLength [0] ⟨e, 0⟩ = 3 := by
      show DDA.len (e - 0) = 3
      rw [← DDA.norm_eq_len, hnorm]
    simp only [List.map_cons, List.map_nil, List.sum_cons, List.sum_nil, hl, hgm]
    show ((3 : ℕ) : ℝ) = max 1 ((3 + 0) / 1) + 0
    norm_num

/-- C184 applied with the grid caster: the map and ray of `DDA.Example`. -/
example : ∃ k : ℕ, (Beam.make exParams).calls (ddaCaster DDA.Example.cfg (some DDA.Example.map1))
    (some [⟨DDA.Example.e, 0⟩]) [0] State6.default DDA.St.fresh = .ok k ∧
    (k : ℝ) ≤ ([(⟨DDA.Example.e, 0⟩ : Pt ℝ ℕ)].map fun p => 3 + Real.sqrt 3 *
      ((beamLength [0] p + DDA.Example.cfg.hitTolerance) / DDA.Example.cfg.gridSize)).sum := by
  have hr : ∀ v : Vec3 ℝ, (1 : Quat ℝ).rotate v = v := fun v => (Quat.C29_one 1 v).2.2
  have hz : ∀ v : Vec3 ℝ, v + 0 = v := fun v => Vec3.ext (add_zero _) (add_zero _) (add_zero _)
  have hn : (1 : Quat ℝ).normalized = 1 := Quat.C31_normalized_unit 1 (by simp [Quat.dot])
  have ht : (State6.default : State6 ℝ).transform [(⟨DDA.Example.e, 0⟩ : Pt ℝ ℕ)] = [⟨DDA.Example.e, 0⟩] := by
    simp only [State6.transform, State6.default, hn, hr, hz, List.map_cons, List.map_nil]
  have ho : (State6.default : State6 ℝ).pos + (State6.default : State6 ℝ).rot.rotate 0 = DDA.Example.b := by
    show (0 : Vec3 ℝ) + (1 : Quat ℝ).rotate 0 = _
    rw [hr, hz]; rfl
  obtain ⟨s1, hs1⟩ := DDA.Example.setRay_ok DDA.Reachable.fresh
  obtain ⟨st, s2, h, -⟩ := C66_dda (S := {DDA.Example.map1}) (by norm_num [DDA.Example.cfg]) DDA.Example.stampsDiffer
    DDA.Reachable.fresh rfl (Beam.Reach.make (p := exParams)) (by norm_num [exParams]) hs1
  have hm : ∃ res, (Beam.make exParams).measure (ddaCaster DDA.Example.cfg (some DDA.Example.map1))
      (some [⟨DDA.Example.e, 0⟩]) [0] State6.default DDA.St.fresh = .ok res := by
    refine ⟨(⟨_, 1⟩, s2), (measure_eq (by simp)).2 ⟨[st], ?_, rfl, rfl⟩⟩
    rw [ht]
    exact .cons rfl (by rw [ho]; exact h) .nil
  obtain ⟨k, hk⟩ := C184_counted hm
  exact ⟨k, hk, C184_dda (by norm_num [DDA.Example.cfg]) (by norm_num [DDA.Example.cfg]) _ _
    (by simp [State6.default, Quat.dot]) _ _ _ hk⟩

end Lidar
end Mcl3dl
