import Verif.Spec.ScanOrder
import Verif.Props.LidarBeam
import Verif.Props.LidarLike

/-! # C152: earlier casts and the order of the points do not matter -/

set_option linter.unusedSectionVars false

namespace Mcl3dl
namespace DDA

/-- The grid of a used caster is the grid a new one would build from the same cloud. -/
theorem reachable_build {cfg : Cfg} (hg : 0 < cfg.gridSize) {S : Set Cloud} {s : St} (h : Reachable cfg S s) :
    ∀ g, s.grid = some g → ∃ c ∈ S, build cfg c = .ok g ∧ g.stamp = c.stamp := by
  induction h with
  | fresh => intro g hgr; cases hgr
  | @setRay s s' cloud b e _ hc hs ih =>
    unfold DDA.setRay at hs
    obtain ⟨g2, hu, hs⟩ := bind_eq_ok hs
    have key : ∀ g, g2 = some g → ∃ c ∈ S, build cfg c = .ok g ∧ g.stamp = c.stamp := by
      intro g hg2
      subst hg2
      unfold updatePointCloud at hu
      cases cloud with
      | none => simp only [Outcome.ok.injEq] at hu; exact ih g hu
      | some c =>
        have hnew : ((build cfg c).bind fun n => Outcome.ok (some n)) = .ok (some g) →
            ∃ c ∈ S, build cfg c = .ok g ∧ g.stamp = c.stamp := by
          intro h
          obtain ⟨n, hn, h⟩ := bind_eq_ok h
          cases h
          exact ⟨c, hc c rfl, hn, (build_ok hg hn).2.1⟩
        simp only at hu
        split at hu
        · rename_i old hold
          split_ifs at hu with hst
          · simp only [Outcome.ok.injEq] at hu; exact ih g hu
          · exact hnew hu
        · exact hnew hu
    cases g2 with
    | none => cases hs
    | some g2 =>
      simp only at hs
      split_ifs at hs with hw
      · obtain ⟨r, -, hs⟩ := bind_eq_ok hs
        cases hs
        intro g hgr
        exact key g hgr
      · cases hs
        intro g hgr
        exact key g hgr
  | @next s s' r _ hn ih =>
    intro g hgr
    rw [Lidar.getNext_grid hn] at hgr
    exact ih g hgr

theorem update_fresh {cfg : Cfg} (hg : 0 < cfg.gridSize) {S : Set Cloud} (hS : StampsDiffer S) {s : St}
    (h : Reachable cfg S s) {c : Cloud} (hc : c ∈ S) :
    updatePointCloud cfg s.grid (some c) = updatePointCloud cfg none (some c) := by
  unfold updatePointCloud
  cases hgr : s.grid with
  | none => rfl
  | some old =>
    simp only
    split_ifs with hst
    · obtain ⟨c0, hc0, hb, hs⟩ := reachable_build hg h old hgr
      have : c0 = c := hS c0 hc0 c hc (by rw [← hs, ← hst])
      subst this
      rw [hb]
      rfl
    · rfl

/-- After `setRay`, a used and a new caster are in the same state, or both are at the end of their ray. -/
theorem setRay_fresh {cfg : Cfg} (hg : 0 < cfg.gridSize) {S : Set Cloud} (hS : StampsDiffer S) {s : St}
    (h : Reachable cfg S s) {c : Cloud} (hc : c ∈ S) (b e : Vec3 ℝ) :
    setRay cfg s (some c) b e = setRay cfg St.fresh (some c) b e ∨
    ∃ g r r', setRay cfg s (some c) b e = .ok ⟨some g, some r⟩ ∧
      setRay cfg St.fresh (some c) b e = .ok ⟨some g, some r'⟩ ∧ r.maxMov ≤ r.pos ∧ r'.maxMov ≤ r'.pos := by
  have hu := update_fresh hg hS h hc
  unfold setRay
  rw [hu]
  have e0 : St.fresh.grid = none := rfl
  rw [e0]
  cases hcase : updatePointCloud cfg none (some c) with
  | throws m => left; rfl
  | ub w => left; rfl
  | ok g =>
    cases g with
    | none => left; rfl
    | some g =>
      simp only [Outcome.bind_ok]
      split_ifs with hw
      · left; rfl
      · right
        exact ⟨g, _, _, rfl, rfl, le_refl _, le_refl _⟩

theorem nexts_ended {cfg : Cfg} (n : ℕ) : ∀ {g : Grid} {r : Ray}, r.maxMov ≤ r.pos →
    (nexts cfg n ⟨some g, some r⟩).answer = .ok (List.replicate n none) := by
  induction n with
  | zero => intros; rfl
  | succ n ih =>
    intro g r hr
    have ha : advance g r = (false, { r with pos := r.pos + 1 }) := by
      unfold advance
      simp only
      rw [if_pos (by omega)]
    have hn : getNext cfg ⟨some g, some r⟩ = .ok (none, ⟨some g, some { r with pos := r.pos + 1 }⟩) := by
      unfold getNext
      simp only [ha]
    have := ih (g := g) (r := { r with pos := r.pos + 1 }) (by show r.maxMov ≤ r.pos + 1; omega)
    rw [nexts, hn, Outcome.bind_ok]
    cases hx : nexts cfg n ⟨some g, some { r with pos := r.pos + 1 }⟩ with
    | ok x =>
      rw [hx] at this
      simp only [Outcome.answer, Outcome.ok.injEq] at this
      simp only [Outcome.bind_ok, Outcome.answer, this, List.replicate_succ]
    | throws m => rw [hx] at this; cases this
    | ub w => rw [hx] at this; cases this

/-- C152: the DDA caster: whatever rays were cast before, in this or other clouds, the answers along a new ray are those
of a new object. -/
theorem C152_dda {cfg : Cfg} (hg : 0 < cfg.gridSize) {S : Set Cloud} (hS : StampsDiffer S) {s : St}
    (h : Reachable cfg S s) {c : Cloud} (hc : c ∈ S) (b e : Vec3 ℝ) (n : ℕ) :
    castAnswers cfg c b e n s = castAnswers cfg c b e n St.fresh := by
  unfold castAnswers
  rcases setRay_fresh hg hS h hc b e with h | ⟨g, r, r', h1, h2, hr, hr'⟩
  · rw [h]
  · rw [h1, h2, Outcome.bind_ok, Outcome.bind_ok, nexts_ended n hr, nexts_ended n hr']

end DDA

namespace Lidar

/-- The answers of the beam model do not depend on the state of the caster, among the states in `I`. -/
def Forgets {C : Type} (b : Beam) (caster : Caster C) (I : C → Prop) : Prop :=
  (∀ c c' lidar scan, I c → I c' →
    (getBeamStatus b caster lidar scan c).answer = (getBeamStatus b caster lidar scan c').answer) ∧
  ∀ c c' lidar scan st, I c → getBeamStatus b caster lidar scan c = .ok (st, c') → I c'

theorem answer_ok {A C : Type} {x : Outcome (A × C)} {a : A} : x.answer = .ok a ↔ ∃ c, x = .ok (a, c) := by
  cases x with
  | ok x => obtain ⟨y, c⟩ := x; simp [Outcome.answer]
  | throws m => simp [Outcome.answer]
  | ub w => simp [Outcome.answer]

theorem forgets_kd (b : Beam) (cfg : KDRay.Cfg) (search : Vec3 ℝ → ℝ → Outcome (List (ℕ × ℝ))) (pts : List (Vec3 ℝ × ℕ)) :
    Forgets b (kdCaster cfg search pts) fun _ => True := ⟨fun _ _ _ _ _ _ => rfl, fun _ _ _ _ _ _ _ => trivial⟩

theorem reachable_next {cfg : DDA.Cfg} {S : Set DDA.Cloud} {cloud : Option DDA.Cloud} {s s' : DDA.St} {r : Option Cast}
    (h : DDA.Reachable cfg S s) (hn : (ddaCaster cfg cloud).next s = .ok (r, s')) : DDA.Reachable cfg S s' := by
  unfold ddaCaster at hn
  simp only at hn
  split_ifs at hn
  obtain ⟨x, hx, hn⟩ := DDA.bind_eq_ok hn
  cases hn
  exact .next h hx

theorem status_ended {b : Beam} {cfg : DDA.Cfg} {c : DDA.Cloud} {scan : Vec3 ℝ} {g : DDA.Grid} {r : DDA.Ray} (hr : r.maxMov ≤ r.pos) :
    (loopO (beamRound b (ddaCaster cfg (some c)) scan) ⟨some g, some r⟩).answer = .ok .long := by
  have ha : DDA.advance g r = (false, { r with pos := r.pos + 1 }) := by
    unfold DDA.advance
    simp only
    rw [if_pos (by omega)]
  have hn : (ddaCaster cfg (some c)).next ⟨some g, some r⟩ = .ok (none, ⟨some g, some { r with pos := r.pos + 1 }⟩) := by
    unfold ddaCaster
    simp only
    rw [if_neg]
    · unfold DDA.getNext
      simp only [ha, Outcome.bind_ok, Option.map_none]
    · rintro ⟨g', r0, r', a, p, hg, hr0, hadv, -⟩
      cases hg; cases hr0
      rw [ha] at hadv
      cases hadv
  rw [beamRound_end b _ scan hn]
  rfl

theorem forgets_dda {b : Beam} {cfg : DDA.Cfg} (hg : 0 < cfg.gridSize) {S : Set DDA.Cloud} (hS : DDA.StampsDiffer S)
    {c : DDA.Cloud} (hc : c ∈ S) : Forgets b (ddaCaster cfg (some c)) (DDA.Reachable cfg S) := by
  have key : ∀ s lidar scan, DDA.Reachable cfg S s → (getBeamStatus b (ddaCaster cfg (some c)) lidar scan s).answer =
      (getBeamStatus b (ddaCaster cfg (some c)) lidar scan DDA.St.fresh).answer := by
    intro s lidar scan hs
    unfold getBeamStatus
    show ((DDA.setRay cfg s (some c) lidar scan).bind _).answer = ((DDA.setRay cfg DDA.St.fresh (some c) lidar scan).bind _).answer
    rcases DDA.setRay_fresh hg hS hs hc lidar scan with h | ⟨g, r, r', h1, h2, hr, hr'⟩
    · rw [h]
    · rw [h1, h2, Outcome.bind_ok, Outcome.bind_ok, status_ended hr, status_ended hr']
  refine ⟨fun s s' lidar scan hs hs' => by rw [key s lidar scan hs, key s' lidar scan hs'], ?_⟩
  intro s s' lidar scan st hs h
  refine getBeamStatus_inv (I := DDA.Reachable cfg S) ?_ ?_ hs h
  · intro a a' l e ha hr
    exact .setRay ha (fun c' hc' => by cases hc'; exact hc) hr
  · intro a a' r ha hn
    exact reachable_next ha hn

/-- With a forgetting caster the loop of `measure` is a product of independent answers. -/
theorem beamLoop_forgets {C : Type} {b : Beam} {caster : Caster C} {I : C → Prop} (h : Forgets b caster I)
    {origins : List (Vec3 ℝ)} {s : State6 ℝ} (pts : List (Pt ℝ ℕ)) : ∀ (x : ℝ) (c c' : C), I c → I c' →
    (beamLoop b caster origins s pts x c).answer = (beamLoop b caster origins s pts x c').answer := by
  induction pts with
  | nil => intros; rfl
  | cons p ps ih =>
    intro x c c' hc hc'
    simp only [beamLoop]
    cases origins[p.attr]? with
    | none => rfl
    | some o =>
      simp only
      have h1 := h.1 c c' (s.pos + s.rot.rotate o) p.pos hc hc'
      cases ha : getBeamStatus b caster (s.pos + s.rot.rotate o) p.pos c with
      | ok y =>
        obtain ⟨st, c1⟩ := y
        rw [ha] at h1
        obtain ⟨c2, hb⟩ := answer_ok.1 h1.symm
        rw [hb, Outcome.bind_ok, Outcome.bind_ok]
        exact ih _ _ _ (h.2 _ _ _ _ _ hc ha) (h.2 _ _ _ _ _ hc' hb)
      | throws m =>
        rw [ha] at h1
        cases hb : getBeamStatus b caster (s.pos + s.rot.rotate o) p.pos c' with
        | ok y => rw [hb] at h1; cases h1
        | throws m' => rw [hb] at h1; cases h1; rfl
        | ub w => rw [hb] at h1; cases h1
      | ub w =>
        rw [ha] at h1
        cases hb : getBeamStatus b caster (s.pos + s.rot.rotate o) p.pos c' with
        | ok y => rw [hb] at h1; cases h1
        | throws m' => rw [hb] at h1; cases h1
        | ub w' => rw [hb] at h1; cases h1; rfl

theorem measure_forgets {C : Type} {b : Beam} {caster : Caster C} {I : C → Prop} (h : Forgets b caster I)
    (pc : Option (List (Pt ℝ ℕ))) (origins : List (Vec3 ℝ)) (s : State6 ℝ) (c c' : C) (hc : I c) (hc' : I c') :
    (b.measure caster pc origins s c).answer = (b.measure caster pc origins s c').answer := by
  unfold Beam.measure
  cases pc with
  | none => rfl
  | some pc =>
    simp only
    split_ifs
    · rfl
    · have h1 := beamLoop_forgets h (origins := origins) (s := s) (s.transform pc) 1 c c' hc hc'
      cases ha : beamLoop b caster origins s (s.transform pc) 1 c with
      | ok y =>
        rw [ha] at h1
        obtain ⟨c2, hb⟩ := answer_ok.1 h1.symm
        rw [hb]; rfl
      | throws m =>
        rw [ha] at h1
        cases hb : beamLoop b caster origins s (s.transform pc) 1 c' with
        | ok y => rw [hb] at h1; cases h1
        | throws m' => rw [hb] at h1; cases h1; rfl
        | ub w => rw [hb] at h1; cases h1
      | ub w =>
        rw [ha] at h1
        cases hb : beamLoop b caster origins s (s.transform pc) 1 c' with
        | ok y => rw [hb] at h1; cases h1
        | throws m' => rw [hb] at h1; cases h1
        | ub w' => rw [hb] at h1; cases h1; rfl

/-- C152: the beam model: what was measured before (other particles, other scans, with the DDA caster also other maps) does
not change the answer of a measurement, with either ray caster. -/
theorem C152_beam (b : Beam) (pc : Option (List (Pt ℝ ℕ))) (origins : List (Vec3 ℝ)) (s : State6 ℝ) :
    (∀ (cfg : KDRay.Cfg) (search : Vec3 ℝ → ℝ → Outcome (List (ℕ × ℝ))) (pts : List (Vec3 ℝ × ℕ)) (c : Option KDRay.St),
      (b.measure (kdCaster cfg search pts) pc origins s c).answer =
        (b.measure (kdCaster cfg search pts) pc origins s none).answer) ∧
    (∀ (cfg : DDA.Cfg) (S : Set DDA.Cloud) (cloud : DDA.Cloud) (c : DDA.St), 0 < cfg.gridSize → DDA.StampsDiffer S → cloud ∈ S →
      DDA.Reachable cfg S c →
      (b.measure (ddaCaster cfg (some cloud)) pc origins s c).answer =
        (b.measure (ddaCaster cfg (some cloud)) pc origins s DDA.St.fresh).answer) :=
  ⟨fun cfg search pts c => measure_forgets (forgets_kd b cfg search pts) pc origins s c none trivial trivial,
    fun _ _ _ c hg hS hcl hc => measure_forgets (forgets_dda hg hS hcl) pc origins s c DDA.St.fresh hc .fresh⟩

theorem beamLoop_swap {C : Type} {b : Beam} {caster : Caster C} {I : C → Prop} (h : Forgets b caster I)
    {origins : List (Vec3 ℝ)} {s : State6 ℝ} {pts pts' : List (Pt ℝ ℕ)} (hp : pts.Perm pts') : ∀ (x : ℝ) (c : C) (y : ℝ), I c →
    (beamLoop b caster origins s pts x c).answer = .ok y → (beamLoop b caster origins s pts' x c).answer = .ok y := by
  have head : ∀ (p : Pt ℝ ℕ) (ps : List (Pt ℝ ℕ)) (x : ℝ) (c : C) (y : ℝ), I c →
      ((beamLoop b caster origins s (p :: ps) x c).answer = .ok y ↔
        ∃ o st c1, origins[p.attr]? = some o ∧ getBeamStatus b caster (s.pos + s.rot.rotate o) p.pos c = .ok (st, c1) ∧ I c1 ∧
          (beamLoop b caster origins s ps (if b.penalises st then x * b.beamLikelihood else x) c1).answer = .ok y) := by
    intro p ps x c y hc
    rw [beamLoop]
    cases ho : origins[p.attr]? with
    | none => simp [Outcome.answer]
    | some o =>
      simp only
      cases ha : getBeamStatus b caster (s.pos + s.rot.rotate o) p.pos c with
      | ok z =>
        obtain ⟨st, c1⟩ := z
        rw [Outcome.bind_ok]
        constructor
        · intro hh
          exact ⟨o, st, c1, rfl, ha, h.2 _ _ _ _ _ hc ha, hh⟩
        · rintro ⟨o', st', c1', ho', ha', -, hh⟩
          cases ho'
          rw [ha] at ha'
          cases ha'
          exact hh
      | throws m =>
        constructor
        · intro hh; cases hh
        · rintro ⟨o', st', c1', ho', ha', -, hh⟩
          cases ho'; rw [ha] at ha'; cases ha'
      | ub w =>
        constructor
        · intro hh; cases hh
        · rintro ⟨o', st', c1', ho', ha', -, hh⟩
          cases ho'; rw [ha] at ha'; cases ha'
  induction hp with
  | nil => intro x c y _ hh; exact hh
  | cons p _ ih =>
    intro x c y hc hh
    rw [head _ _ _ _ _ hc] at hh ⊢
    obtain ⟨o, st, c1, ho, ha, hI, hh⟩ := hh
    exact ⟨o, st, c1, ho, ha, hI, ih _ _ _ hI hh⟩
  | swap p q ps =>
    intro x c y hc hh
    rw [head _ _ _ _ _ hc] at hh
    obtain ⟨o, st, c1, ho, ha, hI, hh⟩ := hh
    rw [head _ _ _ _ _ hI] at hh
    obtain ⟨o2, st2, c2, ho2, ha2, hI2, hh⟩ := hh
    have e2 := h.1 c c1 (s.pos + s.rot.rotate o2) p.pos hc hI
    rw [ha2] at e2
    obtain ⟨d1, hd1⟩ := answer_ok.1 e2
    have hJ := h.2 _ _ _ _ _ hc hd1
    have e1 := h.1 d1 c (s.pos + s.rot.rotate o) q.pos hJ hc
    rw [ha] at e1
    obtain ⟨d2, hd2⟩ := answer_ok.1 e1
    have hJ2 := h.2 _ _ _ _ _ hJ hd2
    rw [head _ _ _ _ _ hc]
    refine ⟨o2, st2, d1, ho2, hd1, hJ, ?_⟩
    rw [head _ _ _ _ _ hJ]
    refine ⟨o, st, d2, ho, hd2, hJ2, ?_⟩
    rw [beamLoop_forgets h ps _ d2 c2 hJ2 hI2, ← hh]
    congr 2
    by_cases h1 : b.penalises st <;> by_cases h2 : b.penalises st2 <;> simp [h1, h2]
  | trans _ _ ih1 ih2 =>
    intro x c y hc hh
    exact ih2 _ _ _ hc (ih1 _ _ _ hc hh)

theorem measure_swap {C : Type} {b : Beam} {caster : Caster C} {I : C → Prop} (h : Forgets b caster I)
    {origins : List (Vec3 ℝ)} {s : State6 ℝ} {pc pc' : List (Pt ℝ ℕ)} (hp : pc.Perm pc') (c : C) (r : Result) (hc : I c)
    (hh : (b.measure caster (some pc) origins s c).answer = .ok r) :
    (b.measure caster (some pc') origins s c).answer = .ok r := by
  unfold Beam.measure at hh ⊢
  simp only at hh ⊢
  rw [← hp.length_eq]
  split_ifs at hh ⊢
  · exact hh
  · have ht : (s.transform pc).Perm (s.transform pc') := hp.map _
    cases ha : beamLoop b caster origins s (s.transform pc) 1 c with
    | throws m => rw [ha] at hh; cases hh
    | ub w => rw [ha] at hh; cases hh
    | ok z =>
      obtain ⟨y, c1⟩ := z
      have h1 := beamLoop_swap h ht 1 c y hc (by rw [ha]; rfl)
      obtain ⟨c2, h2⟩ := answer_ok.1 h1
      rw [h2]
      rw [ha] at hh
      exact hh

/-- C152: the order of the points of a scan does not matter: if a scan is measured, every rearrangement of it gets
the same likelihood and quality, in the beam model with either ray caster and in the likelihood-field model. -/
theorem C152_order {pc pc' : List (Pt ℝ ℕ)} (hp : pc.Perm pc') (s : State6 ℝ) :
    (∀ (b : Beam) (origins : List (Vec3 ℝ)) (cfg : KDRay.Cfg) (search : Vec3 ℝ → ℝ → Outcome (List (ℕ × ℝ)))
      (pts : List (Vec3 ℝ × ℕ)) (c : Option KDRay.St) (r : Result),
      (b.measure (kdCaster cfg search pts) (some pc) origins s c).answer = .ok r →
      (b.measure (kdCaster cfg search pts) (some pc') origins s c).answer = .ok r) ∧
    (∀ (b : Beam) (origins : List (Vec3 ℝ)) (cfg : DDA.Cfg) (S : Set DDA.Cloud) (cloud : DDA.Cloud) (c : DDA.St) (r : Result),
      0 < cfg.gridSize → DDA.StampsDiffer S → cloud ∈ S → DDA.Reachable cfg S c →
      (b.measure (ddaCaster cfg (some cloud)) (some pc) origins s c).answer = .ok r →
      (b.measure (ddaCaster cfg (some cloud)) (some pc') origins s c).answer = .ok r) ∧
    (∀ (l : Like) (p : LikeParams) (search : Vec3 ℝ → ℝ → Outcome (List (ℕ × ℝ))) (map : List (Vec3 ℝ)) (w : Vec3 ℝ),
      Like.Reach p l → 0 ≤ p.matchDistMin → ExactAt map w search p.matchDistMin →
      l.measure search (some pc') s = l.measure search (some pc) s) := by
  refine ⟨fun b origins cfg search pts c r hh => measure_swap (forgets_kd b cfg search pts) hp c r trivial hh,
    fun b origins cfg S cloud c r hg hS hcl hc hh => measure_swap (forgets_dda hg hS hcl) hp c r hc hh, ?_⟩
  intro l p search map w hl h0 hs
  by_cases hne : pc = []
  · subst hne
    rw [List.nil_perm.1 hp]
  · have hne' : pc' ≠ [] := by
      rintro rfl
      exact hne (List.perm_nil.1 hp)
    rw [C71_score hl h0 hs hne, C71_score hl h0 hs hne', hp.length_eq]
    have ht : (s.transform pc).Perm (s.transform pc') := hp.map _
    rw [(ht.map fun q => gain p (nearestSq map w q.pos)).sum_eq, (ht.map fun q => matched p (nearestSq map w q.pos)).sum_eq]

/-- C152 applied: a scan of two points in the map of `DDA.Example` is measured, after any other use of the caster, and in
the other order. -/
example (s0 : DDA.St) (h0 : DDA.Reachable DDA.Example.cfg {DDA.Example.map1} s0) : ∃ r : Result,
    ((Beam.make exParams).measure (ddaCaster DDA.Example.cfg (some DDA.Example.map1))
      (some [⟨DDA.Example.e, 0⟩, ⟨DDA.Example.e, 1⟩]) [0, 0] State6.default s0).answer = .ok r ∧
    ((Beam.make exParams).measure (ddaCaster DDA.Example.cfg (some DDA.Example.map1))
      (some [⟨DDA.Example.e, 1⟩, ⟨DDA.Example.e, 0⟩]) [0, 0] State6.default DDA.St.fresh).answer = .ok r := by
  have hg : 0 < DDA.Example.cfg.gridSize := by norm_num [DDA.Example.cfg]
  have hr : ∀ v : Vec3 ℝ, (1 : Quat ℝ).rotate v = v := fun v => (Quat.C29_one 1 v).2.2
  have hz : ∀ v : Vec3 ℝ, v + 0 = v := fun v => Vec3.ext (add_zero _) (add_zero _) (add_zero _)
  have ht : (State6.default : State6 ℝ).transform [⟨DDA.Example.e, 0⟩, ⟨DDA.Example.e, 1⟩] =
      ([⟨DDA.Example.e, 0⟩, ⟨DDA.Example.e, 1⟩] : List (Pt ℝ ℕ)) := by
    have hn : (1 : Quat ℝ).normalized = 1 := Quat.C31_normalized_unit 1 (by simp [Quat.dot])
    simp only [State6.transform, State6.default, hn, hr, hz, List.map_cons, List.map_nil]
  have ho : (State6.default : State6 ℝ).pos + (State6.default : State6 ℝ).rot.rotate 0 = DDA.Example.b := by
    show (0 : Vec3 ℝ) + (1 : Quat ℝ).rotate 0 = _
    rw [hr, hz]; rfl
  have one : ∀ s, DDA.Reachable DDA.Example.cfg {DDA.Example.map1} s → ∃ st s2,
      getBeamStatus (Beam.make exParams) (ddaCaster DDA.Example.cfg (some DDA.Example.map1)) DDA.Example.b DDA.Example.e s =
        .ok (st, s2) ∧ DDA.Reachable DDA.Example.cfg {DDA.Example.map1} s2 := by
    intro s hs
    obtain ⟨s1, hs1⟩ := DDA.Example.setRay_ok hs
    obtain ⟨st, s2, h, h', -⟩ := C66_dda (S := {DDA.Example.map1}) hg DDA.Example.stampsDiffer hs rfl
      (Beam.Reach.make (p := exParams)) (by norm_num [exParams]) hs1
    exact ⟨st, s2, h, h'⟩
  obtain ⟨st1, s1, h1, hs1⟩ := one s0 h0
  obtain ⟨st2, s2, h2, -⟩ := one s1 hs1
  have hm : ∃ res, (Beam.make exParams).measure (ddaCaster DDA.Example.cfg (some DDA.Example.map1))
      (some [⟨DDA.Example.e, 0⟩, ⟨DDA.Example.e, 1⟩]) [0, 0] State6.default s0 = .ok (res, s2) := by
    refine ⟨⟨_, 1⟩, (measure_eq (by simp)).2 ⟨[st1, st2], ?_, rfl, rfl⟩⟩
    rw [ht]
    exact .cons rfl (by rw [ho]; exact h1) (.cons rfl (by rw [ho]; exact h2) .nil)
  obtain ⟨res, hm⟩ := hm
  have ha := congrArg Outcome.answer hm
  refine ⟨res, ha, ?_⟩
  rw [← (C152_beam _ _ _ _).2 _ _ _ s0 hg DDA.Example.stampsDiffer rfl h0]
  exact (C152_order (List.Perm.swap _ _ _) _).2.1 _ _ _ _ _ s0 _ hg DDA.Example.stampsDiffer rfl h0 ha

end Lidar
end Mcl3dl
