import Verif.Props.ChunkClouds
import Verif.Model.ChunkRange
import Verif.Props.KDRayHits

/-! # Property C140: when the chunked kd-tree is defined -/

set_option linter.unusedSectionVars false

namespace Mcl3dl
namespace ChunkedKdtree

/-- The indices of the chunk are in the range of `int`; with C++14 moreover those that are shifted are not negative
and keep all their bits. -/
def Fits (cpp14 : Bool) (c : ChunkId) : Prop :=
  (-2 ^ 31 ≤ c.x ∧ c.x < 2 ^ 31) ∧ (-2 ^ 31 ≤ c.y ∧ c.y < 2 ^ 31) ∧ (-2 ^ 31 ≤ c.z ∧ c.z < 2 ^ 31) ∧
    (cpp14 = true → (0 ≤ c.y ∧ c.y < 2 ^ 21) ∧ 0 ≤ c.z ∧ c.z < 2 ^ 10)

/-- The coordinates of `p` are the real numbers of `q`: none is NaN or infinite. -/
def Finite (p : Vec3 XR) (q : Vec3 ℝ) : Prop := p.x = .fin q.x ∧ p.y = .fin q.y ∧ p.z = .fin q.z

/-- `q` lies in the chunk `c`. -/
def InChunk (cfg : Cfg ℝ) (c : ChunkId) (q : Vec3 ℝ) : Prop :=
  (c.x * cfg.chunkLength ≤ q.x ∧ q.x < (c.x + 1) * cfg.chunkLength) ∧
  (c.y * cfg.chunkLength ≤ q.y ∧ q.y < (c.y + 1) * cfg.chunkLength) ∧
  (c.z * cfg.chunkLength ≤ q.z ∧ q.z < (c.z + 1) * cfg.chunkLength)

theorem realPoint_of_finite {p : Vec3 XR} {q : Vec3 ℝ} (h : Finite p q) : realPoint p = q := by
  obtain ⟨h1, h2, h3⟩ := h
  unfold realPoint
  rw [h1, h2, h3]
  rfl

theorem finite_unique {p : Vec3 XR} {q q' : Vec3 ℝ} (h : Finite p q) (h' : Finite p q') : q = q' := by
  rw [← realPoint_of_finite h, realPoint_of_finite h']

/-- One conversion. -/
theorem floorToInt_mul {s : ℝ} (hs : s ≠ 0) (x : XR) (i : ℤ) :
    floorToInt (x * .fin s) = .ok i ↔ ∃ r, x = .fin r ∧ i = ⌊r * s⌋ ∧ -2 ^ 31 ≤ i ∧ i < 2 ^ 31 := by
  cases x with
  | fin r =>
    show (if fitsInt ⌊r * s⌋ then Outcome.ok ⌊r * s⌋ else .ub _) = _ ↔ _
    split_ifs with h
    · simp only [fitsInt, decide_eq_true_eq] at h
      simp only [Outcome.ok.injEq, XR.fin.injEq]
      constructor
      · rintro rfl; exact ⟨r, rfl, rfl, h⟩
      · rintro ⟨r', rfl, rfl, _⟩; rfl
    · simp only [fitsInt, decide_eq_true_eq] at h
      simp only [XR.fin.injEq, false_iff, not_exists]
      rintro r' ⟨rfl, rfl, h'⟩
      exact h h'
  | nan => simp [show XR.nan * XR.fin s = XR.nan from rfl, floorToInt]
  | pinf =>
    have : XR.pinf * XR.fin s = XR.signInf true s := rfl
    rw [this, XR.signInf, if_neg hs]
    split_ifs <;> simp [floorToInt]
  | ninf =>
    have : XR.ninf * XR.fin s = XR.signInf false s := rfl
    rw [this, XR.signInf, if_neg hs]
    split_ifs <;> simp [floorToInt]

theorem floorToInt_cases (x : XR) : (∃ i, floorToInt x = .ok i) ∨ ∃ w, floorToInt x = .ub w := by
  cases x <;> simp [floorToInt]
  split_ifs <;> simp

theorem hashed_cases (cpp14 : Bool) (c : ChunkId) : hashed cpp14 c = .ok () ∨ ∃ w, hashed cpp14 c = .ub w := by
  unfold hashed ChunkId.hashDefined shl
  split_ifs <;> simp

/-- The conversion of all coordinates. -/
theorem getChunkId_ok {cfg : Cfg ℝ} (hL : cfg.chunkLength ≠ 0) (p : Vec3 XR) (c : ChunkId) :
    getChunkId cfg p = .ok c ↔ ∃ q, Finite p q ∧ c = chunkId cfg q ∧ Fits false c := by
  have hs : 1 / cfg.chunkLength ≠ 0 := one_div_ne_zero hL
  unfold getChunkId
  constructor
  · intro h
    rcases floorToInt_cases (p.x * .fin (1 / cfg.chunkLength)) with ⟨x, hx⟩ | ⟨w, hx⟩ <;> rw [hx] at h
    swap; · cases h
    rcases floorToInt_cases (p.y * .fin (1 / cfg.chunkLength)) with ⟨y, hy⟩ | ⟨w, hy⟩ <;> simp only [hy, Outcome.bind_ok] at h
    swap; · cases h
    rcases floorToInt_cases (p.z * .fin (1 / cfg.chunkLength)) with ⟨z, hz⟩ | ⟨w, hz⟩ <;> simp only [hz, Outcome.bind_ok] at h
    swap; · cases h
    simp only [Outcome.ok.injEq] at h
    subst h
    obtain ⟨a, ha, rfl, ha'⟩ := (floorToInt_mul hs _ _).1 hx
    obtain ⟨b, hb, rfl, hb'⟩ := (floorToInt_mul hs _ _).1 hy
    obtain ⟨d, hd, rfl, hd'⟩ := (floorToInt_mul hs _ _).1 hz
    exact ⟨⟨a, b, d⟩, ⟨ha, hb, hd⟩, rfl, ha', hb', hd', by simp⟩
  · rintro ⟨q, ⟨h1, h2, h3⟩, rfl, f1, f2, f3, _⟩
    rw [(floorToInt_mul hs _ _).2 ⟨q.x, h1, rfl, f1⟩, Outcome.bind_ok, (floorToInt_mul hs _ _).2 ⟨q.y, h2, rfl, f2⟩,
      Outcome.bind_ok, (floorToInt_mul hs _ _).2 ⟨q.z, h3, rfl, f3⟩]
    rfl

theorem getChunkId_cases (cfg : Cfg ℝ) (p : Vec3 XR) : (∃ c, getChunkId cfg p = .ok c) ∨ ∃ w, getChunkId cfg p = .ub w := by
  unfold getChunkId
  rcases floorToInt_cases (p.x * .fin (1 / cfg.chunkLength)) with ⟨x, hx⟩ | ⟨w, hx⟩ <;> rw [hx]
  swap; · exact .inr ⟨_, rfl⟩
  rcases floorToInt_cases (p.y * .fin (1 / cfg.chunkLength)) with ⟨y, hy⟩ | ⟨w, hy⟩ <;> simp only [hy, Outcome.bind_ok]
  swap; · exact .inr ⟨_, rfl⟩
  rcases floorToInt_cases (p.z * .fin (1 / cfg.chunkLength)) with ⟨z, hz⟩ | ⟨w, hz⟩ <;> simp only [hz, Outcome.bind_ok]
  swap; · exact .inr ⟨_, rfl⟩
  exact .inl ⟨_, rfl⟩

theorem hashed_ok (cpp14 : Bool) (c : ChunkId) (h : Fits false c) : hashed cpp14 c = .ok () ↔ Fits cpp14 c := by
  obtain ⟨h1, h2, h3, _⟩ := h
  unfold hashed Fits
  cases cpp14
  · exact ⟨fun _ => ⟨h1, h2, h3, by simp⟩, fun _ => rfl⟩
  · rw [if_pos rfl]
    have h57 := C57_hash_defined c
    constructor
    · intro hh
      rw [hh] at h57
      have := h57.1 rfl
      exact ⟨h1, h2, h3, fun _ => ⟨⟨this.1, this.2.1⟩, this.2.2⟩⟩
    · rintro ⟨_, _, _, h4⟩
      have h4 := h4 rfl
      have := h57.2 ⟨h4.1.1, h4.1.2, h4.2⟩
      cases hx : c.hashDefined with
      | ok a => rfl
      | throws m => rw [hx] at this; cases this
      | ub m => rw [hx] at this; cases this

theorem addIds_ok (a b c : ChunkId) : addIds a b = .ok c ↔ c = a + b ∧ Fits false c := by
  have e : ∀ a b : ChunkId, a + b = ⟨a.x + b.x, a.y + b.y, a.z + b.z⟩ := fun _ _ => rfl
  unfold addIds
  split_ifs with h
  · simp only [fitsInt, Bool.and_eq_true, decide_eq_true_eq] at h
    simp only [Outcome.ok.injEq]
    constructor
    · rintro rfl; exact ⟨rfl, h.1.1, h.1.2, h.2, by simp⟩
    · rintro ⟨rfl, _⟩; rfl
  · simp only [fitsInt, Bool.and_eq_true, decide_eq_true_eq] at h
    simp only [false_iff]
    rintro ⟨rfl, f1, f2, f3, _⟩
    exact h ⟨⟨f1, f2⟩, f3⟩

theorem fits_false {cpp14 : Bool} {c : ChunkId} (h : Fits cpp14 c) : Fits false c := ⟨h.1, h.2.1, h.2.2.1, by simp⟩

theorem pushNeighbours_ok (cpp14 : Bool) (i : ℕ) (q : Vec3 ℝ) (c : ChunkId) (os : List ChunkId) :
    ∀ (m m' : Chunks ℝ), pushNeighbours cpp14 i q c os m = .ok m' ↔
      (∀ o ∈ os, Fits cpp14 (c + o)) ∧ m' = (os.map (c + ·)).foldl (fun m d => pushTo m i q d) m := by
  induction os with
  | nil => intro m m'; simp [pushNeighbours, eq_comm]
  | cons o os ih =>
    intro m m'
    unfold pushNeighbours
    by_cases hf : Fits cpp14 (c + o)
    · rw [(addIds_ok c o (c + o)).2 ⟨rfl, fits_false hf⟩, Outcome.bind_ok, (hashed_ok cpp14 _ (fits_false hf)).2 hf,
        Outcome.bind_ok, ih]
      simp [hf]
    · simp only [List.mem_cons, forall_eq_or_imp, hf, false_and, iff_false]
      intro h
      by_cases hb : Fits false (c + o)
      · rw [(addIds_ok c o (c + o)).2 ⟨rfl, hb⟩, Outcome.bind_ok] at h
        rcases hashed_cases cpp14 (c + o) with hh | ⟨w, hh⟩
        · exact hf ((hashed_ok cpp14 _ hb).1 hh)
        · rw [hh] at h; cases h
      · cases ha : addIds c o with
        | ok d => obtain ⟨rfl, hd⟩ := (addIds_ok c o d).1 ha; exact hb hd
        | throws w => rw [ha] at h; cases h
        | ub w => rw [ha] at h; cases h

theorem targets_offsets (cfg : Cfg ℝ) (q : Vec3 ℝ) :
    targets cfg q = chunkId cfg q :: (offsets (bound cfg q.x (chunkId cfg q).x) (bound cfg q.y (chunkId cfg q).y)
      (bound cfg q.z (chunkId cfg q).z)).map (chunkId cfg q + ·) := by
  unfold targets offsets
  generalize chunkId cfg q = c
  simp only
  generalize bound cfg q.x c.x = xb
  generalize bound cfg q.y c.y = yb
  generalize bound cfg q.z c.z = zb
  by_cases hx : xb = 0 <;> by_cases hy : yb = 0 <;> by_cases hz : zb = 0 <;> simp [hx, hy, hz]

theorem pushPoint_ok {cfg : Cfg ℝ} (hL : cfg.chunkLength ≠ 0) (cpp14 : Bool) (i : ℕ) (p : Vec3 XR) (m m' : Chunks ℝ) :
    pushPoint cpp14 cfg i p m = .ok m' ↔
      ∃ q, Finite p q ∧ (∀ c ∈ targets cfg q, Fits cpp14 c) ∧
        m' = (targets cfg q).foldl (fun m c => pushTo m i q c) m := by
  unfold pushPoint
  constructor
  · intro h
    rcases getChunkId_cases cfg p with ⟨c, hc⟩ | ⟨w, hc⟩
    swap; · rw [hc] at h; cases h
    obtain ⟨q, hq, rfl, hf⟩ := (getChunkId_ok hL p c).1 hc
    rw [hc, Outcome.bind_ok] at h
    rcases hashed_cases cpp14 (chunkId cfg q) with hh | ⟨w, hh⟩
    swap; · rw [hh] at h; cases h
    rw [hh, Outcome.bind_ok] at h
    simp only [realPoint_of_finite hq] at h
    obtain ⟨h1, h2⟩ := (pushNeighbours_ok _ _ _ _ _ _ _).1 h
    refine ⟨q, hq, ?_, ?_⟩
    · rw [targets_offsets]
      intro c hc
      rcases List.mem_cons.1 hc with rfl | hc
      · exact (hashed_ok cpp14 _ hf).1 hh
      · obtain ⟨o, ho, rfl⟩ := List.mem_map.1 hc
        exact h1 o ho
    · rw [targets_offsets, List.foldl_cons]
      exact h2
  · rintro ⟨q, hq, hf, rfl⟩
    rw [targets_offsets] at hf ⊢
    have hc := hf _ List.mem_cons_self
    rw [(getChunkId_ok hL p _).2 ⟨q, hq, rfl, fits_false hc⟩, Outcome.bind_ok, (hashed_ok cpp14 _ (fits_false hc)).2 hc,
      Outcome.bind_ok]
    simp only [realPoint_of_finite hq]
    exact (pushNeighbours_ok _ _ _ _ _ _ _).2
      ⟨fun o ho => hf _ (List.mem_cons_of_mem _ (List.mem_map_of_mem ho)), rfl⟩

theorem fillChecked_ok {cfg : Cfg ℝ} (hL : cfg.chunkLength ≠ 0) (cpp14 : Bool) (cloud : List (Vec3 XR)) :
    ∀ (i : ℕ) (m m' : Chunks ℝ), fillChecked cpp14 cfg i cloud m = .ok m' ↔
      ∃ pts, List.Forall₂ Finite cloud pts ∧ (∀ q ∈ pts, ∀ c ∈ targets cfg q, Fits cpp14 c) ∧ m' = fill cfg i pts m := by
  induction cloud with
  | nil =>
    intro i m m'
    simp only [fillChecked, Outcome.ok.injEq, List.forall₂_nil_left_iff]
    constructor
    · rintro rfl; exact ⟨[], rfl, by simp, rfl⟩
    · rintro ⟨_, rfl, _, rfl⟩; rfl
  | cons p cloud ih =>
    intro i m m'
    unfold fillChecked
    constructor
    · intro h
      cases hp : pushPoint cpp14 cfg i p m with
      | ok m1 =>
        rw [hp, Outcome.bind_ok, ih] at h
        obtain ⟨q, hq, hf, rfl⟩ := (pushPoint_ok hL _ _ _ _ _).1 hp
        obtain ⟨pts, h1, h2, rfl⟩ := h
        exact ⟨q :: pts, .cons hq h1, by simpa using ⟨hf, h2⟩, rfl⟩
      | throws w => rw [hp] at h; cases h
      | ub w => rw [hp] at h; cases h
    · rintro ⟨pts, h1, h2, rfl⟩
      obtain ⟨q, pts', hq, hr, rfl⟩ := List.forall₂_cons_left_iff.1 h1
      rw [(pushPoint_ok hL _ _ _ _ _).2 ⟨q, hq, h2 q List.mem_cons_self, rfl⟩, Outcome.bind_ok, ih]
      exact ⟨pts', hr, fun q hq => h2 q (List.mem_cons_of_mem _ hq), rfl⟩

theorem chunkId_iff {cfg : Cfg ℝ} (hL : 0 < cfg.chunkLength) (q : Vec3 ℝ) (c : ChunkId) :
    c = chunkId cfg q ↔ InChunk cfg c q := by
  have key : ∀ (x : ℝ) (i : ℤ), i = ⌊x * (1 / cfg.chunkLength)⌋ ↔
      i * cfg.chunkLength ≤ x ∧ x < (i + 1) * cfg.chunkLength := by
    intro x i
    rw [eq_comm, Int.floor_eq_iff, mul_one_div, le_div_iff₀ hL, div_lt_iff₀ hL]
  rw [ChunkId.ext_iff]
  exact and_congr (key _ _) (and_congr (key _ _) (key _ _))

/-- C140: the input cloud can be stored without undefined behaviour if and only if no coordinate is NaN or infinite and
the indices of all chunks closer than `max_search_radius` to a point fit; the chunks are then those of C52–C56. -/
theorem C140_setInputCloud (cpp14 : Bool) (cfg : Cfg ℝ) (hR : 0 < cfg.maxSearchRadius)
    (h2 : 2 * cfg.maxSearchRadius ≤ cfg.chunkLength) (cloud : List (Vec3 XR)) (chunks : Chunks ℝ) :
    setInputCloudChecked cpp14 cfg cloud = .ok chunks ↔
      ∃ pts, List.Forall₂ Finite cloud pts ∧ (∀ q ∈ pts, ∀ c, NearChunk cfg c q → Fits cpp14 c) ∧
        chunks = setInputCloud cfg pts := by
  unfold setInputCloudChecked setInputCloud
  rw [fillChecked_ok (by linarith : cfg.chunkLength ≠ 0)]
  simp only [mem_targets_near cfg hR h2]

/-- C140: a search is undefined if and only if the radius is accepted and a coordinate is NaN or infinite or the index of
its chunk does not fit; otherwise the result is that of C52–C55. -/
theorem C140_radiusSearch (cpp14 : Bool) (cfg : Cfg ℝ) (hL : 0 < cfg.chunkLength) (chunks : Chunks ℝ)
    {search : List (Vec3 ℝ) → Vec3 ℝ → ℝ → ℕ → List (ℕ × ℝ)} {w : Vec3 ℝ}
    (hs : ∀ pts q r num, ExactSearch pts (weightedDist w q) r num (search pts q r num))
    (p : Vec3 XR) (r : ℝ) (num : ℕ) :
    ((radiusSearchChecked cpp14 cfg chunks search p r num).isUb = true ↔
      r ≤ cfg.chunkLength ∧ ¬ ∃ q c, Finite p q ∧ InChunk cfg c q ∧ Fits cpp14 c) ∧
    ∀ q c, Finite p q → InChunk cfg c q → Fits cpp14 c →
      radiusSearchChecked cpp14 cfg chunks search p r num = radiusSearch cfg chunks search q r num := by
  have hval : ∀ q c, Finite p q → InChunk cfg c q → Fits cpp14 c →
      radiusSearchChecked cpp14 cfg chunks search p r num = radiusSearch cfg chunks search q r num := by
    intro q c hq hc hf
    unfold radiusSearchChecked radiusSearch
    have hcc := (chunkId_iff hL q c).2 hc
    subst hcc
    rw [(getChunkId_ok hL.ne' p _).2 ⟨q, hq, rfl, fits_false hf⟩, Outcome.bind_ok, (hashed_ok cpp14 _ (fits_false hf)).2 hf,
      Outcome.bind_ok, realPoint_of_finite hq]
  refine ⟨?_, hval⟩
  constructor
  · intro h
    have hr : r ≤ cfg.chunkLength := by
      by_contra hr
      unfold radiusSearchChecked at h
      rw [if_pos (not_le.1 hr)] at h
      cases h
    refine ⟨hr, ?_⟩
    rintro ⟨q, c, hq, hc, hf⟩
    rw [hval q c hq hc hf] at h
    unfold radiusSearch at h
    rw [if_neg (not_lt.2 hr)] at h
    simp only at h
    split_ifs at h with h1 h3
    · cases h
    · cases h
    · apply h3
      intro e he
      obtain ⟨x, hx, _⟩ := (hs _ q r num).sound e he
      have := (List.getElem?_eq_some_iff.1 hx).1
      simpa using this
  · rintro ⟨hr, hn⟩
    unfold radiusSearchChecked
    rw [if_neg (not_lt.2 hr)]
    rcases getChunkId_cases cfg p with ⟨c, hc⟩ | ⟨w, hc⟩
    swap; · rw [hc]; rfl
    obtain ⟨q, hq, rfl, hf⟩ := (getChunkId_ok hL.ne' p c).1 hc
    rw [hc, Outcome.bind_ok]
    rcases hashed_cases cpp14 (chunkId cfg q) with hh | ⟨w, hh⟩
    · exact absurd ⟨q, _, hq, (chunkId_iff hL q _).1 rfl, (hashed_ok cpp14 _ hf).1 hh⟩ hn
    · rw [hh]; rfl

/-- C140: where every chunk index fits: with C++20, wherever the coordinates are within 2^30 chunk lengths of the
origin. -/
theorem C140_wide (cfg : Cfg ℝ) (hR : 0 < cfg.maxSearchRadius) (h2 : 2 * cfg.maxSearchRadius ≤ cfg.chunkLength)
    {q : Vec3 ℝ} (hx : |q.x| ≤ 2 ^ 30 * cfg.chunkLength) (hy : |q.y| ≤ 2 ^ 30 * cfg.chunkLength)
    (hz : |q.z| ≤ 2 ^ 30 * cfg.chunkLength) (c : ChunkId) (hc : NearChunk cfg c q) : Fits false c := by
  have hL : 0 < cfg.chunkLength := by linarith
  have key : ∀ (x : ℝ) (i : ℤ), |x| ≤ 2 ^ 30 * cfg.chunkLength → Near cfg.chunkLength cfg.maxSearchRadius i x →
      -2 ^ 31 ≤ i ∧ i < 2 ^ 31 := by
    intro x i hx ⟨h3, h4⟩
    rw [abs_le] at hx
    have a1 : ((i : ℝ) - 1) * cfg.chunkLength < 2 ^ 30 * cfg.chunkLength := by nlinarith
    have a2 : (-2 ^ 30 : ℝ) * cfg.chunkLength < ((i : ℝ) + 2) * cfg.chunkLength := by nlinarith
    have b1 : (i : ℝ) - 1 < 2 ^ 30 := lt_of_mul_lt_mul_right a1 hL.le
    have b2 : (-2 ^ 30 : ℝ) < (i : ℝ) + 2 := lt_of_mul_lt_mul_right a2 hL.le
    have c1 : i - 1 < 2 ^ 30 := by exact_mod_cast b1
    have c2 : -2 ^ 30 < i + 2 := by exact_mod_cast b2
    constructor <;> omega
  exact ⟨key _ _ hx hc.1, key _ _ hy hc.2.1, key _ _ hz hc.2.2, by simp⟩

/-- C140: with C++14 no cloud with a point below `max_search_radius` along y or z can be stored. -/
theorem C140_negative (cfg : Cfg ℝ) (hR : 0 < cfg.maxSearchRadius) (h2 : 2 * cfg.maxSearchRadius ≤ cfg.chunkLength)
    {cloud : List (Vec3 XR)} {p : Vec3 XR} (hp : p ∈ cloud) {q : Vec3 ℝ} (hq : Finite p q)
    (hlow : q.y < cfg.maxSearchRadius ∨ q.z < cfg.maxSearchRadius) :
    (setInputCloudChecked true cfg cloud).isOk = false := by
  have hL : 0 < cfg.chunkLength := by linarith
  cases h : setInputCloudChecked true cfg cloud with
  | throws w => rfl
  | ub w => rfl
  | ok m =>
    exfalso
    obtain ⟨pts, hf, hfit, -⟩ := (C140_setInputCloud true cfg hR h2 cloud m).1 h
    have hmem : q ∈ pts := by
      clear hfit h
      induction hf with
      | nil => simp at hp
      | cons h1 _ ih =>
        rcases List.mem_cons.1 hp with rfl | hp
        · rw [finite_unique hq h1]; exact List.mem_cons_self
        · exact List.mem_cons_of_mem _ (ih hp)
    have own : ∀ x : ℝ, Near cfg.chunkLength cfg.maxSearchRadius ⌊x * (1 / cfg.chunkLength)⌋ x := fun x =>
      (near_iff cfg hR h2 x _).1 (.inl rfl)
    -- along the axis in question a chunk of negative index is near
    have low : ∀ x : ℝ, x < cfg.maxSearchRadius → ∃ i : ℤ, i < 0 ∧ Near cfg.chunkLength cfg.maxSearchRadius i x := by
      intro x hx
      rcases lt_or_ge x 0 with h0 | h0
      · refine ⟨_, ?_, own x⟩
        rw [Int.floor_lt]
        push_cast
        exact mul_neg_of_neg_of_pos h0 (one_div_pos.2 hL)
      · exact ⟨-1, by decide, by unfold Near; push_cast; constructor <;> linarith⟩
    rcases hlow with hl | hl
    · obtain ⟨i, hi, hn⟩ := low _ hl
      have := (hfit q hmem ⟨_, i, _⟩ ⟨own q.x, hn, own q.z⟩).2.2.2 rfl
      exact absurd this.1.1 (by simpa using hi)
    · obtain ⟨i, hi, hn⟩ := low _ hl
      have := (hfit q hmem ⟨_, _, i⟩ ⟨own q.x, own q.y, hn⟩).2.2.2 rfl
      exact absurd this.2.1 (by simpa using hi)

/-! ## Concrete cases -/

/-- A point in the middle of the first chunk is stored (also with C++14) and searched; a NaN is not. -/
example : ∃ chunks, setInputCloudChecked true ⟨20, 1, false⟩ [⟨.fin 10, .fin 10, .fin 10⟩] = .ok chunks := by
  refine ⟨_, (C140_setInputCloud true ⟨20, 1, false⟩ (by norm_num) (by norm_num) _ _).2
    ⟨[⟨10, 10, 10⟩], .cons ⟨rfl, rfl, rfl⟩ .nil, ?_, rfl⟩⟩
  intro q hq c hc
  rw [List.mem_singleton.1 hq] at hc
  have key : ∀ i : ℤ, Near (20 : ℝ) 1 i 10 → i = 0 := by
    rintro i ⟨h1, h2⟩
    have a1 : (i : ℝ) < 1 := by linarith
    have a2 : (-1 : ℝ) < i := by linarith
    have b1 : i < 1 := by exact_mod_cast a1
    have b2 : -1 < i := by exact_mod_cast a2
    omega
  have e1 := key _ hc.1
  have e2 := key _ hc.2.1
  have e3 := key _ hc.2.2
  simp [Fits, e1, e2, e3]

example (search : List (Vec3 ℝ) → Vec3 ℝ → ℝ → ℕ → List (ℕ × ℝ)) (w : Vec3 ℝ)
    (hs : ∀ pts q r num, ExactSearch pts (weightedDist w q) r num (search pts q r num)) (chunks : Chunks ℝ) :
    (radiusSearchChecked false ⟨20, 1, false⟩ chunks search ⟨.nan, .fin 0, .fin 0⟩ 1 1).isUb = true := by
  rw [(C140_radiusSearch false ⟨20, 1, false⟩ (by norm_num) chunks hs _ 1 1).1]
  refine ⟨by norm_num, ?_⟩
  rintro ⟨q, c, ⟨h, _⟩, _⟩
  cases h

end ChunkedKdtree
end Mcl3dl
