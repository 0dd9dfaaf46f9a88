import Verif.Spec.ChunkFloat
import Verif.Props.ChunkedKdtree

/-! # Lemmas for C182 -/

set_option linter.unusedSectionVars false

namespace Mcl3dl
namespace ChunkedKdtree
namespace FloatCfg

variable (M : FloatCfg)

theorem bound_cases (x : ℝ) (c : ℤ) :
    M.bound x c = -1 ∨ M.bound x c = 0 ∨ M.bound x c = 1 := by
  unfold FloatCfg.bound; split_ifs <;> simp

/-- The offsets listed by `targets` are pairwise different. -/
theorem targets_nodup (p : Vec3 ℝ) : (M.targets p).Nodup := by
  unfold FloatCfg.targets
  simp only
  generalize M.chunkId p = c
  rcases bound_cases M p.x c.x with hx | hx | hx <;>
  rcases bound_cases M p.y c.y with hy | hy | hy <;>
  rcases bound_cases M p.z c.z with hz | hz | hz <;>
  simp [hx, hy, hz, ChunkId.ext_iff, add_x, add_y, add_z]

/-- Membership in `targets`: along each axis either the own chunk or the neighbour on the close
side. -/
theorem mem_targets (p : Vec3 ℝ) (d : ChunkId) :
    d ∈ M.targets p ↔
      let c := M.chunkId p
      (d.x = c.x ∨ (M.bound p.x c.x ≠ 0 ∧ d.x = c.x + M.bound p.x c.x)) ∧
      (d.y = c.y ∨ (M.bound p.y c.y ≠ 0 ∧ d.y = c.y + M.bound p.y c.y)) ∧
      (d.z = c.z ∨ (M.bound p.z c.z ≠ 0 ∧ d.z = c.z + M.bound p.z c.z)) := by
  unfold FloatCfg.targets
  simp only
  generalize M.chunkId p = c
  generalize M.bound p.x c.x = xb
  generalize M.bound p.y c.y = yb
  generalize M.bound p.z c.z = zb
  by_cases hx : xb = 0 <;> by_cases hy : yb = 0 <;> by_cases hz : zb = 0 <;>
    simp only [hx, hy, hz, ne_eq, not_true, not_false_iff, and_true, true_and, and_false, false_and, if_true, if_false,
      or_false, List.append_nil, List.mem_append, List.mem_cons, List.not_mem_nil, ChunkId.ext_iff,
      add_x, add_y, add_z, add_zero] <;> tauto

theorem fill_content (cloud : List (Vec3 ℝ)) (c : ChunkId) :
    ∀ (i : ℕ) (m : Chunks ℝ), M.fill i cloud m c =
      m c ++ ((cloud.zipIdx i).filter fun e => decide (c ∈ M.targets e.1)).map fun e => (e.2, e.1) := by
  induction cloud with
  | nil => intro i m; simp [FloatCfg.fill]
  | cons p ps ih =>
    intro i m
    rw [FloatCfg.fill, ih, targets_foldl, List.zipIdx_cons, List.append_assoc]
    congr 1
    by_cases h : c ∈ M.targets p
    · rw [List.count_eq_one_of_mem (targets_nodup M p) h]
      simp [h]
    · rw [List.count_eq_zero_of_not_mem h]
      simp [h]

/-- The content of chunk `c` after `setInputCloud`. -/
theorem content (cloud : List (Vec3 ℝ)) (c : ChunkId) :
    M.setInputCloud cloud c =
      ((cloud.zipIdx).filter fun e => decide (c ∈ M.targets e.1)).map fun e => (e.2, e.1) := by
  unfold FloatCfg.setInputCloud; rw [fill_content]; rfl

theorem mem_content (cloud : List (Vec3 ℝ)) (c : ChunkId) (i : ℕ) (p : Vec3 ℝ) :
    (i, p) ∈ M.setInputCloud cloud c ↔ cloud[i]? = some p ∧ c ∈ M.targets p := by
  rw [content]
  simp only [List.mem_map, List.mem_filter, decide_eq_true_eq, Prod.mk.injEq, Prod.exists,
    List.mk_mem_zipIdx_iff_getElem?]
  constructor
  · rintro ⟨q, j, ⟨h1, h2⟩, rfl, rfl⟩; exact ⟨h1, h2⟩
  · rintro ⟨h1, h2⟩; exact ⟨p, i, ⟨h1, h2⟩, rfl, rfl⟩

theorem ids_nodup (cloud : List (Vec3 ℝ)) (c : ChunkId) :
    ((M.setInputCloud cloud c).map Prod.fst).Nodup := by
  rw [content, List.map_map]
  have h : ((Prod.fst ∘ fun e : Vec3 ℝ × ℕ => (e.2, e.1))) = Prod.snd := rfl
  rw [h]
  have h2 : (cloud.zipIdx.map Prod.snd).Nodup := by
    rw [List.zipIdx_map_snd]; exact List.nodup_range'
  exact (List.Sublist.map _ List.filter_sublist).nodup h2

/-- What a chunk search returns, translated to input ids. -/
theorem radiusSearch_ok (cloud : List (Vec3 ℝ)) (d : Vec3 ℝ → ℝ)
    (search : List (Vec3 ℝ) → Vec3 ℝ → ℝ → ℕ → List (ℕ × ℝ))
    (q : Vec3 ℝ) (r : ℝ) (num : ℕ) (hs : ∀ pts, ExactSearch pts d r num (search pts q r num)) (hr : r ≤ M.chunkLength) :
    ∃ res, M.radiusSearch (M.setInputCloud cloud) search q r num = .ok res ∧
      ∃ cres, (M.setInputCloud cloud (M.chunkId q) = [] → cres = []) ∧
        ExactSearch ((M.setInputCloud cloud (M.chunkId q)).map Prod.snd) d r num cres ∧
        res = cres.filterMap fun e => ((M.setInputCloud cloud (M.chunkId q))[e.1]?).map fun ip => (ip.1, e.2) := by
  unfold FloatCfg.radiusSearch
  rw [if_neg (not_lt.2 hr)]
  simp only
  generalize M.setInputCloud cloud (M.chunkId q) = chunk
  by_cases hc : chunk = []
  · subst hc
    refine ⟨[], by simp, [], fun _ => rfl, ?_, by simp⟩
    constructor <;> simp
  · rw [if_neg hc]
    have hx := hs (chunk.map Prod.snd)
    have hvalid : ∀ e ∈ search (chunk.map Prod.snd) q r num, e.1 < chunk.length := by
      intro e he
      obtain ⟨p, hp, _⟩ := hx.sound e he
      have := (List.getElem?_eq_some_iff.1 hp).1
      simpa using this
    rw [if_pos hvalid]
    exact ⟨_, rfl, _, fun h => absurd h hc, hx, rfl⟩

/-- If every in-radius point is stored in the query's chunk, the chunked search is an exact search of
the whole cloud; the soundness half needs no assumption. -/
theorem refine (cloud : List (Vec3 ℝ)) (d : Vec3 ℝ → ℝ) (q : Vec3 ℝ) (r : ℝ) (num : ℕ)
    (cres : List (ℕ × ℝ))
    (hx : ExactSearch ((M.setInputCloud cloud (M.chunkId q)).map Prod.snd) d r num cres) :
    let chunk := M.setInputCloud cloud (M.chunkId q)
    let res := cres.filterMap fun e => (chunk[e.1]?).map fun ip => (ip.1, e.2)
    ((res.map Prod.fst).Nodup ∧
      (∀ e ∈ res, ∃ p, cloud[e.1]? = some p ∧ e.2 = d p ∧ d p < r ^ 2)) ∧
    ((∀ p ∈ cloud, d p < r ^ 2 → M.chunkId q ∈ M.targets p) →
      ExactSearch cloud d r num res) ∧
    ExactSearch cloud (fun p => if M.chunkId q ∈ M.targets p then d p else r ^ 2) r num res := by
  intro chunk res
  have hlook : ∀ e ∈ cres, ∃ i p, chunk[e.1]? = some (i, p) ∧ cloud[i]? = some p ∧
      e.2 = d p ∧ d p < r ^ 2 ∧ M.chunkId q ∈ M.targets p := by
    intro e he
    obtain ⟨p, hp, h1, h2⟩ := hx.sound e he
    rw [List.getElem?_map] at hp
    cases hc : chunk[e.1]? with
    | none => rw [show (M.setInputCloud cloud (M.chunkId q))[e.1]? = none from hc] at hp; simp at hp
    | some ip =>
      obtain ⟨i, p'⟩ := ip
      rw [show (M.setInputCloud cloud (M.chunkId q))[e.1]? = some (i, p') from hc] at hp
      simp at hp; subst hp
      have : (i, p') ∈ M.setInputCloud cloud (M.chunkId q) := List.mem_of_getElem? hc
      exact ⟨i, p', rfl, ((mem_content M cloud _ i p').1 this).1, h1, h2, ((mem_content M cloud _ i p').1 this).2⟩
  -- res is the pointwise translation
  have hmap : res = cres.map fun e => (((chunk[e.1]?).map Prod.fst).getD 0, e.2) := by
    have : ∀ l : List (ℕ × ℝ), (∀ e ∈ l, e ∈ cres) →
        (l.filterMap fun e => (chunk[e.1]?).map fun ip => (ip.1, e.2)) =
          l.map fun e => (((chunk[e.1]?).map Prod.fst).getD 0, e.2) := by
      intro l
      induction l with
      | nil => intro _; rfl
      | cons a l ih =>
        intro h
        obtain ⟨i, p, hc, _⟩ := hlook a (h a (by simp))
        rw [List.filterMap_cons, List.map_cons, hc]
        simp only [Option.map_some, Option.getD_some]
        rw [ih (fun e he => h e (by simp [he]))]
    exact this cres fun _ h => h
  have hinj : (res.map Prod.fst).Nodup := by
    rw [hmap, List.map_map]
    have hnd := hx.nodup
    have hn2 : cres.Nodup := List.Nodup.of_map _ hnd
    refine List.Nodup.map_on ?_ hn2
    intro a ha b hb hab
    simp only [Function.comp] at hab
    obtain ⟨i, p, h1, _⟩ := hlook a ha
    obtain ⟨j, p', h2, _⟩ := hlook b hb
    rw [h1, h2] at hab
    simp at hab
    subst hab
    -- equal ids in the chunk are equal positions
    have hidx : a.1 = b.1 := by
      have hn := ids_nodup M cloud (M.chunkId q)
      have e1 : ((M.setInputCloud cloud (M.chunkId q)).map Prod.fst)[a.1]? = some i := by
        rw [List.getElem?_map, show (M.setInputCloud cloud (M.chunkId q))[a.1]? = some (i, p) from h1]; rfl
      have e2 : ((M.setInputCloud cloud (M.chunkId q)).map Prod.fst)[b.1]? = some i := by
        rw [List.getElem?_map, show (M.setInputCloud cloud (M.chunkId q))[b.1]? = some (i, p') from h2]; rfl
      have l1 := (List.getElem?_eq_some_iff.1 e1).1
      exact (List.getElem?_inj l1 hn).1 (e1.trans e2.symm)
    exact List.inj_on_of_nodup_map hnd ha hb hidx
  have hsound : ∀ e ∈ res, ∃ p, cloud[e.1]? = some p ∧ e.2 = d p ∧ d p < r ^ 2 ∧
      M.chunkId q ∈ M.targets p := by
    intro e he
    rw [hmap, List.mem_map] at he
    obtain ⟨a, ha, rfl⟩ := he
    obtain ⟨i, p, h1, h2, h3, h4⟩ := hlook a ha
    rw [h1]
    exact ⟨p, h2, h3, h4⟩
  have hsorted : res.Pairwise fun a b => a.2 ≤ b.2 := by
    rw [hmap, List.pairwise_map]; exact hx.sorted
  have hbounded : num ≠ 0 → res.length ≤ num := by
    intro hn; rw [hmap, List.length_map]; exact hx.bounded hn
  have hcomplete : ∀ (i : ℕ) (p : Vec3 ℝ), cloud[i]? = some p → M.chunkId q ∈ M.targets p →
      d p < r ^ 2 →
      i ∈ res.map Prod.fst ∨ (num ≠ 0 ∧ res.length = num ∧ ∀ e ∈ res, e.2 ≤ d p) := by
    intro i p hp ht hd
    have hmem : (i, p) ∈ M.setInputCloud cloud (M.chunkId q) := (mem_content M cloud _ i p).2 ⟨hp, ht⟩
    obtain ⟨j, hj⟩ := List.getElem?_of_mem hmem
    have hj' : ((M.setInputCloud cloud (M.chunkId q)).map Prod.snd)[j]? = some p := by
      rw [List.getElem?_map, hj]; rfl
    rcases hx.complete j p hj' hd with h | ⟨h1, h2, h3⟩
    · left
      rw [List.mem_map] at h
      obtain ⟨e, he, rfl⟩ := h
      rw [hmap, List.map_map, List.mem_map]
      refine ⟨e, he, ?_⟩
      simp only [Function.comp]
      rw [show chunk[e.1]? = some (i, p) from hj]; rfl
    · right
      refine ⟨h1, by rw [hmap, List.length_map]; exact h2, ?_⟩
      intro e he
      rw [hmap, List.mem_map] at he
      obtain ⟨a, ha, rfl⟩ := he
      exact h3 a ha
  refine ⟨⟨hinj, fun e he => ?_⟩, fun hall => ⟨hinj, fun e he => ?_, hsorted, hbounded, ?_⟩,
    ⟨hinj, fun e he => ?_, hsorted, hbounded, ?_⟩⟩
  · obtain ⟨p, h1, h2, h3, -⟩ := hsound e he
    exact ⟨p, h1, h2, h3⟩
  · obtain ⟨p, h1, h2, h3, -⟩ := hsound e he
    exact ⟨p, h1, h2, h3⟩
  · intro i p hp hd
    exact hcomplete i p hp (hall p (List.mem_of_getElem? hp) hd) hd
  · obtain ⟨p, h1, h2, h3, h4⟩ := hsound e he
    exact ⟨p, h1, by rw [if_pos h4, h2], by rw [if_pos h4]; exact h3⟩
  · intro i p hp hd
    by_cases ht : M.chunkId q ∈ M.targets p
    · rw [if_pos ht] at hd ⊢
      exact hcomplete i p hp ht hd
    · rw [if_neg ht] at hd
      exact absurd hd (lt_irrefl _)


/-! ## Rounding errors along one axis -/

section Errors
variable {M} {u η b : ℝ} (h : M.Rounds u η) (hL : 0 < M.chunkLength)
include h hL

/-- The chunk number times the chunk length, before the floor. -/
theorem scaled_err (x : ℝ) (hx : |x| ≤ b) :
    |M.fl (x * M.posToChunk) * M.chunkLength - x| ≤ 4 * u * b + η * M.chunkLength := by
  have hu := h.unit_nonneg
  have hu1 := h.unit_le
  have hb : 0 ≤ b := (abs_nonneg x).trans hx
  have h1 : |x * M.posToChunk * M.chunkLength - x| ≤ 2 * u * b := by
    have e : x * M.posToChunk * M.chunkLength - x = x * (M.posToChunk * M.chunkLength - 1) := by ring
    rw [e, abs_mul]
    calc |x| * |M.posToChunk * M.chunkLength - 1| ≤ b * (2 * u) :=
          mul_le_mul hx h.inv (abs_nonneg _) hb
      _ = 2 * u * b := by ring
  have h2 : |x * M.posToChunk| * M.chunkLength ≤ b + 2 * u * b := by
    have e : |x * M.posToChunk| * M.chunkLength = |x * M.posToChunk * M.chunkLength| := by
      rw [abs_mul (x * M.posToChunk), abs_of_pos hL]
    rw [e]
    calc |x * M.posToChunk * M.chunkLength|
        = |(x * M.posToChunk * M.chunkLength - x) + x| := by ring_nf
      _ ≤ _ := (abs_add_le _ _).trans (by linarith)
  have h3 := h.fl (x * M.posToChunk)
  have h4 : |M.fl (x * M.posToChunk) * M.chunkLength - x * M.posToChunk * M.chunkLength|
      ≤ u * (b + 2 * u * b) + η * M.chunkLength := by
    rw [← sub_mul, abs_mul, abs_of_pos hL]
    calc |M.fl (x * M.posToChunk) - x * M.posToChunk| * M.chunkLength
        ≤ (u * |x * M.posToChunk| + η) * M.chunkLength := mul_le_mul_of_nonneg_right h3 hL.le
      _ = u * (|x * M.posToChunk| * M.chunkLength) + η * M.chunkLength := by ring
      _ ≤ _ := by linarith [mul_le_mul_of_nonneg_left h2 hu]
  calc |M.fl (x * M.posToChunk) * M.chunkLength - x|
      = |(M.fl (x * M.posToChunk) * M.chunkLength - x * M.posToChunk * M.chunkLength)
          + (x * M.posToChunk * M.chunkLength - x)| := by ring_nf
    _ ≤ _ := abs_add_le _ _
    _ ≤ u * (b + 2 * u * b) + η * M.chunkLength + 2 * u * b := add_le_add h4 h1
    _ ≤ _ := by
      have : u * (u * b) ≤ 1 / 100 * (u * b) := mul_le_mul_of_nonneg_right hu1 (mul_nonneg hu hb)
      nlinarith [mul_nonneg hu hb]

/-- The chunk of a coordinate contains it up to the error. -/
theorem axisId_bounds (x : ℝ) (hx : |x| ≤ b) :
    (M.axisId x : ℝ) * M.chunkLength ≤ x + (4 * u * b + η * M.chunkLength) ∧
      x - (4 * u * b + η * M.chunkLength) < ((M.axisId x : ℝ) + 1) * M.chunkLength := by
  have e := abs_le.1 (scaled_err h hL x hx)
  have f1 : (M.axisId x : ℝ) ≤ M.fl (x * M.posToChunk) := Int.floor_le _
  have f2 : M.fl (x * M.posToChunk) < (M.axisId x : ℝ) + 1 := Int.lt_floor_add_one _
  constructor
  · linarith [mul_le_mul_of_nonneg_right f1 hL.le]
  · linarith [mul_lt_mul_of_pos_right f2 hL]

/-- The position in the chunk. -/
theorem inChunk_err (x : ℝ) (hx : |x| ≤ b) :
    |M.inChunk x (M.axisId x) - (x - (M.axisId x : ℝ) * M.chunkLength)|
      ≤ 7 * u * (b + M.chunkLength) + 4 * η * (M.chunkLength + 1) := by
  have hu := h.unit_nonneg
  have hu1 := h.unit_le
  have hη := h.abs_nonneg
  have hb : 0 ≤ b := (abs_nonneg x).trans hx
  obtain ⟨b1, b2⟩ := axisId_bounds h hL x hx
  have hx' := abs_le.1 hx
  unfold FloatCfg.inChunk
  generalize hc : (M.axisId x : ℝ) = c at *
  generalize hLL : M.chunkLength = L at *
  have ub : 0 ≤ u * b := mul_nonneg hu hb
  have uL : 0 ≤ u * L := mul_nonneg hu hL.le
  have ηL : 0 ≤ η * L := mul_nonneg hη hL.le
  have uub : u * (u * b) ≤ 1 / 100 * (u * b) := mul_le_mul_of_nonneg_right hu1 ub
  have uuL : u * (u * L) ≤ 1 / 100 * (u * L) := mul_le_mul_of_nonneg_right hu1 uL
  have uη : u * η ≤ 1 / 100 * η := mul_le_mul_of_nonneg_right hu1 hη
  have uηL : u * (η * L) ≤ 1 / 100 * (η * L) := mul_le_mul_of_nonneg_right hu1 ηL
  have ub1 : u * b ≤ 1 / 100 * b := mul_le_mul_of_nonneg_right hu1 hb
  have uL1 : u * L ≤ 1 / 100 * L := mul_le_mul_of_nonneg_right hu1 hL.le
  -- the corner of the chunk
  have hcL : |c * L| ≤ b + L + (4 * u * b + η * L) := by rw [abs_le]; constructor <;> nlinarith
  have hin : |x - c * L| ≤ L + (4 * u * b + η * L) := by rw [abs_le]; constructor <;> nlinarith
  have g1 : |M.fl c * L - c * L| ≤ u * |c * L| + η * L := by
    rw [← sub_mul, abs_mul, abs_of_pos hL]
    have e : |c * L| = |c| * L := by rw [abs_mul, abs_of_pos hL]
    rw [e]
    nlinarith [mul_le_mul_of_nonneg_right (h.fl c) hL.le]
  have g2 : |M.fl c * L| ≤ |c * L| + (u * |c * L| + η * L) := by
    calc |M.fl c * L| = |(M.fl c * L - c * L) + c * L| := by ring_nf
      _ ≤ _ := (abs_add_le _ _).trans (by linarith)
  have g3 := h.fl (M.fl c * L)
  set m := |c * L| with hm
  have hm0 : 0 ≤ m := abs_nonneg _
  have um0 : 0 ≤ u * m := mul_nonneg hu hm0
  have uum : u * (u * m) ≤ 1 / 100 * (u * m) := mul_le_mul_of_nonneg_right hu1 um0
  have um : u * m ≤ u * (b + L + (4 * u * b + η * L)) := mul_le_mul_of_nonneg_left hcL hu
  have g4 : |M.fl (M.fl c * L) - c * L| ≤ 21 / 10 * (u * m) + 21 / 10 * (η * L) + η := by
    calc |M.fl (M.fl c * L) - c * L| = |(M.fl (M.fl c * L) - M.fl c * L) + (M.fl c * L - c * L)| := by ring_nf
      _ ≤ _ := abs_add_le _ _
      _ ≤ (u * |M.fl c * L| + η) + (u * m + η * L) := add_le_add g3 g1
      _ ≤ (u * (m + (u * m + η * L)) + η) + (u * m + η * L) := by
          linarith [mul_le_mul_of_nonneg_left g2 hu]
      _ ≤ _ := by nlinarith
  have g5 : |x - M.fl (M.fl c * L)| ≤ L + (4 * u * b + η * L) + (21 / 10 * (u * m) + 21 / 10 * (η * L) + η) := by
    calc |x - M.fl (M.fl c * L)| = |(x - c * L) + -(M.fl (M.fl c * L) - c * L)| := by ring_nf
      _ ≤ |x - c * L| + |-(M.fl (M.fl c * L) - c * L)| := abs_add_le _ _
      _ ≤ _ := by rw [abs_neg]; linarith
  have g6 := h.fl (x - M.fl (M.fl c * L))
  have hmb : u * m ≤ 105 / 100 * (u * b) + u * L + 1 / 100 * (η * L) := by nlinarith
  calc |M.fl (x - M.fl (M.fl c * L)) - (x - c * L)|
      = |(M.fl (x - M.fl (M.fl c * L)) - (x - M.fl (M.fl c * L))) + -(M.fl (M.fl c * L) - c * L)| := by ring_nf
    _ ≤ |M.fl (x - M.fl (M.fl c * L)) - (x - M.fl (M.fl c * L))| + |-(M.fl (M.fl c * L) - c * L)| := abs_add_le _ _
    _ ≤ (u * (L + (4 * u * b + η * L) + (21 / 10 * (u * m) + 21 / 10 * (η * L) + η)) + η)
        + (21 / 10 * (u * m) + 21 / 10 * (η * L) + η) := by
        rw [abs_neg]
        linarith [mul_le_mul_of_nonneg_left g5 hu]
    _ ≤ _ := by nlinarith

theorem border_err (hR : 0 < M.maxSearchRadius) (h2 : 2 * M.maxSearchRadius ≤ M.chunkLength) :
    |M.fl (M.chunkLength - M.maxSearchRadius) - (M.chunkLength - M.maxSearchRadius)| ≤ u * M.chunkLength + η := by
  have hu := h.unit_nonneg
  have := h.fl (M.chunkLength - M.maxSearchRadius)
  rw [abs_of_pos (by linarith : 0 < M.chunkLength - M.maxSearchRadius)] at this
  nlinarith

/-- One axis: a point near enough is stored in the query's chunk. -/
theorem axis_overlap (hR : 0 < M.maxSearchRadius) (h2 : 2 * M.maxSearchRadius ≤ M.chunkLength) (ρ : ℝ)
    (hρ : ρ + roundingLoss u η b M.chunkLength ≤ M.maxSearchRadius) (q p : ℝ) (hq : |q| ≤ b) (hp : |p| ≤ b)
    (hpq : |p - q| < ρ) :
    M.axisId q = M.axisId p ∨
      (M.bound p (M.axisId p) ≠ 0 ∧ M.axisId q = M.axisId p + M.bound p (M.axisId p)) := by
  obtain ⟨q1, q2⟩ := axisId_bounds h hL q hq
  obtain ⟨p1, p2⟩ := axisId_bounds h hL p hp
  have i1 := abs_le.1 (inChunk_err h hL p hp)
  have i2 := abs_le.1 (border_err h hL hR h2)
  have hu := h.unit_nonneg
  have hη := h.abs_nonneg
  have hb : 0 ≤ b := (abs_nonneg q).trans hq
  have ub : 0 ≤ u * b := mul_nonneg hu hb
  have uL : 0 ≤ u * M.chunkLength := mul_nonneg hu hL.le
  have ηL : 0 ≤ η * M.chunkLength := mul_nonneg hη hL.le
  unfold roundingLoss at hρ
  rw [abs_lt] at hpq
  generalize M.axisId q = cq at *
  generalize M.axisId p = cp at *
  rcases lt_trichotomy cq cp with g | g | g
  · right
    have g' : (cq : ℝ) + 1 ≤ cp := by exact_mod_cast g
    have gm : ((cq : ℝ) + 1) * M.chunkLength ≤ cp * M.chunkLength := mul_le_mul_of_nonneg_right g' hL.le
    have hin : M.inChunk p cp < M.maxSearchRadius := by linarith
    have hbd : M.bound p cp = -1 := by unfold FloatCfg.bound; rw [if_pos hin]
    refine ⟨by rw [hbd]; decide, ?_⟩
    rw [hbd]
    have : (cp : ℝ) - 2 < cq := by
      by_contra hc
      push Not at hc
      have : ((cq : ℝ) + 1) * M.chunkLength ≤ (cp - 1) * M.chunkLength :=
        mul_le_mul_of_nonneg_right (by linarith) hL.le
      nlinarith
    have : cp - 2 < cq := by exact_mod_cast this
    omega
  · left; exact g
  · right
    have g' : (cp : ℝ) + 1 ≤ cq := by exact_mod_cast g
    have gm : ((cp : ℝ) + 1) * M.chunkLength ≤ cq * M.chunkLength := mul_le_mul_of_nonneg_right g' hL.le
    have hin : M.fl (M.chunkLength - M.maxSearchRadius) < M.inChunk p cp := by linarith
    have hnot : ¬ M.inChunk p cp < M.maxSearchRadius := by linarith
    have hbd : M.bound p cp = 1 := by
      unfold FloatCfg.bound; rw [if_neg hnot, if_pos hin]
    refine ⟨by rw [hbd]; decide, ?_⟩
    rw [hbd]
    have : (cq : ℝ) < cp + 2 := by
      by_contra hc
      push Not at hc
      have : ((cp : ℝ) + 2) * M.chunkLength ≤ cq * M.chunkLength := mul_le_mul_of_nonneg_right hc hL.le
      nlinarith
    have : cq < cp + 2 := by exact_mod_cast this
    omega

end Errors

end FloatCfg
end ChunkedKdtree
end Mcl3dl
