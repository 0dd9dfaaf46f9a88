import Verif.Model.ChunkedKdtree
import Verif.Spec.KdSearch
import Mathlib.Tactic

/-!
# C52 - C57: the chunked kd-tree
-/

set_option linter.unusedSectionVars false

namespace Mcl3dl
namespace ChunkedKdtree

variable {K : Type*} [Field K] [LinearOrder K] [IsStrictOrderedRing K] [FloorRing K]

/-! ## Contents of the chunks -/

theorem targets_foldl (m : Chunks K) (i : ℕ) (p : Vec3 K) (l : List ChunkId) (c : ChunkId) :
    (l.foldl (fun m c => pushTo m i p c) m) c = m c ++ List.replicate (l.count c) (i, p) := by
  induction l generalizing m with
  | nil => simp
  | cons a l ih =>
    rw [List.foldl_cons, ih]
    by_cases h : a = c
    · subst h
      simp only [pushTo, Function.update_self, List.count_cons_self, List.append_assoc]
      congr 1
    · rw [List.count_cons_of_ne h, pushTo, Function.update_of_ne (Ne.symm h)]

theorem bound_cases (cfg : Cfg K) (x : K) (c : ℤ) :
    bound cfg x c = -1 ∨ bound cfg x c = 0 ∨ bound cfg x c = 1 := by
  unfold bound; simp only; split_ifs <;> simp

theorem add_x (a b : ChunkId) : (a + b).x = a.x + b.x := rfl
theorem add_y (a b : ChunkId) : (a + b).y = a.y + b.y := rfl
theorem add_z (a b : ChunkId) : (a + b).z = a.z + b.z := rfl

/-- The offsets listed by `targets` are pairwise different. -/
theorem targets_nodup (cfg : Cfg K) (p : Vec3 K) : (targets cfg p).Nodup := by
  unfold targets
  simp only
  generalize chunkId cfg p = c
  rcases bound_cases cfg p.x c.x with hx | hx | hx <;>
  rcases bound_cases cfg p.y c.y with hy | hy | hy <;>
  rcases bound_cases cfg p.z c.z with hz | hz | hz <;>
  simp [hx, hy, hz, ChunkId.ext_iff, add_x, add_y, add_z]

/-- Membership in `targets`: along each axis either the own chunk or the neighbour on the close
side. -/
theorem mem_targets (cfg : Cfg K) (p : Vec3 K) (d : ChunkId) :
    d ∈ targets cfg p ↔
      let c := chunkId cfg p
      (d.x = c.x ∨ (bound cfg p.x c.x ≠ 0 ∧ d.x = c.x + bound cfg p.x c.x)) ∧
      (d.y = c.y ∨ (bound cfg p.y c.y ≠ 0 ∧ d.y = c.y + bound cfg p.y c.y)) ∧
      (d.z = c.z ∨ (bound cfg p.z c.z ≠ 0 ∧ d.z = c.z + bound cfg p.z c.z)) := by
  unfold targets
  simp only
  generalize chunkId cfg p = c
  generalize bound cfg p.x c.x = xb
  generalize bound cfg p.y c.y = yb
  generalize bound cfg p.z c.z = zb
  by_cases hx : xb = 0 <;> by_cases hy : yb = 0 <;> by_cases hz : zb = 0 <;>
    simp only [hx, hy, hz, ne_eq, not_true, not_false_iff, and_true, true_and, and_false, false_and, if_true, if_false,
      or_false, List.append_nil, List.mem_append, List.mem_cons, List.not_mem_nil, ChunkId.ext_iff,
      add_x, add_y, add_z, add_zero] <;> tauto

theorem fill_content (cfg : Cfg K) (cloud : List (Vec3 K)) (c : ChunkId) :
    ∀ (i : ℕ) (m : Chunks K), fill cfg i cloud m c =
      m c ++ ((cloud.zipIdx i).filter fun e => decide (c ∈ targets cfg e.1)).map fun e => (e.2, e.1) := by
  induction cloud with
  | nil => intro i m; simp [fill]
  | cons p ps ih =>
    intro i m
    rw [fill, ih, targets_foldl, List.zipIdx_cons, List.append_assoc]
    congr 1
    by_cases h : c ∈ targets cfg p
    · rw [List.count_eq_one_of_mem (targets_nodup cfg p) h]
      simp [h]
    · rw [List.count_eq_zero_of_not_mem h]
      simp [h]

/-- The content of chunk `c` after `setInputCloud`. -/
theorem content (cfg : Cfg K) (cloud : List (Vec3 K)) (c : ChunkId) :
    setInputCloud cfg cloud c =
      ((cloud.zipIdx).filter fun e => decide (c ∈ targets cfg e.1)).map fun e => (e.2, e.1) := by
  unfold setInputCloud; rw [fill_content]; rfl

theorem mem_content (cfg : Cfg K) (cloud : List (Vec3 K)) (c : ChunkId) (i : ℕ) (p : Vec3 K) :
    (i, p) ∈ setInputCloud cfg cloud c ↔ cloud[i]? = some p ∧ c ∈ targets cfg p := by
  rw [content]
  simp only [List.mem_map, List.mem_filter, decide_eq_true_eq, Prod.mk.injEq, Prod.exists,
    List.mk_mem_zipIdx_iff_getElem?]
  constructor
  · rintro ⟨q, j, ⟨h1, h2⟩, rfl, rfl⟩; exact ⟨h1, h2⟩
  · rintro ⟨h1, h2⟩; exact ⟨p, i, ⟨h1, h2⟩, rfl, rfl⟩

theorem ids_nodup (cfg : Cfg K) (cloud : List (Vec3 K)) (c : ChunkId) :
    ((setInputCloud cfg cloud c).map Prod.fst).Nodup := by
  rw [content, List.map_map]
  have h : ((Prod.fst ∘ fun e : Vec3 K × ℕ => (e.2, e.1))) = Prod.snd := rfl
  rw [h]
  have h2 : (cloud.zipIdx.map Prod.snd).Nodup := by
    rw [List.zipIdx_map_snd]; exact List.nodup_range'
  exact (List.Sublist.map _ List.filter_sublist).nodup h2

/-! ## C56 -/

/-- C56: every input point is in its own chunk exactly once, in any chunk at most once, and only in
chunks that differ from its own by at most one along each axis. -/
theorem C56_chunk_content (cfg : Cfg K) (cloud : List (Vec3 K)) (i : ℕ) (p : Vec3 K)
    (hp : cloud[i]? = some p) :
    (∀ c, ((setInputCloud cfg cloud c).map Prod.fst).count i ≤ 1) ∧
    ((setInputCloud cfg cloud (chunkId cfg p)).map Prod.fst).count i = 1 ∧
    ∀ c, i ∈ (setInputCloud cfg cloud c).map Prod.fst →
      |c.x - (chunkId cfg p).x| ≤ 1 ∧ |c.y - (chunkId cfg p).y| ≤ 1 ∧ |c.z - (chunkId cfg p).z| ≤ 1 := by
  refine ⟨fun c => List.nodup_iff_count_le_one.1 (ids_nodup cfg cloud c) i, ?_, ?_⟩
  · apply List.count_eq_one_of_mem (ids_nodup cfg cloud _)
    rw [List.mem_map]
    refine ⟨(i, p), (mem_content cfg cloud _ i p).2 ⟨hp, ?_⟩, rfl⟩
    simp [targets]
  · intro c hc
    rw [List.mem_map] at hc
    obtain ⟨⟨j, q⟩, hm, rfl⟩ := hc
    obtain ⟨h1, h2⟩ := (mem_content cfg cloud c j q).1 hm
    simp only at hp
    rw [hp] at h1; cases h1
    rw [mem_targets] at h2
    simp only at h2
    obtain ⟨hx, hy, hz⟩ := h2
    have key : ∀ a b n : ℤ, (n = -1 ∨ n = 0 ∨ n = 1) → (a = b ∨ (n ≠ 0 ∧ a = b + n)) → |a - b| ≤ 1 := by
      intro a b n hn h
      rw [abs_le]; omega
    exact ⟨key _ _ _ (bound_cases _ _ _) hx, key _ _ _ (bound_cases _ _ _) hy, key _ _ _ (bound_cases _ _ _) hz⟩

/-- C56: the chunk cloud handed out is exactly those points, and is null unless clouds are kept and
the chunk is not empty. -/
theorem C56_getChunkCloud (cfg : Cfg K) (cloud : List (Vec3 K)) (c : ChunkId) (hk : cfg.keepClouds = true)
    (pts : List (Vec3 K)) (h : getChunkCloud cfg (setInputCloud cfg cloud) c = some pts) :
    pts ≠ [] ∧ ∀ p, p ∈ pts ↔ p ∈ cloud ∧ c ∈ targets cfg p := by
  unfold getChunkCloud at h
  split_ifs at h with h0
  cases h
  simp only [hk] at h0
  refine ⟨by simpa using h0, fun p => ?_⟩
  simp only [List.mem_map, Prod.exists, exists_eq_right]
  constructor
  · rintro ⟨i, hi⟩
    obtain ⟨h1, h2⟩ := (mem_content cfg cloud c i p).1 hi
    exact ⟨List.mem_of_getElem? h1, h2⟩
  · rintro ⟨h1, h2⟩
    obtain ⟨i, hi⟩ := List.getElem?_of_mem h1
    exact ⟨i, (mem_content cfg cloud c i p).2 ⟨hi, h2⟩⟩

/-! ## C52 - C55 -/

/-- One axis: a point within the overlap radius of a query is stored in the query's chunk. -/
theorem axis_overlap (cfg : Cfg K) (hL : 0 < cfg.chunkLength) (hR : 0 < cfg.maxSearchRadius)
    (h2 : 2 * cfg.maxSearchRadius ≤ cfg.chunkLength) (q p : K)
    (hpq : |p - q| < cfg.maxSearchRadius) :
    let cq := ⌊q * (1 / cfg.chunkLength)⌋
    let cp := ⌊p * (1 / cfg.chunkLength)⌋
    cq = cp ∨ (bound cfg p cp ≠ 0 ∧ cq = cp + bound cfg p cp) := by
  intro cq cp
  have fl : ∀ x : K, (⌊x * (1 / cfg.chunkLength)⌋ : K) * cfg.chunkLength ≤ x ∧
      x < (⌊x * (1 / cfg.chunkLength)⌋ + 1 : K) * cfg.chunkLength := by
    intro x
    have e : x = x * (1 / cfg.chunkLength) * cfg.chunkLength := by field_simp
    constructor
    · nth_rw 2 [e]
      exact mul_le_mul_of_nonneg_right (Int.floor_le _) hL.le
    · nth_rw 1 [e]
      exact mul_lt_mul_of_pos_right (Int.lt_floor_add_one _) hL
  obtain ⟨q1, q2⟩ := fl q
  obtain ⟨p1, p2⟩ := fl p
  rw [abs_lt] at hpq
  change (cq : K) * _ ≤ q at q1
  change q < ((cq : K) + 1) * _ at q2
  change (cp : K) * _ ≤ p at p1
  change p < ((cp : K) + 1) * _ at p2
  rcases lt_trichotomy cq cp with h | h | h
  · right
    have h' : (cq : K) + 1 ≤ cp := by exact_mod_cast h
    have hin : p - cp * cfg.chunkLength < cfg.maxSearchRadius := by nlinarith
    have hb : bound cfg p cp = -1 := by unfold bound; simp only; rw [if_pos hin]
    refine ⟨by rw [hb]; decide, ?_⟩
    rw [hb]
    have : (cp : K) - 2 < cq := by
      by_contra hc
      push Not at hc
      have : ((cq : K) + 1) * cfg.chunkLength ≤ (cp - 1) * cfg.chunkLength :=
        mul_le_mul_of_nonneg_right (by linarith) hL.le
      nlinarith
    have : cp - 2 < cq := by exact_mod_cast this
    omega
  · left; exact h
  · right
    have h' : (cp : K) + 1 ≤ cq := by exact_mod_cast h
    have hm : ((cp : K) + 1) * cfg.chunkLength ≤ cq * cfg.chunkLength :=
        mul_le_mul_of_nonneg_right h' hL.le
    have hin : cfg.chunkLength - cfg.maxSearchRadius < p - cp * cfg.chunkLength := by nlinarith
    have hb : bound cfg p cp = 1 := by
      unfold bound; simp only; rw [if_neg (by linarith), if_pos hin]
    refine ⟨by rw [hb]; decide, ?_⟩
    rw [hb]
    have : (cq : K) < cp + 2 := by
      by_contra hc
      push Not at hc
      have : ((cp : K) + 2) * cfg.chunkLength ≤ cq * cfg.chunkLength :=
        mul_le_mul_of_nonneg_right hc hL.le
      nlinarith
    have : cq < cp + 2 := by exact_mod_cast this
    omega

/-- With axis weights of at least 1, a point within weighted distance `r` is within `r` along every
axis. -/
theorem axis_close (w q p : Vec3 K) (hw : 1 ≤ w.x ∧ 1 ≤ w.y ∧ 1 ≤ w.z) (r : K) (hr : 0 ≤ r)
    (h : weightedDist w q p < r ^ 2) : |p.x - q.x| < r ∧ |p.y - q.y| < r ∧ |p.z - q.z| < r := by
  unfold weightedDist at h
  have key : ∀ a d : K, 1 ≤ a → (a * d) ^ 2 < r ^ 2 → |d| < r := by
    intro a d ha hd
    have h1 : |d| ≤ |a * d| := by
      rw [abs_mul]; nlinarith [abs_nonneg d, le_abs_self a]
    have h2 : |a * d| < r := abs_lt_of_sq_lt_sq hd hr
    linarith
  refine ⟨key w.x _ hw.1 ?_, key w.y _ hw.2.1 ?_, key w.z _ hw.2.2 ?_⟩ <;>
    nlinarith [sq_nonneg (w.x * (p.x - q.x)), sq_nonneg (w.y * (p.y - q.y)), sq_nonneg (w.z * (p.z - q.z))]

/-- Every point within the radius is stored in the query's chunk. -/
theorem in_chunk (cfg : Cfg K) (hL : 0 < cfg.chunkLength) (hR : 0 < cfg.maxSearchRadius)
    (h2 : 2 * cfg.maxSearchRadius ≤ cfg.chunkLength) (w q p : Vec3 K)
    (hw : 1 ≤ w.x ∧ 1 ≤ w.y ∧ 1 ≤ w.z) (r : K) (hr0 : 0 ≤ r) (hr : r ≤ cfg.maxSearchRadius)
    (h : weightedDist w q p < r ^ 2) : chunkId cfg q ∈ targets cfg p := by
  obtain ⟨hx, hy, hz⟩ := axis_close w q p hw r hr0 h
  rw [mem_targets]
  exact ⟨axis_overlap cfg hL hR h2 q.x p.x (by linarith), axis_overlap cfg hL hR h2 q.y p.y (by linarith),
    axis_overlap cfg hL hR h2 q.z p.z (by linarith)⟩

/-- What a chunk search returns, translated to input ids. -/
theorem radiusSearch_ok (cfg : Cfg K) (cloud : List (Vec3 K)) (w : Vec3 K)
    (search : List (Vec3 K) → Vec3 K → K → ℕ → List (ℕ × K))
    (hs : ∀ pts q r num, ExactSearch pts (weightedDist w q) r num (search pts q r num))
    (q : Vec3 K) (r : K) (num : ℕ) (hr : r ≤ cfg.chunkLength) :
    ∃ res, radiusSearch cfg (setInputCloud cfg cloud) search q r num = .ok res ∧
      ∃ cres, (setInputCloud cfg cloud (chunkId cfg q) = [] → cres = []) ∧
        ExactSearch ((setInputCloud cfg cloud (chunkId cfg q)).map Prod.snd) (weightedDist w q) r num cres ∧
        res = cres.filterMap fun e => ((setInputCloud cfg cloud (chunkId cfg q))[e.1]?).map fun ip => (ip.1, e.2) := by
  unfold radiusSearch
  rw [if_neg (not_lt.2 hr)]
  simp only
  generalize setInputCloud cfg cloud (chunkId cfg q) = chunk
  by_cases hc : chunk = []
  · subst hc
    refine ⟨[], by simp, [], fun _ => rfl, ?_, by simp⟩
    constructor <;> simp
  · rw [if_neg hc]
    have hx := hs (chunk.map Prod.snd) q r num
    have hvalid : ∀ e ∈ search (chunk.map Prod.snd) q r num, e.1 < chunk.length := by
      intro e he
      obtain ⟨p, hp, _⟩ := hx.sound e he
      have := (List.getElem?_eq_some_iff.1 hp).1
      simpa using this
    rw [if_pos hvalid]
    exact ⟨_, rfl, _, fun h => absurd h hc, hx, rfl⟩

/-- If every in-radius point is stored in the query's chunk, the chunked search is an exact search of
the whole cloud; the soundness half needs no assumption. -/
theorem refine (cfg : Cfg K) (cloud : List (Vec3 K)) (w q : Vec3 K) (r : K) (num : ℕ)
    (cres : List (ℕ × K))
    (hx : ExactSearch ((setInputCloud cfg cloud (chunkId cfg q)).map Prod.snd) (weightedDist w q) r num cres) :
    let chunk := setInputCloud cfg cloud (chunkId cfg q)
    let res := cres.filterMap fun e => (chunk[e.1]?).map fun ip => (ip.1, e.2)
    ((res.map Prod.fst).Nodup ∧
      (∀ e ∈ res, ∃ p, cloud[e.1]? = some p ∧ e.2 = weightedDist w q p ∧ weightedDist w q p < r ^ 2)) ∧
    ((∀ p ∈ cloud, weightedDist w q p < r ^ 2 → chunkId cfg q ∈ targets cfg p) →
      ExactSearch cloud (weightedDist w q) r num res) ∧
    ExactSearch cloud (fun p => if chunkId cfg q ∈ targets cfg p then weightedDist w q p else r ^ 2) r num res := by
  intro chunk res
  have hlook : ∀ e ∈ cres, ∃ i p, chunk[e.1]? = some (i, p) ∧ cloud[i]? = some p ∧
      e.2 = weightedDist w q p ∧ weightedDist w q p < r ^ 2 ∧ chunkId cfg q ∈ targets cfg p := by
    intro e he
    obtain ⟨p, hp, h1, h2⟩ := hx.sound e he
    rw [List.getElem?_map] at hp
    cases hc : chunk[e.1]? with
    | none => rw [show (setInputCloud cfg cloud (chunkId cfg q))[e.1]? = none from hc] at hp; simp at hp
    | some ip =>
      obtain ⟨i, p'⟩ := ip
      rw [show (setInputCloud cfg cloud (chunkId cfg q))[e.1]? = some (i, p') from hc] at hp
      simp at hp; subst hp
      have : (i, p') ∈ setInputCloud cfg cloud (chunkId cfg q) := List.mem_of_getElem? hc
      exact ⟨i, p', rfl, ((mem_content cfg cloud _ i p').1 this).1, h1, h2, ((mem_content cfg cloud _ i p').1 this).2⟩
  -- res is the pointwise translation
  have hmap : res = cres.map fun e => (((chunk[e.1]?).map Prod.fst).getD 0, e.2) := by
    have : ∀ l : List (ℕ × K), (∀ e ∈ l, e ∈ cres) →
        (l.filterMap fun e => (chunk[e.1]?).map fun ip => (ip.1, e.2)) =
          l.map fun e => (((chunk[e.1]?).map Prod.fst).getD 0, e.2) := by
      intro l
      induction l with
      | nil => intro _; rfl
      | cons a l ih =>
        intro h
        obtain ⟨i, p, hc, _⟩ := hlook a (h a (by simp))
        rw [List.filterMap_cons, List.map_cons, hc]
        simp only [Option.map_some, Option.getD_some]
        rw [ih (fun e he => h e (by simp [he]))]
    exact this cres fun _ h => h
  have hinj : (res.map Prod.fst).Nodup := by
    rw [hmap, List.map_map]
    have hnd := hx.nodup
    have hn2 : cres.Nodup := List.Nodup.of_map _ hnd
    refine List.Nodup.map_on ?_ hn2
    intro a ha b hb hab
    simp only [Function.comp] at hab
    obtain ⟨i, p, h1, _⟩ := hlook a ha
    obtain ⟨j, p', h2, _⟩ := hlook b hb
    rw [h1, h2] at hab
    simp at hab
    subst hab
    -- equal ids in the chunk are equal positions
    have hidx : a.1 = b.1 := by
      have hn := ids_nodup cfg cloud (chunkId cfg q)
      have e1 : ((setInputCloud cfg cloud (chunkId cfg q)).map Prod.fst)[a.1]? = some i := by
        rw [List.getElem?_map, show (setInputCloud cfg cloud (chunkId cfg q))[a.1]? = some (i, p) from h1]; rfl
      have e2 : ((setInputCloud cfg cloud (chunkId cfg q)).map Prod.fst)[b.1]? = some i := by
        rw [List.getElem?_map, show (setInputCloud cfg cloud (chunkId cfg q))[b.1]? = some (i, p') from h2]; rfl
      have l1 := (List.getElem?_eq_some_iff.1 e1).1
      exact (List.getElem?_inj l1 hn).1 (e1.trans e2.symm)
    exact List.inj_on_of_nodup_map hnd ha hb hidx
  have hsound : ∀ e ∈ res, ∃ p, cloud[e.1]? = some p ∧ e.2 = weightedDist w q p ∧ weightedDist w q p < r ^ 2 ∧
      chunkId cfg q ∈ targets cfg p := by
    intro e he
    rw [hmap, List.mem_map] at he
    obtain ⟨a, ha, rfl⟩ := he
    obtain ⟨i, p, h1, h2, h3, h4⟩ := hlook a ha
    rw [h1]
    exact ⟨p, h2, h3, h4⟩
  have hsorted : res.Pairwise fun a b => a.2 ≤ b.2 := by
    rw [hmap, List.pairwise_map]; exact hx.sorted
  have hbounded : num ≠ 0 → res.length ≤ num := by
    intro hn; rw [hmap, List.length_map]; exact hx.bounded hn
  have hcomplete : ∀ (i : ℕ) (p : Vec3 K), cloud[i]? = some p → chunkId cfg q ∈ targets cfg p →
      weightedDist w q p < r ^ 2 →
      i ∈ res.map Prod.fst ∨ (num ≠ 0 ∧ res.length = num ∧ ∀ e ∈ res, e.2 ≤ weightedDist w q p) := by
    intro i p hp ht hd
    have hmem : (i, p) ∈ setInputCloud cfg cloud (chunkId cfg q) := (mem_content cfg cloud _ i p).2 ⟨hp, ht⟩
    obtain ⟨j, hj⟩ := List.getElem?_of_mem hmem
    have hj' : ((setInputCloud cfg cloud (chunkId cfg q)).map Prod.snd)[j]? = some p := by
      rw [List.getElem?_map, hj]; rfl
    rcases hx.complete j p hj' hd with h | ⟨h1, h2, h3⟩
    · left
      rw [List.mem_map] at h
      obtain ⟨e, he, rfl⟩ := h
      rw [hmap, List.map_map, List.mem_map]
      refine ⟨e, he, ?_⟩
      simp only [Function.comp]
      rw [show chunk[e.1]? = some (i, p) from hj]; rfl
    · right
      refine ⟨h1, by rw [hmap, List.length_map]; exact h2, ?_⟩
      intro e he
      rw [hmap, List.mem_map] at he
      obtain ⟨a, ha, rfl⟩ := he
      exact h3 a ha
  refine ⟨⟨hinj, fun e he => ?_⟩, fun hall => ⟨hinj, fun e he => ?_, hsorted, hbounded, ?_⟩,
    ⟨hinj, fun e he => ?_, hsorted, hbounded, ?_⟩⟩
  · obtain ⟨p, h1, h2, h3, -⟩ := hsound e he
    exact ⟨p, h1, h2, h3⟩
  · obtain ⟨p, h1, h2, h3, -⟩ := hsound e he
    exact ⟨p, h1, h2, h3⟩
  · intro i p hp hd
    exact hcomplete i p hp (hall p (List.mem_of_getElem? hp) hd) hd
  · obtain ⟨p, h1, h2, h3, h4⟩ := hsound e he
    exact ⟨p, h1, by rw [if_pos h4, h2], by rw [if_pos h4]; exact h3⟩
  · intro i p hp hd
    by_cases ht : chunkId cfg q ∈ targets cfg p
    · rw [if_pos ht] at hd ⊢
      exact hcomplete i p hp ht hd
    · rw [if_neg ht] at hd
      exact absurd hd (lt_irrefl _)

/-- C52: for radii up to `max_search_radius`, chunks of at least twice that length and axis weights
of at least 1, the chunked search answers exactly like a search over the whole cloud - for every
input cloud, query and result limit, given that each chunk's kd-tree searches its own points
exactly. -/
theorem C52_equals_whole_cloud_search (cfg : Cfg K) (hR : 0 < cfg.maxSearchRadius)
    (h2 : 2 * cfg.maxSearchRadius ≤ cfg.chunkLength) (cloud : List (Vec3 K)) (w : Vec3 K)
    (hw : 1 ≤ w.x ∧ 1 ≤ w.y ∧ 1 ≤ w.z)
    (search : List (Vec3 K) → Vec3 K → K → ℕ → List (ℕ × K))
    (hs : ∀ pts q r num, ExactSearch pts (weightedDist w q) r num (search pts q r num))
    (q : Vec3 K) (r : K) (hr0 : 0 ≤ r) (hr : r ≤ cfg.maxSearchRadius) (num : ℕ) :
    ∃ res, radiusSearch cfg (setInputCloud cfg cloud) search q r num = .ok res ∧
      ExactSearch cloud (weightedDist w q) r num res := by
  have hL : 0 < cfg.chunkLength := by linarith
  obtain ⟨res, h1, cres, _, h3, h4⟩ := radiusSearch_ok cfg cloud w search hs q r num (by linarith)
  refine ⟨res, h1, ?_⟩
  rw [h4]
  exact (refine cfg cloud w q r num cres h3).2.1 fun p _ hd => in_chunk cfg hL hR h2 w q p hw r hr0 hr hd

/-- C53: for every radius that is not refused, every returned id is a valid index of the input cloud,
refers to a point within the radius with the reported distance, and no id is returned twice. -/
theorem C53_ids_valid (cfg : Cfg K) (cloud : List (Vec3 K)) (w : Vec3 K)
    (search : List (Vec3 K) → Vec3 K → K → ℕ → List (ℕ × K))
    (hs : ∀ pts q r num, ExactSearch pts (weightedDist w q) r num (search pts q r num))
    (q : Vec3 K) (r : K) (num : ℕ) (hr : r ≤ cfg.chunkLength) :
    ∃ res, radiusSearch cfg (setInputCloud cfg cloud) search q r num = .ok res ∧
      (res.map Prod.fst).Nodup ∧
      ∀ e ∈ res, ∃ p, cloud[e.1]? = some p ∧ e.2 = weightedDist w q p ∧ weightedDist w q p < r ^ 2 := by
  obtain ⟨res, h1, cres, _, h3, h4⟩ := radiusSearch_ok cfg cloud w search hs q r num hr
  refine ⟨res, h1, ?_⟩
  rw [h4]
  exact (refine cfg cloud w q r num cres h3).1

/-- C55: a search throws exactly when the radius exceeds the chunk length. -/
theorem C55_throws_iff (cfg : Cfg K) (chunks : Chunks K)
    (search : List (Vec3 K) → Vec3 K → K → ℕ → List (ℕ × K)) (q : Vec3 K) (r : K) (num : ℕ) :
    (∃ msg, radiusSearch cfg chunks search q r num = .throws msg) ↔ cfg.chunkLength < r := by
  unfold radiusSearch
  constructor
  · rintro ⟨msg, h⟩
    by_contra hc
    rw [if_neg hc] at h
    simp only at h
    split_ifs at h
  · intro h
    exact ⟨_, by rw [if_pos h]⟩

/-- An exact search exists over every cloud, so the assumption on the kd-trees can be met. -/
theorem exactSearch_exists {P : Type*} (cloud : List P) (dist : P → K) (r : K) (num : ℕ) :
    ∃ res, ExactSearch cloud dist r num res := by
  classical
  -- all hits, sorted by distance, truncated
  let hits := (cloud.zipIdx.filter fun e => decide (dist e.1 < r ^ 2)).map fun e => (e.2, dist e.1)
  let srt := hits.mergeSort fun a b => decide (a.2 ≤ b.2)
  have hperm : srt.Perm hits := List.mergeSort_perm _ _
  have hsorted : srt.Pairwise fun a b => a.2 ≤ b.2 := by
    have := List.pairwise_mergeSort (le := fun a b : ℕ × K => decide (a.2 ≤ b.2))
      (by intro a b c h1 h2; simp at *; exact le_trans h1 h2)
      (by intro a b; simp; exact le_total _ _) hits
    exact this.imp (by simp)
  have hmem : ∀ e, e ∈ srt ↔ ∃ p, cloud[e.1]? = some p ∧ e.2 = dist p ∧ dist p < r ^ 2 := by
    intro e
    rw [hperm.mem_iff]
    simp only [hits, List.mem_map, List.mem_filter, decide_eq_true_eq, Prod.exists, List.mk_mem_zipIdx_iff_getElem?]
    constructor
    · rintro ⟨p, i, ⟨h1, h2⟩, rfl⟩; exact ⟨p, h1, rfl, h2⟩
    · rintro ⟨p, h1, h2, h3⟩; exact ⟨p, e.1, ⟨h1, h3⟩, by ext <;> simp [h2]⟩
  have hnd : (srt.map Prod.fst).Nodup := by
    rw [(hperm.map Prod.fst).nodup_iff]
    simp only [hits, List.map_map]
    have h : ((Prod.fst ∘ fun e : P × ℕ => (e.2, dist e.1))) = Prod.snd := rfl
    rw [h]
    have h2 : (cloud.zipIdx.map Prod.snd).Nodup := by
      rw [List.zipIdx_map_snd]; exact List.nodup_range'
    exact (List.Sublist.map _ List.filter_sublist).nodup h2
  by_cases hn : num = 0
  · refine ⟨srt, hnd, fun e he => (hmem e).1 he, hsorted, fun h => absurd hn h, ?_⟩
    intro i p hp hd
    left
    exact List.mem_map.2 ⟨(i, dist p), (hmem (i, dist p)).2 ⟨p, hp, rfl, hd⟩, rfl⟩
  · have hsub : (srt.take num).Sublist srt := List.take_sublist _ _
    refine ⟨srt.take num, (hsub.map _).nodup hnd, fun e he => (hmem e).1 (hsub.mem he),
      hsorted.sublist hsub, fun _ => by simp, ?_⟩
    intro i p hp hd
    have hin : (i, dist p) ∈ srt := (hmem (i, dist p)).2 ⟨p, hp, rfl, hd⟩
    rw [← List.take_append_drop num srt, List.mem_append] at hin
    rcases hin with h | h
    · left; exact List.mem_map.2 ⟨_, h, rfl⟩
    · right
      refine ⟨hn, ?_, ?_⟩
      · rw [List.length_take, min_eq_left]
        by_contra hc
        push Not at hc
        rw [List.drop_eq_nil_of_le hc.le] at h
        simp at h
      · intro e he
        rw [← List.take_append_drop num srt, List.pairwise_append] at hsorted
        exact hsorted.2.2 e he _ h

/-- C54, what is missed: with the chunk length 20 and overlap 0.4 of the default configuration, a search of
radius 0.5 (the default match-output distance) misses a point at distance 0.46 on the other side of a
chunk border, without throwing. -/
theorem C54_beyond_overlap_example :
    ∃ (cfg : Cfg ℚ) (cloud : List (Vec3 ℚ)) (q p : Vec3 ℚ) (r : ℚ), p ∈ cloud ∧
      weightedDist ⟨1, 1, 1⟩ q p < r ^ 2 ∧ r < cfg.chunkLength ∧
      ∀ search num, radiusSearch cfg (setInputCloud cfg cloud) search q r num = .ok [] := by
  refine ⟨⟨20, 2/5, true⟩, [⟨-9/20, 10, 10⟩], ⟨1/100, 10, 10⟩, ⟨-9/20, 10, 10⟩, 1/2, by simp, ?_, ?_, ?_⟩
  · norm_num [weightedDist]
  · norm_num
  · intro search num
    have hq : chunkId (⟨20, 2/5, true⟩ : Cfg ℚ) ⟨1/100, 10, 10⟩ = ⟨0, 0, 0⟩ := by
      simp only [chunkId, ChunkId.mk.injEq]
      refine ⟨?_, ?_, ?_⟩ <;> rw [Int.floor_eq_iff] <;> norm_num
    have hp : chunkId (⟨20, 2/5, true⟩ : Cfg ℚ) ⟨-9/20, 10, 10⟩ = ⟨-1, 0, 0⟩ := by
      simp only [chunkId, ChunkId.mk.injEq]
      refine ⟨?_, ?_, ?_⟩ <;> rw [Int.floor_eq_iff] <;> norm_num
    have hempty : setInputCloud (⟨20, 2/5, true⟩ : Cfg ℚ) [⟨-9/20, 10, 10⟩] ⟨0, 0, 0⟩ = [] := by
      rw [content]
      simp only [List.zipIdx_cons, List.zipIdx_nil, List.filter_cons, List.filter_nil]
      rw [if_neg]
      · rfl
      · rw [decide_eq_true_eq, mem_targets, hp]
        norm_num [bound]
    unfold radiusSearch
    rw [if_neg (by norm_num)]
    simp only [hq, hempty, if_true]

/-- Along one axis: `p` lies in the chunk of `q` or less than `R` beyond its border. -/
def AxisReach (L R q p : K) : Prop := (⌊q / L⌋ : K) * L - R < p ∧ p < ((⌊q / L⌋ : K) + 1) * L + R

/-- `p` lies less than `max_search_radius` beyond the border of the chunk of `q`, along every axis. -/
def Reach (cfg : Cfg K) (q p : Vec3 K) : Prop :=
  AxisReach cfg.chunkLength cfg.maxSearchRadius q.x p.x ∧ AxisReach cfg.chunkLength cfg.maxSearchRadius q.y p.y ∧
    AxisReach cfg.chunkLength cfg.maxSearchRadius q.z p.z

theorem axis_reach_iff (cfg : Cfg K) (hL : 0 < cfg.chunkLength) (hR : 0 < cfg.maxSearchRadius)
    (h2 : 2 * cfg.maxSearchRadius ≤ cfg.chunkLength) (q p : K) :
    let cq := ⌊q * (1 / cfg.chunkLength)⌋
    let cp := ⌊p * (1 / cfg.chunkLength)⌋
    (cq = cp ∨ (bound cfg p cp ≠ 0 ∧ cq = cp + bound cfg p cp)) ↔
      AxisReach cfg.chunkLength cfg.maxSearchRadius q p := by
  intro cq cp
  have fl : ∀ x : K, (⌊x * (1 / cfg.chunkLength)⌋ : K) * cfg.chunkLength ≤ x ∧
      x < (⌊x * (1 / cfg.chunkLength)⌋ + 1 : K) * cfg.chunkLength := by
    intro x
    have e : x = x * (1 / cfg.chunkLength) * cfg.chunkLength := by field_simp
    constructor
    · nth_rw 2 [e]
      exact mul_le_mul_of_nonneg_right (Int.floor_le _) hL.le
    · nth_rw 1 [e]
      exact mul_lt_mul_of_pos_right (Int.lt_floor_add_one _) hL
  obtain ⟨p1, p2⟩ := fl p
  change (cp : K) * _ ≤ p at p1
  change p < ((cp : K) + 1) * _ at p2
  have hcq : ⌊q / cfg.chunkLength⌋ = cq := by rw [div_eq_mul_one_div]
  unfold AxisReach
  rw [hcq]
  generalize cq = c
  constructor
  · rintro (rfl | ⟨-, h⟩)
    · constructor <;> nlinarith
    · rw [h]
      push_cast
      unfold bound
      simp only
      split_ifs with g1 g2
      · constructor
        · push_cast; nlinarith
        · push_cast; nlinarith
      · constructor
        · push_cast; nlinarith
        · push_cast; nlinarith
      · constructor
        · push_cast; nlinarith
        · push_cast; nlinarith
  · rintro ⟨g1, g2⟩
    rcases lt_trichotomy c cp with h | h | h
    · right
      have h' : (c : K) + 1 ≤ cp := by exact_mod_cast h
      have hm : ((c : K) + 1) * cfg.chunkLength ≤ cp * cfg.chunkLength := mul_le_mul_of_nonneg_right h' hL.le
      have hin : p - cp * cfg.chunkLength < cfg.maxSearchRadius := by linarith
      have hb : bound cfg p cp = -1 := by unfold bound; simp only; rw [if_pos hin]
      refine ⟨by rw [hb]; decide, ?_⟩
      rw [hb]
      have : (cp : K) - 2 < c := by
        by_contra hc
        push Not at hc
        have : ((c : K) + 1) * cfg.chunkLength ≤ (cp - 1) * cfg.chunkLength :=
          mul_le_mul_of_nonneg_right (by linarith) hL.le
        nlinarith
      have : cp - 2 < c := by exact_mod_cast this
      omega
    · left; exact h
    · right
      have h' : (cp : K) + 1 ≤ c := by exact_mod_cast h
      have hm : ((cp : K) + 1) * cfg.chunkLength ≤ c * cfg.chunkLength := mul_le_mul_of_nonneg_right h' hL.le
      have hin : cfg.chunkLength - cfg.maxSearchRadius < p - cp * cfg.chunkLength := by linarith
      have hb : bound cfg p cp = 1 := by
        unfold bound; simp only; rw [if_neg (by linarith), if_pos hin]
      refine ⟨by rw [hb]; decide, ?_⟩
      rw [hb]
      have : (c : K) < cp + 2 := by
        by_contra hc
        push Not at hc
        have : ((cp : K) + 2) * cfg.chunkLength ≤ c * cfg.chunkLength := mul_le_mul_of_nonneg_right hc hL.le
        nlinarith
      have : c < cp + 2 := by exact_mod_cast this
      omega

theorem reach_iff (cfg : Cfg K) (hL : 0 < cfg.chunkLength) (hR : 0 < cfg.maxSearchRadius)
    (h2 : 2 * cfg.maxSearchRadius ≤ cfg.chunkLength) (q p : Vec3 K) :
    chunkId cfg q ∈ targets cfg p ↔ Reach cfg q p := by
  rw [mem_targets]
  exact and_congr (axis_reach_iff cfg hL hR h2 q.x p.x)
    (and_congr (axis_reach_iff cfg hL hR h2 q.y p.y) (axis_reach_iff cfg hL hR h2 q.z p.z))

open Classical in
/-- C54: for any radius that is not refused, the search answers like an exact search over the points that lie less
than `max_search_radius` beyond the border of the query's chunk (all others are treated as out of range), for every
cloud, axis weights and result limit. -/
theorem C54_reach (cfg : Cfg K) (hR : 0 < cfg.maxSearchRadius)
    (h2 : 2 * cfg.maxSearchRadius ≤ cfg.chunkLength) (cloud : List (Vec3 K)) (w : Vec3 K)
    (search : List (Vec3 K) → Vec3 K → K → ℕ → List (ℕ × K))
    (hs : ∀ pts q r num, ExactSearch pts (weightedDist w q) r num (search pts q r num))
    (q : Vec3 K) (r : K) (hr : r ≤ cfg.chunkLength) (num : ℕ) :
    ∃ res, radiusSearch cfg (setInputCloud cfg cloud) search q r num = .ok res ∧
      ExactSearch cloud (fun p => if Reach cfg q p then weightedDist w q p else r ^ 2) r num res := by
  have hL : 0 < cfg.chunkLength := by linarith
  obtain ⟨res, h1, cres, _, h3, h4⟩ := radiusSearch_ok cfg cloud w search hs q r num hr
  refine ⟨res, h1, ?_⟩
  rw [h4]
  have := (refine cfg cloud w q r num cres h3).2.2
  simpa only [reach_iff cfg hL hR h2] using this

/-- C54: without a result limit, a point is found iff it is within the radius and less than `max_search_radius`
beyond the border of the query's chunk; in particular every point within `max_search_radius` is found. -/
theorem C54_beyond_overlap (cfg : Cfg K) (hR : 0 < cfg.maxSearchRadius)
    (h2 : 2 * cfg.maxSearchRadius ≤ cfg.chunkLength) (cloud : List (Vec3 K)) (w : Vec3 K)
    (search : List (Vec3 K) → Vec3 K → K → ℕ → List (ℕ × K))
    (hs : ∀ pts q r num, ExactSearch pts (weightedDist w q) r num (search pts q r num))
    (q : Vec3 K) (r : K) (hr0 : cfg.maxSearchRadius ≤ r) (hr : r ≤ cfg.chunkLength) :
    ∃ res, radiusSearch cfg (setInputCloud cfg cloud) search q r 0 = .ok res ∧
      ∀ (i : ℕ) (p : Vec3 K), cloud[i]? = some p →
        (i ∈ res.map Prod.fst ↔ weightedDist w q p < r ^ 2 ∧ Reach cfg q p) ∧
        ((1 ≤ w.x ∧ 1 ≤ w.y ∧ 1 ≤ w.z) → weightedDist w q p < cfg.maxSearchRadius ^ 2 → i ∈ res.map Prod.fst) := by
  classical
  have hL : 0 < cfg.chunkLength := by linarith
  obtain ⟨res, h1, hx⟩ := C54_reach cfg hR h2 cloud w search hs q r hr 0
  refine ⟨res, h1, fun i p hp => ?_⟩
  have key : i ∈ res.map Prod.fst ↔ weightedDist w q p < r ^ 2 ∧ Reach cfg q p := by
    constructor
    · intro hi
      obtain ⟨e, he, rfl⟩ := List.mem_map.1 hi
      obtain ⟨p', g1, g2, g3⟩ := hx.sound e he
      rw [hp] at g1
      cases g1
      by_cases hre : Reach cfg q p
      · rw [if_pos hre] at g3; exact ⟨g3, hre⟩
      · rw [if_neg hre] at g3; exact absurd g3 (lt_irrefl _)
    · rintro ⟨g1, g2⟩
      rcases hx.complete i p hp (by rw [if_pos g2]; exact g1) with h | ⟨h, _⟩
      · exact h
      · exact absurd rfl h
  refine ⟨key, fun hw hd => key.2 ⟨lt_of_lt_of_le hd (by nlinarith), ?_⟩⟩
  rw [← reach_iff cfg hL hR h2]
  exact in_chunk cfg hL hR h2 w q p hw _ hR.le le_rfl hd

/-- Non-vacuity of C52: the parameters the node uses by default (chunk 20 m, overlap 0.4 m, weights 1,
1, 5) satisfy the hypotheses. -/
example : (0 : ℚ) < (⟨20, 2/5, true⟩ : Cfg ℚ).maxSearchRadius ∧
    2 * (⟨20, 2/5, true⟩ : Cfg ℚ).maxSearchRadius ≤ (⟨20, 2/5, true⟩ : Cfg ℚ).chunkLength ∧
    ((1 : ℚ) ≤ (⟨1, 1, 5⟩ : Vec3 ℚ).x ∧ (1 : ℚ) ≤ (⟨1, 1, 5⟩ : Vec3 ℚ).y ∧ (1 : ℚ) ≤ (⟨1, 1, 5⟩ : Vec3 ℚ).z) := by
  norm_num

/-- C52, the weight hypothesis is needed: with a weight of 1/2 a point at weighted distance 0.3 can be
missed. -/
theorem C52_needs_weights :
    ∃ (cfg : Cfg ℚ) (cloud : List (Vec3 ℚ)) (w q p : Vec3 ℚ) (r : ℚ), p ∈ cloud ∧
      2 * cfg.maxSearchRadius ≤ cfg.chunkLength ∧ r ≤ cfg.maxSearchRadius ∧ weightedDist w q p < r ^ 2 ∧
      ∀ search num, radiusSearch cfg (setInputCloud cfg cloud) search q r num = .ok [] := by
  refine ⟨⟨20, 2/5, true⟩, [⟨-11/20, 10, 10⟩], ⟨1/2, 1/2, 1/2⟩, ⟨1/100, 10, 10⟩, ⟨-11/20, 10, 10⟩, 2/5,
    by simp, by norm_num, by norm_num, by norm_num [weightedDist], ?_⟩
  intro search num
  have hq : chunkId (⟨20, 2/5, true⟩ : Cfg ℚ) ⟨1/100, 10, 10⟩ = ⟨0, 0, 0⟩ := by
    simp only [chunkId, ChunkId.mk.injEq]
    refine ⟨?_, ?_, ?_⟩ <;> rw [Int.floor_eq_iff] <;> norm_num
  have hp : chunkId (⟨20, 2/5, true⟩ : Cfg ℚ) ⟨-11/20, 10, 10⟩ = ⟨-1, 0, 0⟩ := by
    simp only [chunkId, ChunkId.mk.injEq]
    refine ⟨?_, ?_, ?_⟩ <;> rw [Int.floor_eq_iff] <;> norm_num
  have hempty : setInputCloud (⟨20, 2/5, true⟩ : Cfg ℚ) [⟨-11/20, 10, 10⟩] ⟨0, 0, 0⟩ = [] := by
    rw [content]
    simp only [List.zipIdx_cons, List.zipIdx_nil, List.filter_cons, List.filter_nil]
    rw [if_neg]
    · rfl
    · rw [decide_eq_true_eq, mem_targets, hp]
      norm_num [bound]
  unfold radiusSearch
  rw [if_neg (by norm_num)]
  simp only [hq, hempty, if_true]

/-! ## C57 -/

/-- C57: the hash of a chunk is defined exactly for chunks with non-negative, not too large
y and z indices.  For all other chunks, in particular every chunk with negative y or z, the shift is
undefined in C++14 (`C57_negative_undefined`). -/
theorem C57_hash_defined (c : ChunkId) :
    c.hashDefined.isOk ↔ 0 ≤ c.y ∧ c.y < 2 ^ 21 ∧ 0 ≤ c.z ∧ c.z < 2 ^ 10 := by
  unfold ChunkId.hashDefined shl
  by_cases hy : c.y < 0
  · simp [hy, Outcome.bind, Outcome.isOk]
  · rw [if_neg hy]
    by_cases hy2 : c.y * 2 ^ 11 < 2 ^ 32
    · rw [if_pos hy2]
      by_cases hz : c.z < 0
      · simp [hz, Outcome.bind, Outcome.isOk]
      · rw [if_neg hz]
        by_cases hz2 : c.z * 2 ^ 22 < 2 ^ 32
        · rw [if_pos hz2]; simp [Outcome.bind, Outcome.isOk]; omega
        · rw [if_neg hz2]; simp [Outcome.bind, Outcome.isOk]; omega
    · rw [if_neg hy2]; simp [Outcome.bind, Outcome.isOk]; omega

/-- C57: storing a map point with negative y hashes a chunk id with an undefined shift. -/
theorem C57_negative_undefined (cfg : Cfg K) (hL : 0 < cfg.chunkLength) (p : Vec3 K) (hp : p.y < 0) :
    chunkId cfg p ∈ targets cfg p ∧ (chunkId cfg p).hashDefined = .ub "left shift of a negative value" := by
  refine ⟨by simp [targets], ?_⟩
  have : (chunkId cfg p).y < 0 := by
    simp only [chunkId]
    rw [Int.floor_lt]
    push_cast
    exact mul_neg_of_neg_of_pos hp (by positivity)
  simp [ChunkId.hashDefined, shl, this, Outcome.bind]

end ChunkedKdtree
end Mcl3dl
