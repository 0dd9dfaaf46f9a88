import Verif.Props.ChunkedKdtree
import Verif.Model.KdtreeSettings

/-! # Properties C56 (chunk clouds) and C132 of the chunked kd-tree -/

set_option linter.unusedSectionVars false

namespace Mcl3dl
namespace ChunkedKdtree

variable {K : Type*} [Field K] [LinearOrder K] [IsStrictOrderedRing K] [FloorRing K]

/-- Along one axis: `x` is closer than `r` to the interval `[c * l, (c + 1) * l)`. -/
def Near (l r : K) (c : ℤ) (x : K) : Prop := c * l - r < x ∧ x < (c + 1) * l + r

/-- `p` is closer than `max_search_radius` to the cube of chunk `c`. -/
def NearChunk (cfg : Cfg K) (c : ChunkId) (p : Vec3 K) : Prop :=
  Near cfg.chunkLength cfg.maxSearchRadius c.x p.x ∧ Near cfg.chunkLength cfg.maxSearchRadius c.y p.y ∧
  Near cfg.chunkLength cfg.maxSearchRadius c.z p.z

theorem near_iff (cfg : Cfg K) (hR : 0 < cfg.maxSearchRadius) (h2 : 2 * cfg.maxSearchRadius ≤ cfg.chunkLength)
    (x : K) (c : ℤ) :
    (c = ⌊x * (1 / cfg.chunkLength)⌋ ∨ (bound cfg x ⌊x * (1 / cfg.chunkLength)⌋ ≠ 0 ∧
      c = ⌊x * (1 / cfg.chunkLength)⌋ + bound cfg x ⌊x * (1 / cfg.chunkLength)⌋)) ↔
      Near cfg.chunkLength cfg.maxSearchRadius c x := by
  have hL : 0 < cfg.chunkLength := by linarith
  have e : x = x * (1 / cfg.chunkLength) * cfg.chunkLength := by field_simp
  have h1 : (⌊x * (1 / cfg.chunkLength)⌋ : K) * cfg.chunkLength ≤ x := by
    nth_rw 2 [e]; exact mul_le_mul_of_nonneg_right (Int.floor_le _) hL.le
  have h3 : x < (⌊x * (1 / cfg.chunkLength)⌋ + 1 : K) * cfg.chunkLength := by
    nth_rw 1 [e]; exact mul_lt_mul_of_pos_right (Int.lt_floor_add_one _) hL
  generalize ⌊x * (1 / cfg.chunkLength)⌋ = d at h1 h3
  unfold Near bound
  generalize cfg.chunkLength = L at *
  generalize cfg.maxSearchRadius = R at *
  constructor
  · rintro (rfl | ⟨hb, rfl⟩)
    · constructor <;> nlinarith
    · simp only at hb ⊢
      split_ifs at hb ⊢ with g1 g2
      · push_cast; constructor <;> nlinarith
      · push_cast; constructor <;> nlinarith
      · exact absurd rfl hb
  · rintro ⟨a1, a2⟩
    rcases lt_trichotomy c d with h | h | h
    · right
      have h' : (c : K) + 1 ≤ d := by exact_mod_cast h
      have hm : ((c : K) + 1) * L ≤ d * L := mul_le_mul_of_nonneg_right h' hL.le
      have hin : x - d * L < R := by nlinarith
      simp only
      rw [if_pos hin]
      refine ⟨by decide, ?_⟩
      have : (d : K) - 2 < c := by
        by_contra hc
        push Not at hc
        have : ((c : K) + 1) * L ≤ (d - 1) * L := mul_le_mul_of_nonneg_right (by linarith) hL.le
        nlinarith
      have : d - 2 < c := by exact_mod_cast this
      omega
    · exact .inl h
    · right
      have h' : (d : K) + 1 ≤ c := by exact_mod_cast h
      have hm : ((d : K) + 1) * L ≤ c * L := mul_le_mul_of_nonneg_right h' hL.le
      have hin : L - R < x - d * L := by nlinarith
      simp only
      rw [if_neg (by linarith), if_pos hin]
      refine ⟨by decide, ?_⟩
      have : (c : K) < d + 2 := by
        by_contra hc
        push Not at hc
        have : ((d : K) + 2) * L ≤ c * L := mul_le_mul_of_nonneg_right hc hL.le
        nlinarith
      have : c < d + 2 := by exact_mod_cast this
      omega

theorem mem_targets_near (cfg : Cfg K) (hR : 0 < cfg.maxSearchRadius)
    (h2 : 2 * cfg.maxSearchRadius ≤ cfg.chunkLength) (p : Vec3 K) (c : ChunkId) :
    c ∈ targets cfg p ↔ NearChunk cfg c p := by
  rw [mem_targets]
  exact and_congr (near_iff cfg hR h2 p.x c.x) (and_congr (near_iff cfg hR h2 p.y c.y) (near_iff cfg hR h2 p.z c.z))

open Classical in
/-- C56: the cloud of a chunk consists of the input points closer than `max_search_radius` to the chunk, in the
order of the input cloud; it is null if clouds are not kept or if there is no such point. -/
theorem C56_chunk_clouds (cfg : Cfg K) (hR : 0 < cfg.maxSearchRadius) (h2 : 2 * cfg.maxSearchRadius ≤ cfg.chunkLength)
    (cloud : List (Vec3 K)) (c : ChunkId) :
    getChunkCloud cfg (setInputCloud cfg cloud) c =
      if cfg.keepClouds = true ∧ ∃ p ∈ cloud, NearChunk cfg c p then some (cloud.filter fun p => decide (NearChunk cfg c p))
      else none := by
  have hc : (setInputCloud cfg cloud c).map Prod.snd = cloud.filter fun p => decide (NearChunk cfg c p) := by
    rw [content, List.map_map]
    have : ∀ (n : ℕ), ((cloud.zipIdx n).filter fun e => decide (c ∈ targets cfg e.1)).map (Prod.snd ∘ fun e => (e.2, e.1)) =
        cloud.filter fun p => decide (NearChunk cfg c p) := by
      induction cloud with
      | nil => intro n; rfl
      | cons p cloud ih =>
        intro n
        rw [List.zipIdx_cons, List.filter_cons, List.filter_cons]
        simp only [mem_targets_near cfg hR h2]
        by_cases hp : NearChunk cfg c p
        · simp only [hp, decide_true, if_true, List.map_cons, Function.comp]
          congr 1
          rw [← ih (n + 1)]
          simp only [mem_targets_near cfg hR h2]
        · simp only [hp, decide_false, Bool.false_eq_true, if_false]
          rw [← ih (n + 1)]
          simp only [mem_targets_near cfg hR h2]
    exact this 0
  have hn : setInputCloud cfg cloud c = [] ↔ ¬ ∃ p ∈ cloud, NearChunk cfg c p := by
    rw [← List.map_eq_nil_iff (f := Prod.snd), hc, List.filter_eq_nil_iff]
    simp
  unfold getChunkCloud
  rw [hc]
  by_cases hk : cfg.keepClouds = true
  · by_cases he : ∃ p ∈ cloud, NearChunk cfg c p
    · rw [if_neg (by rw [hn]; simp [hk, he]), if_pos ⟨hk, he⟩]
    · rw [if_pos (by rw [hn]; exact .inr he), if_neg (fun h => he h.2)]
  · rw [if_pos (by simpa using Or.inl hk), if_neg (fun h => hk h.1)]

/-- A point 0.1 below a border is also in the cloud of the chunk above it. -/
example : NearChunk (⟨10, 1, true⟩ : Cfg ℚ) ⟨1, 0, 0⟩ ⟨99/10, 5, 5⟩ ∧
    ¬ NearChunk (⟨10, 1, true⟩ : Cfg ℚ) ⟨1, 0, 0⟩ ⟨8, 5, 5⟩ := by
  norm_num [NearChunk, Near]

/-! ## C132 -/

/-- The last epsilon, representation and cloud set by a list of calls. -/
def lastEpsilon (l : List (Call K)) : Option K := (l.filterMap fun | .epsilon e => some e | _ => none).getLast?
def lastRep (l : List (Call K)) : Option (Vec3 K) := (l.filterMap fun | .rep w => some w | _ => none).getLast?
def lastCloud (l : List (Call K)) : List (Vec3 K) := ((l.filterMap fun | .cloud c => some c | _ => none).getLast?).getD []

theorem calls_state (cfg : Cfg K) (l : List (Call K)) :
    let o := l.foldl (Obj.call cfg) Obj.new
    o.rep = lastRep l ∧ o.epsilon = lastEpsilon l ∧ o.input = lastCloud l ∧
    ∀ c, o.chunks c = if setInputCloud cfg (lastCloud l) c = [] then none
      else some ⟨lastRep l, lastEpsilon l, setInputCloud cfg (lastCloud l) c⟩ := by
  induction l using List.reverseRecOn with
  | nil =>
    refine ⟨rfl, rfl, rfl, fun c => ?_⟩
    have h : setInputCloud cfg (lastCloud ([] : List (Call K))) c = [] := rfl
    rw [if_pos h]
    rfl
  | append_singleton l a ih =>
    simp only at ih ⊢
    rw [List.foldl_append]
    obtain ⟨h1, h2, h3, h4⟩ := ih
    cases a with
    | epsilon e =>
      have k1 : lastEpsilon (l ++ [.epsilon e]) = some e := by simp [lastEpsilon]
      have k2 : lastRep (l ++ [.epsilon e]) = lastRep l := by simp [lastRep]
      have k3 : lastCloud (l ++ [.epsilon e]) = lastCloud l := by simp [lastCloud]
      rw [k1, k2, k3]
      refine ⟨h1, rfl, h3, fun c => ?_⟩
      show (((l.foldl (Obj.call cfg) Obj.new).chunks c).map _) = _
      rw [h4]; split_ifs <;> rfl
    | rep w =>
      have k1 : lastEpsilon (l ++ [.rep w]) = lastEpsilon l := by simp [lastEpsilon]
      have k2 : lastRep (l ++ [.rep w]) = some w := by simp [lastRep]
      have k3 : lastCloud (l ++ [.rep w]) = lastCloud l := by simp [lastCloud]
      rw [k1, k2, k3]
      refine ⟨rfl, h2, h3, fun c => ?_⟩
      show (((l.foldl (Obj.call cfg) Obj.new).chunks c).map _) = _
      rw [h4]; split_ifs <;> rfl
    | cloud pts =>
      have k1 : lastEpsilon (l ++ [.cloud pts]) = lastEpsilon l := by simp [lastEpsilon]
      have k2 : lastRep (l ++ [.cloud pts]) = lastRep l := by simp [lastRep]
      have k3 : lastCloud (l ++ [.cloud pts]) = pts := by simp [lastCloud]
      rw [k1, k2, k3]
      refine ⟨h1, h2, rfl, fun c => ?_⟩
      show (if setInputCloud cfg pts c = [] then none else some (⟨_, _, _⟩ : Chunk K)) = _
      rw [h1, h2]

/-- C132: whatever the order of the calls, a search uses the last cloud, the last point representation and the
last epsilon that were set: it is the search with that representation and epsilon in the chunk of the query. -/
theorem C132_last_settings (cfg : Cfg K) (l : List (Call K))
    (search : Option (Vec3 K) → Option K → List (Vec3 K) → Vec3 K → K → ℕ → List (ℕ × K)) (p : Vec3 K) (r : K) (num : ℕ) :
    (l.foldl (Obj.call cfg) Obj.new).radiusSearch cfg search p r num =
      radiusSearch cfg (setInputCloud cfg (lastCloud l)) (search (lastRep l) (lastEpsilon l)) p r num ∧
    (l.foldl (Obj.call cfg) Obj.new).input = lastCloud l := by
  obtain ⟨_, _, h3, h4⟩ := calls_state cfg l
  refine ⟨?_, h3⟩
  unfold Obj.radiusSearch radiusSearch
  rw [h4]
  by_cases hr : cfg.chunkLength < r
  · rw [if_pos hr, if_pos hr]
  · rw [if_neg hr, if_neg hr]
    by_cases hc : setInputCloud cfg (lastCloud l) (chunkId cfg p) = []
    · rw [if_pos hc]; simp only [hc]; rfl
    · rw [if_neg hc]; simp only [hc, if_false]

/-- C132 with C52: after any calls that set axis weights of at least 1, a search whose radius the overlap supports
answers like an exact search with the last weights over the whole last cloud. -/
theorem C132_exact (cfg : Cfg K) (hR : 0 < cfg.maxSearchRadius) (h2 : 2 * cfg.maxSearchRadius ≤ cfg.chunkLength)
    (l : List (Call K)) {w : Vec3 K} (hl : lastRep l = some w) (hw : 1 ≤ w.x ∧ 1 ≤ w.y ∧ 1 ≤ w.z)
    (search : Option (Vec3 K) → Option K → List (Vec3 K) → Vec3 K → K → ℕ → List (ℕ × K))
    (hs : ∀ w e pts q r num, ExactSearch pts (weightedDist w q) r num (search (some w) e pts q r num))
    (q : Vec3 K) (r : K) (hr0 : 0 ≤ r) (hr : r ≤ cfg.maxSearchRadius) (num : ℕ) :
    ∃ res, (l.foldl (Obj.call cfg) Obj.new).radiusSearch cfg search q r num = .ok res ∧
      ExactSearch (lastCloud l) (weightedDist w q) r num res := by
  rw [(C132_last_settings cfg l search q r num).1, hl]
  exact C52_equals_whole_cloud_search cfg hR h2 (lastCloud l) w hw _ (fun pts q r num => hs w _ pts q r num) q r hr0 hr num

/-- Weights set between two clouds, and once more at the end: the last ones count. -/
example : lastRep [Call.cloud [(⟨0, 0, 0⟩ : Vec3 ℚ)], .rep ⟨1, 1, 5⟩, .cloud [⟨1, 1, 1⟩], .epsilon 2, .rep ⟨1, 1, 3⟩] = some ⟨1, 1, 3⟩ ∧
    lastCloud [Call.cloud [(⟨0, 0, 0⟩ : Vec3 ℚ)], .rep ⟨1, 1, 5⟩, .cloud [⟨1, 1, 1⟩], .epsilon 2, .rep ⟨1, 1, 3⟩] = [⟨1, 1, 1⟩] :=
  ⟨rfl, rfl⟩

end ChunkedKdtree
end Mcl3dl
