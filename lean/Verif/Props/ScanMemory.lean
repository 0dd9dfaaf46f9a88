import Verif.Props.NodeBatch
import Verif.Props.NodeResample

/-! # C186: what the node holds of the scans does not grow with the time it runs -/

set_option linter.unusedSectionVars false

namespace Mcl3dl
namespace Node

variable {C : Type}

/-- No cloud received in `h` has more than `K` points. -/
def CloudsUpTo (K : ℕ) (h : History) : Prop :=
  ∀ e ∈ h, ∀ header msg, e.1 = .cloud header msg → (cloudPoints msg).length ≤ K

theorem scanOf_length {P : Params} {env : Env} {header : Header} {msg : Conv.Msg} {s : Scan}
    (h : scanOf P env header msg = some s) : s.points.length = (cloudPoints msg).length := by
  unfold scanOf at h
  split at h
  · cases h
  · split_ifs at h
    cases h
    simp

/-- The clouds collected are few and each of them was received. -/
theorem batchView_bound {P : Params} {K : ℕ} (h : History) (hK : CloudsUpTo K h) :
    (batchView P h).2.length ≤ max 1 (Params.toSize P.totalAccumCloudMax) ∧
      ∀ s ∈ (batchView P h).2, s.points.length ≤ K := by
  induction h using List.reverseRecOn with
  | nil => simp [batchView]
  | append_singleton h e ih =>
    have ih := ih fun x hx => hK x (List.mem_append_left _ hx)
    have hv : (batchView P (h ++ [e])).2 = (batchStep P (batchView P h).1 (batchView P h).2 e).2 := by
      simp only [batchView, List.foldl_append, List.foldl_cons, List.foldl_nil]
    rw [hv]
    have he := hK e (by simp)
    obtain ⟨ev, env⟩ := e
    have hnil : ([] : List Scan).length ≤ max 1 (Params.toSize P.totalAccumCloudMax) ∧ ∀ s ∈ ([] : List Scan), s.points.length ≤ K := by
      simp
    cases ev with
    | cloud header msg =>
      have hs : ∀ s, scanOf P env header msg = some s → s.points.length ≤ K := fun s h => by
        rw [scanOf_length h]; exact he header msg rfl
      simp only [batchStep]
      split_ifs with h1 h2 h3
      · exact hnil
      · cases hsc : scanOf P env header msg with
        | none => exact hnil
        | some s => simpa using hs s hsc
      · cases hsc : scanOf P env header msg with
        | none => exact hnil
        | some s =>
          unfold completes at h3
          push _root_.Not at h3
          refine ⟨?_, ?_⟩
          · simp only [List.length_append, List.length_singleton]
            exact le_max_of_le_right h3.1
          · intro x hx
            rcases List.mem_append.1 hx with hx | hx
            · exact ih.2 x hx
            · rw [List.mem_singleton.1 hx]; exact hs s hsc
      · exact ih
    | mapcloud stamp m =>
      simp only [batchStep]
      split_ifs
      · exact hnil
      · exact ih
    | loadPcd o =>
      cases o with
      | none => exact ih
      | some pts => exact hnil
    | _ => exact ih

theorem labelled_length_le {K : ℕ} (b : List Scan) (h : ∀ s ∈ b, s.points.length ≤ K) : (labelled b).length ≤ b.length * K := by
  unfold labelled
  rw [List.length_flatten, List.map_map]
  refine (List.sum_le_card_nsmul _ K ?_).trans (by simp)
  intro x hx
  obtain ⟨y, hy, rfl⟩ := List.mem_map.1 hx
  simp only [Function.comp, List.length_map]
  exact h _ (List.fst_mem_of_mem_zipIdx hy)

/-- **C186**: however long the node runs, it collects at most `total_accum_cloud_max` clouds (at least one), so at most so
many times the points of the largest cloud; and a batch is no larger. -/
theorem C186_scans {P : Params} (hacc : P.accumCloud ≠ 0) {lib : Lib C} {env0 : Env} {motion0 : Motion ℝ} {h : History}
    (hreg : RegularClouds h) {K : ℕ} (hK : CloudsUpTo K h) {n0 n : Node C} {outs : List (List Out)}
    (hs : start P lib env0 motion0 = .ok n0) (hr : run P lib n0 h = .ok (n, outs)) :
    n.acc.headers.length ≤ max 1 (Params.toSize P.totalAccumCloudMax) ∧
    n.acc.logic.keys.length ≤ max 1 (Params.toSize P.totalAccumCloudMax) ∧
    (n.map.hasMap = true → ∃ pts, n.acc.cloud = some pts ∧
      pts.length ≤ max 1 (Params.toSize P.totalAccumCloudMax) * K) ∧
    ∀ (e : Event × Env) (b : List Scan), (batchStep P (batchView P h).1 (batchView P h).2 e).1 = some b →
      b.length ≤ max 1 (Params.toSize P.totalAccumCloudMax) ∧ (labelled b).length ≤
        max 1 (Params.toSize P.totalAccumCloudMax) * K := by
  have hi : BInv P (batchView P h) n := run_batchView hreg hr (start_batch hs)
  obtain ⟨b1, b2⟩ := batchView_bound (P := P) h hK
  obtain ⟨-, h1, h2, h3⟩ := hi.acc hacc
  have hl : (labelled (batchView P h).2).length ≤ max 1 (Params.toSize P.totalAccumCloudMax) * K :=
    (labelled_length_le _ b2).trans (Nat.mul_le_mul_right _ b1)
  refine ⟨by rw [h1]; simpa using b1, by rw [h2]; simpa using b1, fun hm => ⟨_, h3 (hi.map ▸ hm), hl⟩, fun e b hb => ?_⟩
  have hbe : b = (batchView P h).2 := by
    obtain ⟨ev, env⟩ := e
    unfold batchStep at hb
    split at hb
    · cases hb
    · cases hb
    · rw [if_neg hacc] at hb
      split_ifs at hb
      cases hb; rfl
    · cases hb
  rw [hbe]
  exact ⟨b1, hl⟩

/-- The hypotheses of C186 are met: a run with two clouds, of two points and of one. -/
example : ∃ n0 n outs, start Demo.P0 Demo.exactLib (Demo.env 0) Demo.motion0 = .ok n0 ∧
    run Demo.P0 Demo.exactLib n0 (Demo.evenHistory ++ [Demo.lastCloud]) = .ok (n, outs) ∧
    n.acc.headers.length ≤ max 1 (Params.toSize Demo.P0.totalAccumCloudMax) ∧
    (n.map.hasMap = true → ∃ pts, n.acc.cloud = some pts ∧
      pts.length ≤ max 1 (Params.toSize Demo.P0.totalAccumCloudMax) * 2) := by
  obtain ⟨n0, n1, n, outs, o, pos, rot, cov, hs, hr, hr', hp, hn⟩ := Demo.even_runs
  have hK : CloudsUpTo 2 (Demo.evenHistory ++ [Demo.lastCloud]) := by
    intro e he header m hm
    simp only [Demo.evenHistory, Demo.lastCloud, List.cons_append, List.nil_append, List.mem_cons, List.not_mem_nil,
      or_false] at he
    rcases he with rfl | rfl | rfl | rfl <;> cases hm
    · simp [cloudPoints, Demo.fromROSMsg_msg2]
    · simp [cloudPoints, Demo.fromROSMsg_msg]
  obtain ⟨a, -, c, -⟩ := C186_scans (by norm_num [Demo.P0, Params.loadFrom, Server.intD, Server.getInt])
    Demo.evenHistory_regular hK hs hr'
  exact ⟨n0, n, _, hs, hr', a, c⟩

end Node
end Mcl3dl
