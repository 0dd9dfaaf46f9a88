import Verif.Proofs.Ub
import Verif.Model.KDRay

/-! # Which kinds of undefined behaviour the real ray casters can have -/

namespace Mcl3dl
namespace Node

/-- The reasons for which a ray caster can be undefined. -/
structure CasterReasons (U : String → Prop) : Prop where
  r1 : U "value does not fit int"
  r2 : U "point_exists_ index out of range"
  r3 : U "negative value converted to size_t"
  r4 : U "NaN converted to int"
  r5 : U "min_p_ read before initialisation"
  r6 : U "dereferences end()"
  r7 : U "pos_ read before initialisation"
  r8 : U "points[id] out of range"
  r9 : U "count_ read before initialisation"
  r10 : U "points_ points into a released cloud"

variable {U : String → Prop} (hu : CasterReasons U)
include hu

theorem i32_only (x : ℤ) : (DDA.i32 x).Only U := by
  unfold DDA.i32
  exact .ite (.ok _) (.ub hu.r1)

theorem toIndex_only (gs : ℝ) (mn : Fin 3 → ℝ) (p : Vec3 ℝ) : (DDA.toIndex gs mn p).Only U := by
  unfold DDA.toIndex DDA.axisIndex
  exact .bind (.ite (.ub hu.r4) (i32_only hu _)) fun _ _ => .bind (.ite (.ub hu.r4) (i32_only hu _)) fun _ _ =>
    .bind (.ite (.ub hu.r4) (i32_only hu _)) fun _ _ => .ok _

theorem arrayIndex_only (size : Fin 3 → ℤ) (c : DDA.Cell) : (DDA.arrayIndex size c).Only U := by
  unfold DDA.arrayIndex
  exact .bind (i32_only hu _) fun _ _ => .bind (i32_only hu _) fun _ _ => .bind (i32_only hu _) fun _ _ =>
    .bind (i32_only hu _) fun _ _ => i32_only hu _

theorem setAll_only (gs : ℝ) (g : DDA.Grid) (ps : List DDA.MapPt) : (DDA.setAll gs g ps).Only U := by
  induction ps generalizing g with
  | nil => exact .ok _
  | cons p ps ih =>
    rw [DDA.setAll]
    refine .bind ?_ fun g' _ => ih g'
    unfold DDA.setExists
    exact .bind (toIndex_only hu _ _ _) fun _ _ => .bind (arrayIndex_only hu _ _) fun _ _ =>
      .ite (.ok _) (.ub hu.r2)

theorem build_only (cfg : DDA.Cfg) (c : DDA.Cloud) : (DDA.build cfg c).Only U := by
  unfold DDA.build
  split
  · exact .ub hu.r3
  · unfold DDA.axisSize
    exact .bind (.ite (.ub hu.r4) (.ite (.ub hu.r3) (i32_only hu _))) fun _ _ => .bind (.ite (.ub hu.r4) (.ite (.ub hu.r3) (i32_only hu _))) fun _ _ =>
      .bind (i32_only hu _) fun _ _ => .bind (.ite (.ub hu.r4) (.ite (.ub hu.r3) (i32_only hu _))) fun _ _ =>
      .bind (i32_only hu _) fun _ _ => setAll_only hu _ _ _

theorem ddaSetRay_only (cfg : DDA.Cfg) (s : DDA.St) (cloud : Option DDA.Cloud) (b e : Vec3 ℝ) :
    (DDA.setRay cfg s cloud b e).Only U := by
  unfold DDA.setRay
  refine .bind ?_ fun grid _ => ?_
  · unfold DDA.updatePointCloud
    split
    · exact .ok _
    · split
      · exact .ite (.ok _) (.bind (build_only hu _ _) fun _ _ => .ok _)
      · exact .bind (build_only hu _ _) fun _ _ => .ok _
  · split
    · exact .ub hu.r5
    · split_ifs
      rotate_left
      · exact .ok _
      refine .bind ?_ fun _ _ => .ok _
      unfold DDA.startRay
      refine .ite (.ub hu.r4) ?_
      refine .bind (toIndex_only hu _ _ _) fun _ _ => .bind (toIndex_only hu _ _ _) fun _ _ => ?_
      refine .bind (i32_only hu _) fun _ _ => .bind (i32_only hu _) fun _ _ => .bind (i32_only hu _) fun _ _ => ?_
      refine .bind (i32_only hu _) fun _ _ => .bind (i32_only hu _) fun _ _ => .bind (i32_only hu _) fun _ _ => ?_
      exact .bind (i32_only hu _) fun _ _ => .bind (i32_only hu _) fun _ _ => .ok _

theorem ddaNext_only (cfg : DDA.Cfg) (s : DDA.St) : (DDA.getNext cfg s).Only U := by
  unfold DDA.getNext
  split
  · split
    · exact .ok _
    · refine .bind ?_ fun _ _ => .ok _
      unfold DDA.hasIntersection
      exact .bind (arrayIndex_only hu _ _) fun _ _ => .ite (.ite (.ok _) (.ite (.ub hu.r6) (.ok _))) (.ub hu.r2)
  · exact .ub hu.r7

theorem kdSetRay_only (cfg : KDRay.Cfg) (b e : Vec3 ℝ) : (KDRay.setRay cfg b e).Only U := by
  unfold KDRay.setRay
  exact .ite (.ub hu.r4) (.bind (i32_only hu _) fun _ _ => .ite (.ok _) (.ok _))

theorem kdNext_only (cfg : KDRay.Cfg) {search : Vec3 ℝ → ℝ → Outcome (List (ℕ × ℝ))}
    (hs : ∀ p r, (search p r).Only U) (n : ℕ) (s : KDRay.St) : (KDRay.getNext cfg search n s).Only U := by
  unfold KDRay.getNext
  refine .ite (.ok _) ?_
  split
  · exact .ub hu.r4
  · refine .bind ?_ fun _ _ => .ok _
    unfold KDRay.resultAt
    refine .bind (hs _ _) fun r0 _ => ?_
    split
    · exact .ok _
    · refine .ite (.ub hu.r8) ?_
      refine .bind (hs _ _) fun r1 _ => ?_
      split <;> exact .ok _

/-- The node's own casters, for every kd-tree and eigen solver. -/
theorem realLib_only (P : Params) (flann : List (Vec3 ℝ) → Vec3 ℝ → ℝ → ℕ → List (ℕ × ℝ))
    (solve3 : Matrix (Fin 3) (Fin 3) ℝ → (Fin 3 → ℝ) × Matrix (Fin 3) (Fin 3) ℝ)
    (solve6 : (Fin 6 → Fin 6 → ℝ) → (Fin 6 → ℝ) × (Fin 6 → Fin 6 → ℝ)) :
    LibOnly U (realLib P flann solve3 solve6) := by
  intro cloud search hs
  constructor
  · intro c b e
    show ((realCaster P cloud search).setRay c b e).Only U
    unfold realCaster
    simp only
    cases c with
    | inl c => exact .bind (ddaSetRay_only hu _ _ _ _ _) fun _ _ => .ok _
    | inr c => exact .bind (.bind (kdSetRay_only hu _ _ _) fun _ _ => .ok _) fun _ _ => .ok _
  · intro c
    show ((realCaster P cloud search).next c).Only U
    unfold realCaster
    simp only
    cases c with
    | inl c =>
      refine .bind ?_ fun _ _ => .ok _
      unfold Lidar.ddaCaster
      simp only
      split_ifs
      · exact .ub hu.r10
      · exact .bind (ddaNext_only hu _ _) fun _ _ => .ok _
    | inr c =>
      cases c with
      | none => exact .bind (.ub hu.r9) fun _ _ => .ok _
      | some s => exact .bind (.bind (kdNext_only hu _ hs _ _) fun _ _ => .ok _) fun _ _ => .ok _

end Node
end Mcl3dl
