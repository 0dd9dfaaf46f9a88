import Verif.Spec.Frame
import Verif.Props.Algebra
import Verif.Props.MotionPlanar
import Verif.Props.Likelihood
import Verif.Props.LidarLike
import Verif.Props.Estimate
import Verif.Props.QuatLookAt

/-! # C149: results do not depend on the choice of the coordinate frames -/

set_option linter.unusedSectionVars false

namespace Mcl3dl

namespace Rigid

theorem point_sub (g : Rigid) (p q : Vec3 ℝ) : g.point p - g.point q = g.rot.rotate (p - q) := by
  ext <;> simp only [point, Vec3.sub_x, Vec3.sub_y, Vec3.sub_z, Vec3.add_x, Vec3.add_y, Vec3.add_z, Quat.rotate_x, Quat.rotate_y,
    Quat.rotate_z] <;> ring

theorem point_add (g : Rigid) (p v : Vec3 ℝ) : g.point (p + v) = g.point p + g.rot.rotate v := by
  ext <;> simp only [point, Vec3.add_x, Vec3.add_y, Vec3.add_z, Quat.rotate_x, Quat.rotate_y, Quat.rotate_z] <;> ring

theorem normalized_mul (g : Rigid) (q : Quat ℝ) : (g.rot * q).normalized = g.rot * q.normalized := by
  have hn : (g.rot * q).norm = q.norm := by
    rw [Quat.C29_norm_mul]
    have : g.rot.norm = 1 := by simp [Quat.norm, g.unit]
    rw [this, one_mul]
  unfold Quat.normalized
  rw [hn]
  ext <;> simp only [Quat.sdiv, Quat.smul, Quat.mul_x, Quat.mul_y, Quat.mul_z, Quat.mul_w] <;> ring

theorem level_xy {g : Rigid} (h : g.Level) : g.rot.x = 0 ∧ g.rot.y = 0 := by
  have hu := g.unit
  have hz : (g.rot.rotate ⟨0, 0, 1⟩).z = 1 := by rw [h]
  simp only [Quat.rotate_z, Quat.dot] at hz hu
  have : g.rot.x ^ 2 + g.rot.y ^ 2 = 0 := by nlinarith
  constructor <;> nlinarith [sq_nonneg g.rot.x, sq_nonneg g.rot.y]

/-- A level motion turns about the vertical, and such turns commute. -/
theorem level_comm {g : Rigid} (h : g.Level) (a : ℝ) :
    Quat.ofAxisAng ⟨0, 0, 1⟩ a * g.rot = g.rot * Quat.ofAxisAng ⟨0, 0, 1⟩ a := by
  obtain ⟨hx, hy⟩ := level_xy h
  rw [Motion.ofAxisAng_z]
  ext <;> simp only [Quat.mul_x, Quat.mul_y, Quat.mul_z, Quat.mul_w, hx, hy] <;> ring

end Rigid

namespace Motion

theorem setOdoms_move (g : Rigid) (m : Motion ℝ) (o c : State6 ℝ) (dt : ℝ) :
    m.setOdoms (g.pose o) (g.pose c) dt = m.setOdoms o c dt := by
  have hinv : (g.rot * o.rot).inv = o.rot.inv * g.rot.inv := by
    rw [(C148_equality _ _ 0 0).1, (C148_quaternions _ 1 0 0).2.2.2.2.2.2.2.1, (C148_quaternions _ _ 0 0).2.2.2.1,
      (C148_quaternions _ _ 0 0).2.2.2.1, mul_inv_rev, (C148_quaternions _ 1 0 0).2.2.2.2.2.2.2.1,
      (C148_quaternions g.rot 1 0 0).2.2.2.2.2.2.2.1]
  have hg : g.rot.dot g.rot ≠ 0 := by rw [g.unit]; exact one_ne_zero
  have ht : (g.pose o).rot.inv.rotate ((g.pose c).pos - (g.pose o).pos) = o.rot.inv.rotate (c.pos - o.pos) := by
    show (g.rot * o.rot).inv.rotate (g.point c.pos - g.point o.pos) = _
    rw [hinv, Rigid.point_sub, Quat.C29_mul_rotate, (Quat.C30_inv_rotate g.rot hg _).1]
  have hq : (g.pose o).rot.inv * (g.pose c).rot = o.rot.inv * c.rot := by
    show (g.rot * o.rot).inv * (g.rot * c.rot) = _
    rw [hinv, Quat.C29_mul_assoc, ← Quat.C29_mul_assoc g.rot.inv, (Quat.C30_inv_mul g.rot hg).1, (Quat.C29_one c.rot 0).1]
  unfold setOdoms
  rw [ht, hq]

/-- C149: the odometry frame: moving all odometry poses by one and the same rigid motion does not change where the
particles go, however many odometry messages arrive. -/
theorem C149_odometry (g : Rigid) (m : Motion ℝ) (o s : State6 ℝ) (steps : List (State6 ℝ × ℝ)) :
    m.run (g.pose o) s (steps.map fun c => (g.pose c.1, c.2)) = m.run o s steps := by
  induction steps generalizing m o s with
  | nil => rfl
  | cons c cs ih =>
    obtain ⟨c, dt⟩ := c
    simp only [List.map_cons, run, stepParticle, setOdoms_move]
    exact ih _ _ _

theorem predict_move (g : Rigid) (m : Motion ℝ) (s : State6 ℝ)
    (h : g.Level ∨ (s.noiseLA = 0 ∧ s.noiseAA = 0)) : m.predict (g.pose s) = g.pose (m.predict s) := by
  have hc : ∀ a : ℝ, a = s.noiseLA * m.relNorm + s.noiseAA * m.relAngle →
      Quat.ofAxisAng ⟨0, 0, 1⟩ a * g.rot = g.rot * Quat.ofAxisAng ⟨0, 0, 1⟩ a := by
    intro a ha
    rcases h with h | ⟨h1, h2⟩
    · exact Rigid.level_comm h a
    · rw [ha, h1, h2, zero_mul, zero_mul, add_zero, ofAxisAng_z]
      ext <;> simp [Quat.mul_x, Quat.mul_y, Quat.mul_z, Quat.mul_w]
  unfold predict Rigid.pose
  simp only [State6.mk.injEq]
  refine ⟨?_, ?_, trivial, trivial, trivial, trivial, trivial, trivial, trivial, trivial⟩
  · rw [Rigid.point_add, Quat.C29_mul_rotate]
  · rw [← Rigid.normalized_mul]
    congr 1
    rw [← Quat.C29_mul_assoc, hc _ rfl, Quat.C29_mul_assoc, Quat.C29_mul_assoc, Quat.C29_mul_assoc]

/-- C149: the map frame: a particle moved by a rigid motion that keeps the vertical makes the moved path, however many
odometry messages arrive.  If the particle has no angular odometry noise, this holds for every rigid motion. -/
theorem C149_map (g : Rigid) (m : Motion ℝ) (o s : State6 ℝ) (steps : List (State6 ℝ × ℝ))
    (h : g.Level ∨ (s.noiseLA = 0 ∧ s.noiseAA = 0)) : m.run o (g.pose s) steps = g.pose (m.run o s steps) := by
  induction steps generalizing m o s with
  | nil => rfl
  | cons c cs ih =>
    obtain ⟨c, dt⟩ := c
    simp only [run, stepParticle]
    rw [predict_move g _ s h]
    exact ih _ _ _ h

end Motion

namespace Lidar

/-- A rigid motion does not change distances, if it keeps the vertical and the two horizontal weights are equal, or if
all weights are equal. -/
theorem weightedDist_move {g : Rigid} (w : Vec3 ℝ) (hxy : w.x ^ 2 = w.y ^ 2) (h : g.Level ∨ w.y ^ 2 = w.z ^ 2) (p q : Vec3 ℝ) :
    weightedDist w (g.point p) (g.point q) = weightedDist w p q := by
  have e : ∀ a b : Vec3 ℝ, weightedDist w a b = w.y ^ 2 * (b - a).dot (b - a) + (w.z ^ 2 - w.y ^ 2) * (b - a).z ^ 2 := by
    intro a b
    simp only [weightedDist, Vec3.dot, Vec3.sub_x, Vec3.sub_y, Vec3.sub_z]
    linear_combination (b.x - a.x) ^ 2 * hxy
  rw [e, e, Rigid.point_sub, Quat.C28_unit_preserves_dot _ g.unit]
  rcases h with h | h
  · have hz : (g.rot.rotate (q - p)).z = (q - p).z := by
      obtain ⟨hx, hy⟩ := Rigid.level_xy h
      have hu := g.unit
      simp only [Quat.dot, hx, hy] at hu
      rw [Quat.rotate_z, hx, hy]
      linear_combination (q - p).z * hu
    rw [hz]
  · rw [h, sub_self, zero_mul, zero_mul]

theorem nearestSq_move {g : Rigid} (map : List (Vec3 ℝ)) (w q : Vec3 ℝ) (hxy : w.x ^ 2 = w.y ^ 2)
    (h : g.Level ∨ w.y ^ 2 = w.z ^ 2) : nearestSq (map.map g.point) w (g.point q) = nearestSq map w q := by
  unfold nearestSq
  rw [List.map_map]
  congr 1
  apply List.map_congr_left
  intro p _
  exact weightedDist_move w hxy h q p

theorem transform_move {A : Type} (g : Rigid) (s : State6 ℝ) (pc : List (Pt ℝ A)) :
    (g.pose s).transform pc = (s.transform pc).map fun q => { q with pos := g.point q.pos } := by
  unfold State6.transform
  rw [List.map_map]
  apply List.map_congr_left
  intro p _
  simp only [Function.comp, Rigid.pose, Pt.mk.injEq, and_true]
  rw [Rigid.normalized_mul, Quat.C29_mul_rotate]
  ext <;> simp only [Rigid.point, Vec3.add_x, Vec3.add_y, Vec3.add_z, Quat.rotate_x, Quat.rotate_y, Quat.rotate_z] <;> ring

/-- C149: the likelihood-field model: with the map and the pose moved by the same rigid motion, the same scan gets the same
likelihood and match ratio.  The motion has to keep the vertical and the horizontal weights of the distance have to be
equal, or all three weights. -/
theorem C149_score {A : Type} {l : Like} {p : LikeParams} (hl : Like.Reach p l) (h0 : 0 ≤ p.matchDistMin)
    {search search' : Vec3 ℝ → ℝ → Outcome (List (ℕ × ℝ))} {map : List (Vec3 ℝ)} {w : Vec3 ℝ} (g : Rigid)
    (hs : ExactAt map w search p.matchDistMin) (hs' : ExactAt (map.map g.point) w search' p.matchDistMin)
    (hxy : w.x = w.y) (h : g.Level ∨ w.y = w.z) (pc : Option (List (Pt ℝ A))) (s : State6 ℝ) :
    l.measure search' pc (g.pose s) = l.measure search pc s := by
  cases pc with
  | none => rfl
  | some pc =>
    by_cases hne : pc = []
    · subst hne; rfl
    rw [C71_score hl h0 hs hne, C71_score hl h0 hs' hne]
    have e : ∀ q : Pt ℝ A, nearestSq (map.map g.point) w (g.point q.pos) = nearestSq map w q.pos := fun q =>
      nearestSq_move map w q.pos (by rw [hxy]) (h.imp id fun h => by rw [h])
    simp only [transform_move, List.map_map, Function.comp_def, e]

end Lidar

namespace GravityModel

/-- C149: the gravity model: a rigid motion that keeps the vertical changes no likelihood. -/
theorem C149_gravity (g : Rigid) (h : g.Level) (var : ℝ) (acc : Vec3 ℝ) (s : State6 ℝ) :
    (make var acc).measure (g.pose s) = (make var acc).measure s := by
  obtain ⟨hx, hy⟩ := Rigid.level_xy h
  have hg : g.rot.dot g.rot ≠ 0 := by rw [g.unit]; exact one_ne_zero
  have hinv : (g.rot * s.rot).inv = s.rot.inv * g.rot.inv := by
    rw [(C148_equality _ _ 0 0).1, (C148_quaternions _ 1 0 0).2.2.2.2.2.2.2.1, (C148_quaternions _ _ 0 0).2.2.2.1,
      (C148_quaternions _ _ 0 0).2.2.2.1, mul_inv_rev, (C148_quaternions _ 1 0 0).2.2.2.2.2.2.2.1,
      (C148_quaternions g.rot 1 0 0).2.2.2.2.2.2.2.1]
  have hz : g.rot.inv.rotate ⟨0, 0, 1⟩ = ⟨0, 0, 1⟩ := by
    have := (Quat.C30_inv_rotate g.rot hg ⟨0, 0, 1⟩).1
    rwa [h] at this
  have e : (g.pose s).rot.inv.rotate ⟨0, 0, 1⟩ = s.rot.inv.rotate ⟨0, 0, 1⟩ := by
    show (g.rot * s.rot).inv.rotate ⟨0, 0, 1⟩ = _
    rw [hinv, Quat.C29_mul_rotate, hz]
  unfold measure
  rw [e]

end GravityModel

/-- C149: the landmark measurement: shifting the measured pose and the particle by the same vector changes no likelihood
(a turn does: the position errors are taken along the axes of the map, the covariance belongs to these axes). -/
theorem C149_landmark (g : Rigid) (h : g.rot = 1) (cov : Fin 36 → ℝ) (measured s : State6 ℝ) :
    landmarkLikelihood cov (g.pose measured) (g.pose s) = landmarkLikelihood cov measured s := by
  have e : (g.pose s).sub (g.pose measured) = s.sub measured := by
    unfold State6.sub
    simp only [State6.mk.injEq, and_true, true_and]
    refine ⟨?_, ?_, rfl, rfl⟩
    · show g.point s.pos - g.point measured.pos = _
      rw [Rigid.point_sub, h, (Quat.C29_one 1 _).2.2]
    · show (g.rot * measured.rot).inv * (g.rot * s.rot) = _
      rw [h, (Quat.C29_one _ 0).1, (Quat.C29_one _ 0).1]
  unfold landmarkLikelihood
  simp only [e]

namespace Node

/-- The filter with every particle moved. -/
def movedBy (g : Rigid) (f : Filter) : Filter :=
  { f with particles := f.particles.map fun p => { p with state := g.pose p.state } }

/-- The weighted sum of a vector over the particles. -/
noncomputable def voteVec (ps : List Particle) (v : State6 ℝ → Vec3 ℝ) : Vec3 ℝ :=
  ⟨voteSum ps fun s => (v s).x, voteSum ps fun s => (v s).y, voteSum ps fun s => (v s).z⟩

theorem voteVec_rotate (q : Quat ℝ) (ps : List Particle) (v : State6 ℝ → Vec3 ℝ) :
    voteVec ps (fun s => q.rotate (v s)) = q.rotate (voteVec ps v) := by
  induction ps with
  | nil => ext <;> simp [voteVec, voteSum, Quat.rotate_x, Quat.rotate_y, Quat.rotate_z]
  | cons p ps ih =>
    have ex := congrArg Vec3.x ih
    have ey := congrArg Vec3.y ih
    have ez := congrArg Vec3.z ih
    simp only [voteVec, Quat.rotate_x, Quat.rotate_y, Quat.rotate_z] at ex ey ez
    ext
    · simp only [voteVec, voteSum_cons, Quat.rotate_x, Quat.rotate_y, Quat.rotate_z]
      linear_combination ex
    · simp only [voteVec, voteSum_cons, Quat.rotate_x, Quat.rotate_y, Quat.rotate_z]
      linear_combination ey
    · simp only [voteVec, voteSum_cons, Quat.rotate_x, Quat.rotate_y, Quat.rotate_z]
      linear_combination ez

theorem voteSum_movedBy (g : Rigid) (f : Filter) (k : State6 ℝ → ℝ) :
    voteSum (movedBy g f).particles k = voteSum f.particles fun s => k (g.pose s) := by
  unfold voteSum movedBy
  rw [List.map_map]
  rfl

theorem aligned_move {p : Quat ℝ} {f u : Vec3 ℝ} (g : Rigid) (h : Quat.Aligned p f u) :
    Quat.Aligned (g.rot * p) (g.rot.rotate f) (g.rot.rotate u) := by
  have hn : (g.rot.rotate f).norm = f.norm := by
    simp only [Vec3.norm]; rw [Quat.C28_unit_preserves_dot _ g.unit]
  refine ⟨?_, ?_, ?_, ?_⟩
  · rw [Quat.C29_dot_mul, g.unit, h.unit, one_mul]
  · rw [Quat.C29_mul_rotate, hn, ← (Quat.C28_rotate_linear g.rot (p.rotate Quat.ex) 0 f.norm).2, h.forward]
  · rw [Quat.C29_mul_rotate, Quat.C28_unit_preserves_dot _ g.unit]; exact h.noSide
  · rw [Quat.C29_mul_rotate, Quat.C28_unit_preserves_dot _ g.unit]; exact h.up

theorem canon_of_w {p : Quat ℝ} (h : (Quat.canon p).w ≠ 0) : Quat.SameRotation (Quat.canon p) p := by
  rw [Quat.canon_same_iff]
  rintro ⟨hw, -⟩
  apply h
  unfold Quat.canon
  rw [hw]
  simp

/-- C149: the estimate: moving all particles by a rigid motion moves the estimated pose by it.  The position needs a
non-zero sum of the weights; the orientation moves (as a rotation) if the weighted mean directions of the front and of
the up axes of the particles are independent and neither of the two estimates is a half turn. -/
theorem C149_estimate (g : Rigid) (f : Filter) (hsum : (f.particles.map fun p => p.prob * p.bias).sum ≠ 0) :
    (estimate (movedBy g f)).pos = g.point (estimate f).pos ∧
    ((voteVec f.particles fun s => s.rot.rotate ⟨1, 0, 0⟩).cross (voteVec f.particles fun s => s.rot.rotate ⟨0, 0, 1⟩) ≠
        ⟨0, 0, 0⟩ →
      (estimate f).rot.w ≠ 0 → (estimate (movedBy g f)).rot.w ≠ 0 →
      Quat.SameRotation (estimate (movedBy g f)).rot (g.rot * (estimate f).rot)) := by
  constructor
  · have h1 : voteSum f.particles (fun _ => 1) ≠ 0 := by
      simpa [voteSum, voteOf] using hsum
    have hw : voteSum (movedBy g f).particles (fun _ => 1) = voteSum f.particles fun _ => 1 := voteSum_movedBy g f _
    have hv : ∀ k : Vec3 ℝ → ℝ, voteSum (movedBy g f).particles (fun s => k s.pos) =
        voteSum f.particles fun s => k (g.rot.rotate s.pos + g.trans) := fun k => voteSum_movedBy g f _
    have hr := voteVec_rotate g.rot f.particles fun s => s.pos
    have hadd : ∀ (k : State6 ℝ → ℝ) (c : ℝ), voteSum f.particles (fun s => k s + c) =
        voteSum f.particles k + c * voteSum f.particles fun _ => 1 := by
      intro k c
      rw [← voteSum_const]
      unfold voteSum
      rw [← List.sum_map_add]
      congr 1
      apply List.map_congr_left
      intro p _
      ring
    rw [estimate_pos, estimate_pos, hw]
    have ex := congrArg Vec3.x hr
    have ey := congrArg Vec3.y hr
    have ez := congrArg Vec3.z hr
    simp only [voteVec] at ex ey ez
    have hx := hv Vec3.x
    have hy := hv Vec3.y
    have hz := hv Vec3.z
    simp only [Vec3.add_x, Vec3.add_y, Vec3.add_z, hadd] at hx hy hz
    rw [hx, hy, hz, ex, ey, ez]
    ext
    · simp only [Rigid.point, Vec3.add_x, Quat.rotate_x]; field_simp
    · simp only [Rigid.point, Vec3.add_y, Quat.rotate_y]; field_simp
    · simp only [Rigid.point, Vec3.add_z, Quat.rotate_z]; field_simp
  · intro hne hw hw'
    set F := voteVec f.particles fun s => s.rot.rotate ⟨1, 0, 0⟩ with hF
    set U := voteVec f.particles fun s => s.rot.rotate ⟨0, 0, 1⟩ with hU
    obtain ⟨p, hp⟩ := Quat.exists_aligned F U hne
    have hF0 : F ≠ ⟨0, 0, 0⟩ := by
      intro h0; apply hne; rw [h0]; ext <;> simp [Vec3.cross]
    have hn := (Quat.unitAxis F hF0).1
    have hn' : 0 < (g.rot.rotate F).norm := by
      simp only [Vec3.norm] at hn ⊢; rwa [Quat.C28_unit_preserves_dot _ g.unit]
    have e1 : (estimate f).rot = (Quat.canon p).normalized := by
      rw [← hp.decomp hn]; exact estimate_rot f
    have hmv : ∀ v : Vec3 ℝ, voteVec (movedBy g f).particles (fun s => s.rot.rotate v) =
        g.rot.rotate (voteVec f.particles fun s => s.rot.rotate v) := by
      intro v
      rw [← voteVec_rotate]
      have : ∀ k : Vec3 ℝ → ℝ, voteSum (movedBy g f).particles (fun s => k (s.rot.rotate v)) =
          voteSum f.particles fun s => k (g.rot.rotate (s.rot.rotate v)) := by
        intro k
        rw [voteSum_movedBy]
        simp only [Rigid.pose, Quat.C29_mul_rotate]
      ext
      · exact this Vec3.x
      · exact this Vec3.y
      · exact this Vec3.z
    have e2 : (estimate (movedBy g f)).rot = (Quat.canon (g.rot * p)).normalized := by
      rw [← (aligned_move g hp).decomp hn', hF, hU, ← hmv, ← hmv]; exact estimate_rot (movedBy g f)
    have unit_canon : ∀ r : Quat ℝ, r.dot r = 1 → (Quat.canon r).dot (Quat.canon r) = 1 := by
      intro r hr
      unfold Quat.canon
      split_ifs with a b
      · exact hr
      · simpa [Quat.dot] using hr
      · have : r.w = 0 := le_antisymm (not_lt.1 a) (not_lt.1 b)
        rw [← hr]; simp [Quat.dot, this]
    rw [Quat.C31_normalized_unit _ (unit_canon _ hp.unit)] at e1
    rw [Quat.C31_normalized_unit _ (unit_canon _ (aligned_move g hp).unit)] at e2
    rw [e1] at hw ⊢
    rw [e2] at hw' ⊢
    have neg_mul : ∀ a b : Quat ℝ, a * -b = -(a * b) := by
      intro a b
      ext <;> simp only [Quat.mul_x, Quat.mul_y, Quat.mul_z, Quat.mul_w, Quat.neg_x, Quat.neg_y, Quat.neg_z, Quat.neg_w] <;> ring
    have neg_neg : ∀ a : Quat ℝ, - -a = a := by intro a; ext <;> simp
    rcases canon_of_w hw with a | a <;> rcases canon_of_w hw' with b | b <;> rw [a, b]
    · left; rfl
    · right; rfl
    · right; rw [neg_mul, neg_neg]
    · left; rw [neg_mul]

/-- A turn about the vertical with a shift. -/
noncomputable def turnShift : Rigid := ⟨⟨0, 0, 3 / 5, 4 / 5⟩, ⟨1, 2, 3⟩, by norm_num [Quat.dot]⟩

theorem turnShift_level : turnShift.Level := by
  unfold Rigid.Level turnShift; ext <;> norm_num [Quat.rotate_x, Quat.rotate_y, Quat.rotate_z]

/-- It moves poses; and a half turn about the x axis is not level. -/
example : turnShift.point ⟨1, 0, 0⟩ = ⟨32 / 25, 74 / 25, 3⟩ ∧
    ¬ (⟨⟨1, 0, 0, 0⟩, ⟨1, 2, 3⟩, by norm_num [Quat.dot]⟩ : Rigid).Level := by
  constructor
  · unfold Rigid.point turnShift
    ext <;> norm_num [Vec3.add_x, Vec3.add_y, Vec3.add_z, Quat.rotate_x, Quat.rotate_y, Quat.rotate_z]
  · intro h
    have := congrArg Vec3.z h
    norm_num [Quat.rotate_z] at this

/-- Searches as `C149_score` needs them exist for every map. -/
example (map : List (Vec3 ℝ)) (r : ℝ) : ∃ search search',
    Lidar.ExactAt map ⟨1, 1, 5⟩ search r ∧ Lidar.ExactAt (map.map turnShift.point) ⟨1, 1, 5⟩ search' r := by
  obtain ⟨a, ha⟩ := KDRay.exactSearch_exists map ⟨1, 1, 5⟩
  obtain ⟨b, hb⟩ := KDRay.exactSearch_exists (map.map turnShift.point) ⟨1, 1, 5⟩
  exact ⟨a, b, fun q => ha q r, fun q => hb q r⟩

/-- `C149_estimate` on two particles: the moved estimate. -/
example : ∃ f : Filter, f.particles.length = 2 ∧
    (voteVec f.particles fun s => s.rot.rotate ⟨1, 0, 0⟩).cross (voteVec f.particles fun s => s.rot.rotate ⟨0, 0, 1⟩) ≠
      ⟨0, 0, 0⟩ ∧ (estimate f).pos = ⟨2, 1, 0⟩ ∧ (estimate (movedBy turnShift f)).pos = turnShift.point ⟨2, 1, 0⟩ := by
  have hr : ∀ v : Vec3 ℝ, (1 : Quat ℝ).rotate v = v := fun v => (Quat.C29_one 1 v).2.2
  refine ⟨⟨[⟨State6.ofQuat ⟨1, 2, 0⟩ 1, 1, 1, 0⟩, ⟨State6.ofQuat ⟨3, 0, 0⟩ 1, 1, 1, 0⟩], none⟩, rfl, ?_, ?_⟩
  · intro h
    have := congrArg Vec3.y h
    norm_num [Vec3.cross, voteVec, voteSum, voteOf, State6.ofQuat, hr] at this
  · have hp : (estimate ⟨[⟨State6.ofQuat ⟨1, 2, 0⟩ 1, 1, 1, 0⟩, ⟨State6.ofQuat ⟨3, 0, 0⟩ 1, 1, 1, 0⟩], none⟩).pos = ⟨2, 1, 0⟩ := by
      rw [estimate_pos]
      ext <;> norm_num [voteSum, voteOf, State6.ofQuat]
    refine ⟨hp, ?_⟩
    rw [(C149_estimate turnShift _ (by norm_num)).1, hp]

end Node
end Mcl3dl
