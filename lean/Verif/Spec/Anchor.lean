import Verif.Spec.DeadReckoning
import Verif.Spec.NodeSmooth
import Verif.Props.NodeUnit

/-!
# Specification of the correction of the odometry when the pose is known
-/

namespace Mcl3dl
namespace Node

variable {C : Type}

/-- Where the odometry frame is in the map, if the robot is at `x` with orientation `q` when its odometry says `r`. -/
noncomputable def anchor (x : Vec3 ℝ) (q : Quat ℝ) (r : OdomMsg) : Tf :=
  ⟨x - (q * r.rot.inv).rotate r.pos, q * r.rot.inv⟩

/-- The transform from the map to the odometry frame that brings the odometry pose to the estimate. -/
noncomputable def correction (odom est : State6 ℝ) : Tf := ⟨correctionPos odom est, correctionRot odom est⟩

/-- Two transforms move points in the same way. -/
def Tf.Same (a b : Tf) : Prop := a.trans = b.trans ∧ Quat.SameRotation a.rot b.rot

/-- The circumstances of dead reckoning: without noise, the particles of the node `n`, which ran through `h0`, agree on
the pose `x`, `q`, the last used odometry message is `r`, and in what follows (`h`) no particles are placed anew and the
odometry has no time jump. -/
structure KnownPose (P : Params) (h0 h : History) (n : Node C) (x : Vec3 ℝ) (q : Quat ℝ) (r : OdomMsg) : Prop where
  quiet : Noiseless P
  noFake : P.fakeOdom = false
  divYaw : 0 < P.divYaw
  likelihoodMin : 0 ≤ P.beam.likelihoodMin
  matchWeight : 0 ≤ P.like.matchWeight
  biasVar : P.biasVarDist ≠ 0 ∧ P.biasVarAng ≠ 0
  valid : HistValid (h0 ++ h)
  unit : UnitMessages (h0 ++ h)
  places : ∀ e ∈ h, placesNone e.1 = true
  orientation : q.dot q = 1
  agree : ∀ s ∈ states n, s.pos = x ∧ Quat.SameRotation s.rot q
  reference : odomRef h0 = some r
  noJump : NoJump (some r) (odomMsgs h)

/-- Every message is used: each is more than 0.05 s and at most 5 s after the one before. -/
def AllUsed : OdomMsg → List OdomMsg → Prop
  | _, [] => True
  | r, m :: ms => r.stamp + 1 / 20 < m.stamp ∧ m.stamp ≤ r.stamp + 5 ∧ AllUsed m ms

/-- How many of the callbacks published a pose. -/
def posesIn (outs : List (List Out)) : ℕ := outs.countP fun o => (o.findSome? Out.poseCov).isSome

end Node
end Mcl3dl
