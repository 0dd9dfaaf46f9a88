import Verif.Model.Lidar

/-! # Specification: answers of calls that also change the ray caster -/

namespace Mcl3dl

/-- What a call answers, without the state it leaves behind. -/
def Outcome.answer {A C : Type} : Outcome (A × C) → Outcome A
  | .ok x => .ok x.1
  | .throws m => .throws m
  | .ub w => .ub w

namespace DDA

/-- The answers of `n` calls of `getNextCastResult` after `setRay` from `b` to `e` in the map cloud `c`, on an object in
state `s`. -/
noncomputable def castAnswers (cfg : Cfg) (c : Cloud) (b e : Vec3 ℝ) (n : ℕ) (s : St) : Outcome (List (Option CastResult)) :=
  ((setRay cfg s (some c) b e).bind fun s => nexts cfg n s).answer

end DDA
end Mcl3dl
