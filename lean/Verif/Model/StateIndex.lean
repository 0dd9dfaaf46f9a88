import Verif.Model.State6DOF

/-!
# The indexed access to a state and the loops that use it

Source: /repo/include/mcl_3dl/state_6dof.h.  `Model/State6DOF.lean` gives `operator+`, `operator-` and `generateNoise`
by their fields; here are the loops as written.
-/

namespace Mcl3dl
namespace State6
variable {F : Type}

/-- state_6dof.h:79-114 the non-const `operator[]`, as an assignment through the reference it returns. -/
def set (s : State6 F) (i : Nat) (v : F) : Outcome (State6 F) :=
  match i with
  | 0 => .ok { s with pos := { s.pos with x := v } }
  | 1 => .ok { s with pos := { s.pos with y := v } }
  | 2 => .ok { s with pos := { s.pos with z := v } }
  | 3 => .ok { s with rot := { s.rot with x := v } }
  | 4 => .ok { s with rot := { s.rot with y := v } }
  | 5 => .ok { s with rot := { s.rot with z := v } }
  | 6 => .ok { s with rot := { s.rot with w := v } }
  | 7 => .ok { s with integLin := { s.integLin with x := v } }
  | 8 => .ok { s with integLin := { s.integLin with y := v } }
  | 9 => .ok { s with integLin := { s.integLin with z := v } }
  | 10 => .ok { s with integAng := { s.integAng with x := v } }
  | 11 => .ok { s with integAng := { s.integAng with y := v } }
  | 12 => .ok { s with integAng := { s.integAng with z := v } }
  | _ => .ub "assert(false) in State6DOF::operator[]"

/-- state_6dof.h:150-153 `size()`. -/
def size : Nat := 13

/-- state_6dof.h:253-258 and 266-271: one round of the loops of `operator+` and `operator-`. -/
def combineRound (op : F → F → F) (s a : State6 F) (ret : State6 F) (i : Nat) : Outcome (State6 F) :=
  if 3 ≤ i ∧ i ≤ 6 then .ok ret
  else (s.get i).bind fun x => (a.get i).bind fun y => ret.set i (op x y)

/-- state_6dof.h:253-258 and 266-271: the loop over the indices `is`. -/
def combineLoop (op : F → F → F) (s a : State6 F) : State6 F → List Nat → Outcome (State6 F)
  | ret, [] => .ok ret
  | ret, i :: is => (combineRound op s a ret i).bind fun r => combineLoop op s a r is

/-- state_6dof.h:249-261 `operator+` with its loop. -/
def addIndexed [Zero F] [One F] [Add F] [Sub F] [Mul F] (s a : State6 F) : Outcome (State6 F) :=
  (combineLoop (· + ·) s a default (List.range size)).bind fun r => .ok { r with rot := a.rot * s.rot }

/-- state_6dof.h:262-274 `operator-` with its loop. -/
def subIndexed [Zero F] [One F] [Neg F] [Add F] [Sub F] [Mul F] [Div F] (s a : State6 F) : Outcome (State6 F) :=
  (combineLoop (· - ·) s a default (List.range size)).bind fun r => .ok { r with rot := a.rot.inv * s.rot }

/-- A read of `org_noise[i]` or `mean[i]`. -/
def read (l : List F) (i : Nat) : Outcome F :=
  match l[i]? with
  | some x => .ok x
  | none => .ub "org_noise or mean out of range"

/-- state_6dof.h:236-239: the first loop of `generateNoise` from round `i` on, `n` rounds left. -/
def noiseLin (org : List F) : State6 F → Nat → Nat → Outcome (State6 F)
  | s, _, 0 => .ok s
  | s, i, n + 1 =>
    (read org i).bind fun v => (s.set (i + 7) v).bind fun s => (s.set i v).bind fun s => noiseLin org s (i + 1) n

/-- state_6dof.h:240-245: the second loop; `rpy` is `rpy_noise`. -/
def noiseAng [Sub F] (org mean : List F) : State6 F → Vec3 F → Nat → Nat → Outcome (State6 F × Vec3 F)
  | s, rpy, _, 0 => .ok (s, rpy)
  | s, rpy, i, n + 1 =>
    (read org (i + 3)).bind fun v => (read mean (i + 3)).bind fun m =>
    (s.set (i + 10) (v - m)).bind fun s => noiseAng org mean s (rpy.set i v) (i + 1) n

/-- state_6dof.h:233-247: `generateNoise` after the draw, with its loops.  `rpy_noise` is default constructed: zeros. -/
def ofNoiseIndexed [Zero F] [One F] [Add F] [Sub F] [Mul F] [Div F] [NatCast F] [Neg F] [Transc F]
    (org mean : List F) : Outcome (State6 F) :=
  (noiseLin org default 0 3).bind fun s =>
  (noiseAng org mean s 0 0 3).bind fun r => .ok { r.1 with rot := Quat.ofRPY r.2 }

end State6
end Mcl3dl
