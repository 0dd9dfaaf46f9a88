import Verif.Model.Filter

/-! # Specification for C173: the same calls on a filter of machine numbers and on an exact one -/

namespace Mcl3dl
namespace Filt

/-- The calls a user makes after the construction: `set` and `in`. -/
inductive Use (F : Type)
  | set (v : F)
  | input (v : F)

/-- The number given. -/
def Use.arg {F : Type} : Use F → F
  | .set v => v
  | .input v => v

/-- The same call with another number type. -/
def Use.map {F G : Type} (g : F → G) : Use F → Use G
  | .set v => .set (g v)
  | .input v => .input (g v)

/-- One call. -/
def use {F : Type} [Zero F] [One F] [Neg F] [Add F] [Sub F] [Mul F] [Div F] [NatCast F] [Transc F] [HasRemainder F]
    (f : Filt F) : Use F → Filt F
  | .set v => f.set v
  | .input v => f.input v

/-- A history of calls. -/
def useAll {F : Type} [Zero F] [One F] [Neg F] [Add F] [Sub F] [Mul F] [Div F] [NatCast F] [Transc F] [HasRemainder F]
    (f : Filt F) (cs : List (Use F)) : Filt F := cs.foldl use f

end Filt
end Mcl3dl
