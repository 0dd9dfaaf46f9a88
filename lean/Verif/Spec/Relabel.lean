import Verif.Model.PF

/-! # Specification: the same particle filter with its states written differently -/

namespace Mcl3dl
namespace PF
variable {S T F : Type}

/-- A particle with its state translated by `φ`. -/
def Particle.relabel (φ : S → T) (p : Particle S F) : Particle T F := ⟨φ p.state, p.prob, p.bias, p.accum⟩

/-- A filter with all states translated. -/
def Filter.relabel (φ : S → T) (f : Filter S F) : Filter T F := ⟨f.particles.map (Particle.relabel φ), f.entropy⟩

/-- The result of an operation, translated. -/
def relabelOut {A B : Type} (φ : A → B) : Outcome A → Outcome B
  | .ok a => .ok (φ a)
  | .throws m => .throws m
  | .ub w => .ub w

/-- Two operations, one on the original and one on the translated states, correspond: the same random numbers and the
same order of the sort, and functions given by the user that agree along the translation. -/
inductive Corresponds [StateOps S] [StateOps T] (φ : S → T) : Op S F → Op T F → Prop
  | init {n : Nat → S} {n' : Nat → T} : (∀ i, n' i = φ (n i)) → Corresponds φ (.init n) (.init n')
  | resample {d : List (Particle S F)} {u : F} {n : Nat → S} {n' : Nat → T} :
      (∀ s i, StateOps.normalize (StateOps.add (φ s) (n' i)) = φ (StateOps.normalize (StateOps.add s (n i)))) →
      Corresponds φ (.resample d u n) (.resample (d.map (Particle.relabel φ)) u n')
  | noise {n : Nat → S} {n' : Nat → T} : (∀ s i, StateOps.add (φ s) (n' i) = φ (StateOps.add s (n i))) →
      Corresponds φ (.noise n) (.noise n')
  | predict {m : S → S} {m' : T → T} : (∀ s, m' (φ s) = φ (m s)) → Corresponds φ (.predict m) (.predict m')
  | bias {b : S → F → F} {b' : T → F → F} : (∀ s x, b' (φ s) x = b s x) → Corresponds φ (.bias b) (.bias b')
  | measure {l : S → F} {l' : T → F} : (∀ s, l' (φ s) = l s) → Corresponds φ (.measure l) (.measure l')
  | expectation {r : F} {sorted : List (Particle S F)} :
      Corresponds φ (.expectation r sorted) (.expectation r (sorted.map (Particle.relabel φ)))
  | covariance : Corresponds φ .covariance .covariance
  | resize {n : Nat} {junk : Nat → F} {d : List (Particle S F)} :
      Corresponds φ (.resize n junk d) (.resize n junk (d.map (Particle.relabel φ)))
  | append {n : Nat} {junk : Nat → F} : Corresponds φ (.append n junk) (.append n junk)

/-- A history of operations. -/
def runOps [StateOps S] [Zero F] [One F] [Neg F] [Add F] [Mul F] [Div F] [NatCast F] [LT F] [DecidableLT F] (s0 : S)
    (log : F → F) : Filter S F → List (Op S F) → Outcome (Filter S F)
  | f, [] => .ok f
  | f, op :: ops => (step s0 log f op).bind fun f' => runOps s0 log f' ops

end PF
end Mcl3dl
