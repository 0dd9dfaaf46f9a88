import Verif.Model.Outcome

/-!
# The particle filter

Models `/repo/include/mcl_3dl/pf.h`.

Everything is generic in the state type `S` (C++ template parameter `T`) and in the number type
`F` (`FLT_TYPE`).  `F` only has operation symbols — no algebraic laws — so the definitions apply to
IEEE floating point as well as to exact arithmetic; theorems add the laws they need.
-/

namespace Mcl3dl
namespace PF

/-- Operations the filter uses on a state: `operator+` and `normalize()` (pf.h:47-62, used at
pf.h:211-212 and pf.h:236). -/
class StateOps (S : Type) where
  add : S → S → S
  normalize : S → S

/-- `pf::Particle` (pf.h:89-111).  `accum` is uninitialised in a default constructed particle; the
model gives it an arbitrary value there. -/
structure Particle (S F : Type) where
  state : S
  prob : F
  bias : F
  accum : F
  deriving DecidableEq, Repr

/-- `pf::ParticleFilter` members (pf.h:456-461).  `entropy = none` models the uninitialised
`entropy_` before the first successful `measure`. The random engine is not state of the model:
each operation takes the numbers drawn as arguments. `particles_dup_` is rebuilt before every use
and therefore local. -/
structure Filter (S F : Type) where
  particles : List (Particle S F)
  entropy : Option F

/-- The `MEAN` template parameter (pf.h:113-157; state_6dof.h:316-355). -/
structure MeanOps (S F M : Type) where
  empty : M
  add : M → S → F → M
  getMean : M → S
  total : M → F

variable {S F M : Type}

/-- Default constructed particles as made by `std::vector::resize` (pf.h:93-97): weight and bias
zero, a default state, and an arbitrary (uninitialised) `accum_probability_`. -/
def defaultParticle [Zero F] (s0 : S) (junk : F) : Particle S F := ⟨s0, 0, 0, junk⟩

/-- Constructor (pf.h:164-168). -/
def Filter.new [Zero F] (s0 : S) (junk : Nat → F) (n : Nat) : Filter S F :=
  ⟨(List.range n).map fun i => defaultParticle s0 (junk i), none⟩

/-- `init` / `initUsingNoiseGenerator` (pf.h:169-181).  `noise i` is the state generated for the
`i`-th particle.  `probability_bias_` and `accum_probability_` are not touched. -/
def Filter.init [One F] [Div F] [NatCast F] (f : Filter S F) (noise : Nat → S) : Filter S F :=
  { f with particles := f.particles.mapIdx fun i p =>
      { p with state := noise i, prob := 1 / (f.particles.length : F) } }

/-- The loop setting `accum_probability_` (pf.h:189-194, 401-406). -/
def accumulate [Add F] : F → List (Particle S F) → List (Particle S F)
  | _, [] => []
  | a, p :: ps => { p with accum := a + p.prob } :: accumulate (a + p.prob) ps

/-- The final value of the local `accum` (pf.h:189-194). -/
def total [Zero F] [Add F] (ps : List (Particle S F)) : F :=
  ps.foldl (fun a p => a + p.prob) 0

/-- `std::lower_bound(it, end, Particle(v))` (pf.h:204, 422-423) with `operator<` comparing
`accum_probability_` (pf.h:107-110): the first position from `it` on whose key is not less than
`v`.  Iterators are positions; `dup.length` is `end()`.  Simplification: the binary search is
modelled by its specification, valid because the range is ordered (`IsSorted`). -/
def lowerBound [LT F] [DecidableLT F] (dup : List (Particle S F)) (it : Nat) (v : F) : Nat :=
  it + ((dup.drop it).takeWhile fun p => decide (p.accum < v)).length

/-- `std::sort` with `operator<`: *some* permutation in which no later key is less than an earlier
one.  `std::sort` is not stable, so equal keys may appear in any order. -/
def IsSorted [LT F] (ps dup : List (Particle S F)) : Prop :=
  dup.Perm ps ∧ dup.Pairwise fun a b => ¬ b.accum < a.accum

/-- `it->state_`: undefined at `end()`. -/
def deref (dup : List (Particle S F)) (it : Nat) : Outcome S :=
  match dup[it]? with
  | some p => .ok p.state
  | none => .ub "dereference of end iterator"

/-- The loop of `resampleUsingNoiseGenerator` (pf.h:200-222) over the particles being rewritten,
with loop counter `i` and iterators `it`, `itPrev`; `noise i` is the noise state generated in
iteration `i` (if any). -/
def resampleLoop [StateOps S] [Add F] [Mul F] [NatCast F] [LT F] [DecidableLT F]
    (dup : List (Particle S F)) (pstep initialP prob : F) (noise : Nat → S) :
    List (Particle S F) → Nat → Nat → Nat → Outcome (List (Particle S F))
  | [], _, _, _ => .ok []
  | p :: ps, i, it, itPrev =>
    let it' := lowerBound dup it (pstep * (i : F) + initialP)
    if it' = dup.length then
      (deref dup itPrev).bind fun s =>
      (resampleLoop dup pstep initialP prob noise ps (i + 1) it' itPrev).bind fun rest =>
      .ok ({ p with state := s, prob := prob } :: rest)
    else if it' = itPrev then
      (deref dup it').bind fun s =>
      (resampleLoop dup pstep initialP prob noise ps (i + 1) it' it').bind fun rest =>
      .ok ({ p with state := StateOps.normalize (StateOps.add s (noise i)), prob := prob } :: rest)
    else
      (deref dup it').bind fun s =>
      (resampleLoop dup pstep initialP prob noise ps (i + 1) it' it').bind fun rest =>
      .ok ({ p with state := s, prob := prob } :: rest)

/-- `resample` / `resampleUsingNoiseGenerator` (pf.h:182-223).  `dup` is the result of the sort
(to be constrained by `IsSorted (accumulate 0 f.particles) dup`), `initialP` the number drawn from
`[0, pstep)`, `noise` the generated noise states. -/
def Filter.resample [StateOps S] [Zero F] [One F] [Add F] [Mul F] [Div F] [NatCast F] [LT F]
    [DecidableLT F] (f : Filter S F) (dup : List (Particle S F)) (initialP : F)
    (noise : Nat → S) : Outcome (Filter S F) :=
  let ps := accumulate 0 f.particles
  let pstep := total f.particles / (ps.length : F)
  let prob := 1 / (ps.length : F)
  (resampleLoop dup pstep initialP prob noise ps 0 0 0).bind fun ps' =>
  .ok { f with particles := ps' }

/-- `noise` / `addNoiseUsingNoiseGenerator` (pf.h:224-239). -/
def Filter.noise [StateOps S] (f : Filter S F) (noise : Nat → S) : Filter S F :=
  { f with particles := f.particles.mapIdx fun i p =>
      { p with state := StateOps.add p.state (noise i) } }

/-- `predict` (pf.h:240-246).  Simplification: the model function is pure. -/
def Filter.predict (f : Filter S F) (model : S → S) : Filter S F :=
  { f with particles := f.particles.map fun p => { p with state := model p.state } }

/-- `bias` (pf.h:247-253): the callback gets the state and a reference to the bias. -/
def Filter.bias (f : Filter S F) (b : S → F → F) : Filter S F :=
  { f with particles := f.particles.map fun p => { p with bias := b p.state p.bias } }

/-- First loop of `measure` (pf.h:258-262). -/
def weigh [Mul F] (lik : S → F) (ps : List (Particle S F)) : List (Particle S F) :=
  ps.map fun p => { p with prob := p.prob * lik p.state }

/-- The entropy loop of `measure` (pf.h:265-274): `entropy_` accumulates `p log p` over positive
weights and is then multiplied by -1. -/
def entropyOf [Zero F] [One F] [Neg F] [Add F] [Mul F] [LT F] [DecidableLT F]
    (log : F → F) (ps : List (Particle S F)) : F :=
  (ps.foldl (fun e p => if 0 < p.prob then e + p.prob * log p.prob else e) 0) * (-1)

/-- `measure` (pf.h:254-281).  `log` is `std::log`.  Simplification: the likelihood callback is
pure. -/
def Filter.measure [Zero F] [One F] [Neg F] [Add F] [Mul F] [Div F] [LT F] [DecidableLT F]
    (log : F → F) (f : Filter S F) (lik : S → F) : Filter S F :=
  let backup := f.particles
  let ps1 := weigh lik f.particles
  let sum := total ps1
  if 0 < sum then
    let ps2 := ps1.map fun p => { p with prob := p.prob / sum }
    { particles := ps2, entropy := some (entropyOf log ps2) }
  else
    { particles := backup, entropy := f.entropy }

/-- The accumulating loop of `expectation` with its early exit (pf.h:288-293). -/
def meanLoop [LT F] [DecidableLT F] (mo : MeanOps S F M) (passRatio : F) :
    M → List (Particle S F) → M
  | m, [] => m
  | m, p :: ps =>
    let m' := mo.add m p.state p.prob
    if passRatio < mo.total m' then m' else meanLoop mo passRatio m' ps

/-- `std::sort(rbegin, rend)`: some permutation ordered by descending `accum_probability_`. -/
def IsSortedDesc [LT F] (ps dup : List (Particle S F)) : Prop :=
  dup.Perm ps ∧ dup.Pairwise fun a b => ¬ a.accum < b.accum

/-- `expectation` (pf.h:282-295): returns the mean and the filter, whose particles have been
reordered when `pass_ratio < 1`.  `sorted` is the result of that sort.  Simplification: the
`assert(p_sum_ > 0.0)` inside `getMean` is not part of this definition; theorems that need it
assume positive total weight. -/
def Filter.expectation [One F] [LT F] [DecidableLT F] (mo : MeanOps S F M) (f : Filter S F)
    (passRatio : F) (sorted : List (Particle S F)) : S × Filter S F :=
  let ps := if passRatio < 1 then sorted else f.particles
  (mo.getMean (meanLoop mo passRatio mo.empty ps), { f with particles := ps })

/-- `expectationBiased` (pf.h:296-305). -/
def Filter.expectationBiased [Mul F] (mo : MeanOps S F M) (f : Filter S F) : S :=
  mo.getMean (f.particles.foldl (fun m p => mo.add m p.state (p.prob * p.bias)) mo.empty)

/-- The loop counting `p_num` in `covariance` (pf.h:313-320). -/
def passCount [Add F] [LT F] [DecidableLT F] (passRatio : F) : F → List (Particle S F) → Nat
  | _, [] => 0
  | a, p :: ps => if passRatio < a + p.prob then 1 else 1 + passCount passRatio (a + p.prob) ps

/-- Entry `(j,k)`, `j ≤ k`, of the sum over the selected particles (pf.h:341-353), given the
deviation product `elem` (`covElement`), in the order of `indices`. -/
def covSum [Zero F] [Add F] [Mul F] (elem : S → S → Nat → Nat → F) (e : S)
    (ps : List (Particle S F)) (j k : Nat) : F :=
  ps.foldl (fun a p => a + elem p.state e j k * p.prob) 0

/-- `covariance` (pf.h:306-362) for selected particles `sel` (the particles at the shuffled and
truncated `indices`): only `j ≤ k` is computed and mirrored (`cov[k][j] = cov[j][k] += …`), then
every entry is divided by the selected weight. -/
def covarianceOf [Zero F] [Add F] [Mul F] [Div F] (elem : S → S → Nat → Nat → F) (e : S)
    (sel : List (Particle S F)) (j k : Nat) : F :=
  covSum elem e sel (min j k) (max j k) / total sel

/-- Which index lists `covariance` may use (pf.h:322-335): all of `0 … pNum-1` in order when no
random sampling is requested, otherwise the first `sampleNum` entries of some permutation, where
`sampleNum = min(pNum, ⌊pNum * ratio⌋)` is passed as an argument. -/
def CovIndices (pNum : Nat) (sampling : Bool) (sampleNum : Nat) (indices : List Nat) : Prop :=
  if sampling then ∃ sh : List Nat, sh.Perm (List.range pNum) ∧ indices = sh.take (min pNum sampleNum)
  else indices = List.range pNum

/-- `covariance` (pf.h:306-362) as a whole: expectation (which may reorder), choice of `indices`
(constrained by `CovIndices`), averaging.  `particles_[i]` is undefined out of range. -/
def Filter.covariance [Zero F] [One F] [Add F] [Mul F] [Div F] [LT F] [DecidableLT F]
    (mo : MeanOps S F M) (elem : S → S → Nat → Nat → F) (f : Filter S F) (passRatio : F)
    (sorted : List (Particle S F)) (indices : List Nat) :
    Outcome ((Nat → Nat → F) × Filter S F) :=
  let e := f.expectation mo passRatio sorted
  if ∀ i ∈ indices, i < e.2.particles.length then
    .ok (covarianceOf elem e.1 (indices.filterMap fun i => e.2.particles[i]?), e.2)
  else .ub "particles_[i] out of range"

/-- `pf::ParticleWeightedMean` (pf.h:113-157) for a state with numeric components indexed by `ι`
and the component-wise `operator+` of `ParticleBase` (pf.h:50-60). -/
def componentMean {ι : Type} [Zero F] [Add F] [Mul F] [Div F] :
    MeanOps (ι → F) F ((ι → F) × F) where
  empty := (fun _ => 0, 0)
  add := fun m s p => (fun i => s i * p + m.1 i, m.2 + p)
  getMean := fun m i => m.1 i / m.2
  total := fun m => m.2

/-- Loop of `max` (pf.h:367-374). -/
def maxLoop [LT F] [DecidableLT F] (key : Particle S F → F) :
    S → F → List (Particle S F) → S
  | m, _, [] => m
  | m, b, p :: ps => if b < key p then maxLoop key p.state (key p) ps else maxLoop key m b ps

/-- `max` (pf.h:363-376): reads `particles_[0]`, undefined for an empty filter. -/
def Filter.max [LT F] [DecidableLT F] (f : Filter S F) : Outcome S :=
  match f.particles with
  | [] => .ub "particles_[0] of an empty vector"
  | p :: ps => .ok (maxLoop (fun p => p.prob) p.state p.prob (p :: ps))

/-- `maxBiased` (pf.h:377-392). -/
def Filter.maxBiased [Mul F] [LT F] [DecidableLT F] (f : Filter S F) : Outcome S :=
  match f.particles with
  | [] => .ub "particles_[0] of an empty vector"
  | p :: ps =>
    .ok (maxLoop (fun p => p.prob * p.bias) p.state (p.prob * p.bias) (p :: ps))

/-- `getParticle` (pf.h:393-396). -/
def Filter.getParticle (f : Filter S F) (i : Nat) : Outcome S :=
  match f.particles[i]? with
  | some p => .ok p.state
  | none => .ub "particles_[i] out of range"

/-- The loop of `resizeParticle` (pf.h:418-437): `pscan` is accumulated, not recomputed. -/
def resizeLoop [Add F] [LT F] [DecidableLT F] (dup : List (Particle S F)) (pstep prob : F) :
    List (Particle S F) → F → Nat → Nat → Outcome (List (Particle S F))
  | [], _, _, _ => .ok []
  | p :: ps, pscan, it, itPrev =>
    let pscan' := pscan + pstep
    let it' := lowerBound dup it pscan'
    if it' = dup.length then
      (deref dup itPrev).bind fun s =>
      (resizeLoop dup pstep prob ps pscan' it' itPrev).bind fun rest =>
      .ok ({ p with state := s, prob := prob } :: rest)
    else
      (deref dup it').bind fun s =>
      (resizeLoop dup pstep prob ps pscan' it' it').bind fun rest =>
      .ok ({ p with state := s, prob := prob } :: rest)

/-- `std::vector::resize(n)` (pf.h:415, 441): truncates, or appends default particles. -/
def vectorResize [Zero F] (s0 : S) (junk : Nat → F) (n : Nat) (ps : List (Particle S F)) :
    List (Particle S F) :=
  ps.take n ++ (List.range (n - ps.length)).map fun i => defaultParticle s0 (junk i)

/-- `resizeParticle` (pf.h:399-437). -/
def Filter.resize [Zero F] [One F] [Add F] [Div F] [NatCast F] [LT F] [DecidableLT F]
    (s0 : S) (junk : Nat → F) (f : Filter S F) (n : Nat) (dup : List (Particle S F)) :
    Outcome (Filter S F) :=
  let ps := accumulate 0 f.particles
  let pstep := total f.particles / (n : F)
  (resizeLoop dup pstep (1 / (n : F)) (vectorResize s0 junk n ps) 0 0 0).bind fun ps' =>
  .ok { f with particles := ps' }

/-- `appendParticle` (pf.h:438-443); the returned iterator points at the first new particle. -/
def Filter.append [Zero F] (s0 : S) (junk : Nat → F) (f : Filter S F) (n : Nat) : Filter S F :=
  { f with particles := f.particles ++ (List.range n).map fun i => defaultParticle s0 (junk i) }

/-- The public operations with their external inputs. -/
inductive Op (S F : Type) where
  | init (noise : Nat → S)
  | resample (dup : List (Particle S F)) (initialP : F) (noise : Nat → S)
  | noise (noise : Nat → S)
  | predict (model : S → S)
  | bias (b : S → F → F)
  | measure (lik : S → F)
  | expectation (passRatio : F) (sorted : List (Particle S F))
  | covariance
  | resize (n : Nat) (junk : Nat → F) (dup : List (Particle S F))
  | append (n : Nat) (junk : Nat → F)

/-- Effect of an operation on the filter.  `covariance` with the default pass ratio changes
nothing. -/
def step [StateOps S] [Zero F] [One F] [Neg F] [Add F] [Mul F] [Div F] [NatCast F] [LT F]
    [DecidableLT F] (s0 : S) (log : F → F) (f : Filter S F) : Op S F → Outcome (Filter S F)
  | .init n => .ok (f.init n)
  | .resample d u n => f.resample d u n
  | .noise n => .ok (f.noise n)
  | .predict m => .ok (f.predict m)
  | .bias b => .ok (f.bias b)
  | .measure l => .ok (f.measure log l)
  | .expectation r sorted =>
    .ok { f with particles := if r < 1 then sorted else f.particles }
  | .covariance => .ok f
  | .resize n junk d => f.resize s0 junk n d
  | .append n junk => .ok (f.append s0 junk n)

/-- The sorting oracles of an operation really sort the particles of the filter. -/
def Op.Valid [Zero F] [Add F] [LT F] (f : Filter S F) : Op S F → Prop
  | .resample d _ _ => IsSorted (accumulate 0 f.particles) d
  | .resize _ _ d => IsSorted (accumulate 0 f.particles) d
  | .expectation _ sorted => IsSortedDesc f.particles sorted
  | _ => True

end PF
end Mcl3dl
