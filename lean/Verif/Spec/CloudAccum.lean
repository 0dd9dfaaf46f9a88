import Verif.Model.CloudAccum

/-!
# Specification of cloud accumulation: what a caller can observe

A caller observes the sequence of callback invocations.  This file defines that trace, the buffer
the caller holds, and the intended batching rule.  It does not mention the members of
`CloudAccumulationLogic`.
-/

namespace Mcl3dl
namespace CloudAccum

/-- One callback invocation: `accumulate(m)` with its result, `process()`, or `clear()`. -/
inductive Ev (M : Type u) where
  | acc (m : M) (ok : Bool)
  | proc
  | clr
  deriving DecidableEq, Repr

/-- Effect of one callback on the caller's buffer. -/
def bufStep {M : Type u} (b : List M) : Ev M → List M
  | .acc m true => b ++ [m]
  | .acc _ false => b
  | .proc => b
  | .clr => []

/-- The caller's buffer after a trace: the clouds successfully accumulated since the last clear. -/
def buffer {M : Type u} (tr : List (Ev M)) : List M := tr.foldl bufStep []

/-- The batches handed to `process()`: the caller's buffer at each `process()` call. -/
def batchesFrom {M : Type u} : List M → List (Ev M) → List (List M)
  | _, [] => []
  | b, .acc m true :: tr => batchesFrom (b ++ [m]) tr
  | b, .acc _ false :: tr => batchesFrom b tr
  | b, .proc :: tr => b :: batchesFrom b tr
  | _, .clr :: tr => batchesFrom [] tr

/-- Batches of a whole trace (the buffer starts empty). -/
def batches {M : Type u} (tr : List (Ev M)) : List (List M) := batchesFrom [] tr

/-- Callbacks which record themselves in a trace; the result of `accumulate` is an arbitrary
function `ok` of the whole history and the cloud. -/
def recorder {M : Type u} (ok : List (Ev M) → M → Bool) : Callbacks (List (Ev M)) M where
  process := fun tr => tr ++ [.proc]
  accumulate := fun m tr => (ok tr m, tr ++ [.acc m (ok tr m)])
  clear := fun tr => tr ++ [.clr]

/-- Calls made by the user: a cloud arrives, or the user clears its buffer and resets the logic
(as the node does when a map is loaded, mcl_3dl.cpp:1163-1164). -/
inductive Op (M : Type u) where
  | push (m : M)
  | restart
  deriving Repr

/-- Run a sequence of calls; `key m` is the frame id of cloud `m` (mcl_3dl.cpp:257-258). -/
def run {K : Type u} [DecidableEq K] {M : Type v} (cfg : Cfg) (key : M → K)
    (ok : List (Ev M) → M → Bool) :
    St K → List (Ev M) → List (Op M) → Outcome (St K × List (Ev M))
  | s, tr, [] => .ok (s, tr)
  | s, tr, .push m :: ops =>
    (push cfg s (key m) m (recorder ok) tr).bind fun r => run cfg key ok r.1 r.2 ops
  | s, tr, .restart :: ops => run cfg key ok (reset s) (tr ++ [.clr]) ops

/-- The intended rule: with pending clouds `b`, the batch is complete when cloud `m` arrives iff
it already holds `accumMax` clouds, or `m` comes from the sensor that opened the batch and that
sensor already contributed `accum` clouds. -/
def Complete {K : Type u} [DecidableEq K] {M : Type v} (cfg : Cfg) (key : M → K)
    (b : List M) (m : M) : Prop :=
  cfg.accumMax ≤ b.length ∨
    ∃ h t, b = h :: t ∧ key h = key m ∧ cfg.accum ≤ (b.filter (fun x => key x = key m)).length

/-- What one arriving cloud should cause, as a trace, given the pending clouds `b`, whether the
batch is complete and whether `accumulate` succeeds. -/
def pushSpec {M : Type v} (complete : Prop) [Decidable complete] (m : M) (ok : Bool) :
    List (Ev M) :=
  if complete then [.proc, .clr, .acc m ok]
  else if ok then [.acc m true] else [.acc m false, .clr]

end CloudAccum
end Mcl3dl
