import Verif.Model.Outcome

/-!
# `CloudAccumulationLogic` and `CloudAccumulationLogicPassThrough`

Models `/repo/include/mcl_3dl/cloud_accum.h` and `/repo/src/cloud_accum.cpp`.
-/

namespace Mcl3dl
namespace CloudAccum

/-- The three `std::function` arguments of `push` (cloud_accum.h:44-49).  `W` is everything the
callbacks may read or write (the caller's world); `accumulate` returns the C++ `bool`.
Simplification: callbacks do not call back into the accumulation object. -/
structure Callbacks (W : Type u) (M : Type v) where
  process : W → W
  accumulate : M → W → Bool × W
  clear : W → W

/-- Constructor arguments `accum`, `accum_max` (cloud_accum.h:74-82).  `size_t` is modelled by
`Nat`: the values are only compared, and `cnt_accum_` never exceeds the number of recorded keys. -/
structure Cfg where
  accum : Nat
  accumMax : Nat
  deriving Repr, DecidableEq

/-- Mutable members `cnt_accum_`, `keys_` (cloud_accum.h:94-97). -/
structure St (K : Type u) where
  cnt : Nat
  keys : List K
  deriving Repr, DecidableEq

/-- State after construction (cloud_accum.h:77-80) and after `reset()`
(cloud_accum.cpp:121-125). -/
def St.init {K : Type u} : St K := ⟨0, []⟩

/-- `CloudAccumulationLogic::reset` (cloud_accum.cpp:121-125). -/
def reset {K : Type u} (_ : St K) : St K := St.init

/-- The tail of `push`, executed when the pending data is processed
(cloud_accum.cpp:109-118). -/
def processAndRestart {K : Type u} {W : Type v} {M : Type w}
    (s : St K) (key : K) (msg : M) (cb : Callbacks W M) (w : W) : St K × W :=
  let w1 := cb.process w
  let w2 := cb.clear w1
  let s1 := reset s
  match cb.accumulate msg w2 with
  | (true, w3) => (⟨s1.cnt + 1, s1.keys ++ [key]⟩, w3)
  | (false, w3) => (s1, w3)

/-- `CloudAccumulationLogic::push` (cloud_accum.cpp:53-119).  `keys_.front()` on an empty vector
(line 106, in the log statement of the overflow branch) is undefined behaviour. -/
def push {K : Type u} [DecidableEq K] {W : Type v} {M : Type w}
    (cfg : Cfg) (s : St K) (key : K) (msg : M) (cb : Callbacks W M) (w : W) :
    Outcome (St K × W) :=
  if s.keys.length < cfg.accumMax then
    -- line 64: keys_.size() == 0 || keys_.front() != key
    if s.keys.length = 0 ∨ s.keys.head? ≠ some key then
      match cb.accumulate msg w with
      | (true, w1) =>
        .ok (⟨if s.keys.length = 0 then 1 else s.cnt, s.keys ++ [key]⟩, w1)
      | (false, w1) => .ok (reset s, cb.clear w1)
    -- line 83
    else if s.cnt < cfg.accum then
      match cb.accumulate msg w with
      | (true, w1) => .ok (⟨s.cnt + 1, s.keys ++ [key]⟩, w1)
      | (false, w1) => .ok (reset s, cb.clear w1)
    else
      .ok (processAndRestart s key msg cb w)
  else
    -- lines 102-107
    match s.keys with
    | [] => .ub "keys_.front() on an empty vector"
    | _ :: _ => .ok (processAndRestart s key msg cb w)

/-- `CloudAccumulationLogicPassThrough::push` (cloud_accum.cpp:41-51). -/
def pushPassThrough {W : Type v} {M : Type w} (msg : M) (cb : Callbacks W M) (w : W) : W :=
  match cb.accumulate msg (cb.clear w) with
  | (true, w1) => cb.process w1
  | (false, w1) => w1

end CloudAccum
end Mcl3dl
