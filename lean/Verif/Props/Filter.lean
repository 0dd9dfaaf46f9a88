import Verif.Model.Filter
import Mathlib.Analysis.SpecificLimits.Basic
import Mathlib.Analysis.Real.Pi.Bounds
import Mathlib.Tactic

/-!
# C46 - C51: the output filters (exact real arithmetic)
-/

set_option linter.unusedSectionVars false

namespace Mcl3dl
namespace Filt

open Real

theorem two_real' : (Quat.two : ℝ) = 2 := by simp [Quat.two]

/-! ## Reachable filters -/

/-- Public calls on a filter. -/
inductive Call where
  | set (v : ℝ)
  | input (v : ℝ)

/-- Effect of one call. -/
noncomputable def call (f : Filt ℝ) : Call → Filt ℝ
  | .set v => f.set v
  | .input v => f.input v

/-- Effect of a history of calls. -/
noncomputable def calls (f : Filt ℝ) (cs : List Call) : Filt ℝ := cs.foldl call f

/-- Feeding a sequence of samples. -/
noncomputable def feed (f : Filt ℝ) (vs : List ℝ) : Filt ℝ := vs.foldl input f

/-- The coefficients of a low-pass filter with time constant `T`. -/
structure IsLpf (f : Filt ℝ) (T : ℝ) : Prop where
  k3 : f.k3 = -1 / (1 + 2 * T)
  k2 : f.k2 = 1 / (1 + 2 * T)
  k1 : f.k1 = (2 * T - 1) / (1 + 2 * T)
  k0 : f.k0 = -(4 * T) / (1 + 2 * T)

theorem isLpf_new (T v : ℝ) (hT : 1 + 2 * T ≠ 0) (a : Bool) : IsLpf (new .lpf T v a) T := by
  constructor <;> simp only [new, two_real'] <;> field_simp <;> ring

theorem isLpf_call {f : Filt ℝ} {T : ℝ} (h : IsLpf f T) (c : Call) : IsLpf (f.call c) T := by
  cases c <;> exact ⟨h.k3, h.k2, h.k1, h.k0⟩

theorem isLpf_calls {f : Filt ℝ} {T : ℝ} (h : IsLpf f T) (cs : List Call) : IsLpf (f.calls cs) T := by
  induction cs generalizing f with
  | nil => exact h
  | cons c cs ih => exact ih (isLpf_call h c)

theorem angle_call (f : Filt ℝ) (c : Call) : (f.call c).angle = f.angle := by cases c <;> rfl

theorem angle_calls (f : Filt ℝ) (cs : List Call) : (f.calls cs).angle = f.angle := by
  induction cs generalizing f with
  | nil => rfl
  | cons c cs ih => exact (ih (f.call c)).trans (angle_call f c)

/-- The internal level `-x / (2T)`. -/
noncomputable def level (f : Filt ℝ) (T : ℝ) : ℝ := -f.x / (2 * T)

theorem set_x {f : Filt ℝ} {T : ℝ} (h : IsLpf f T) (hT : 1 + 2 * T ≠ 0) (v : ℝ) :
    (f.set v).x = -(2 * T) * v := by
  simp only [set, h.k2, h.k3]; field_simp; ring

theorem new_x (T v : ℝ) (hT : 1 + 2 * T ≠ 0) (a : Bool) : (new .lpf T v a).x = -(2 * T) * v := by
  simp only [new, two_real']; field_simp; ring

theorem roundEven_zero : roundEven 0 = 0 := by
  unfold roundEven; simp

theorem remainder_zero (y : ℝ) : HasRemainder.remainder 0 y = (0 : ℝ) := by
  simp [HasRemainder.remainder, roundEven_zero]

theorem effective_self (f : Filt ℝ) : f.effective f.out = f.out := by
  unfold effective; split_ifs
  · rw [sub_self, remainder_zero]; ring
  · rfl

/-- C46: after any history of calls, `set(v)` makes the low-pass filter report `v`, and feeding `v`
any number of times keeps it there (scalar or angle filter). -/
theorem C46_set_steady (T out0 : ℝ) (hT : 1 + 2 * T ≠ 0) (angle : Bool) (history : List Call) (v : ℝ)
    (n : ℕ) :
    (((new .lpf T out0 angle).calls history).set v).get = v ∧
      ((((new .lpf T out0 angle).calls history).set v).feed (List.replicate n v)).get = v := by
  refine ⟨rfl, ?_⟩
  have hl := isLpf_calls (isLpf_new T out0 hT angle) history
  generalize (new .lpf T out0 angle).calls history = f at hl
  have key : ∀ n : ℕ, ∀ f : Filt ℝ, IsLpf f T → f.x = -(2 * T) * v → f.out = v →
      (f.feed (List.replicate n v)).out = v := by
    intro n
    induction n with
    | zero => intro f _ _ h; exact h
    | succ n ih =>
      intro f hf hx ho
      have he : f.effective v = v := by have := effective_self f; rwa [ho] at this
      rw [List.replicate_succ]
      change ((f.input v).feed (List.replicate n v)).out = v
      have hx' : (f.input v).x = -(2 * T) * v := by
        simp only [input, he, hx, hf.k0, hf.k1]
        have e : -(4 * T) / (1 + 2 * T) * v + (2 * T - 1) / (1 + 2 * T) * (-(2 * T) * v)
            = (-(4 * T) * v + (2 * T - 1) * (-(2 * T) * v)) / (1 + 2 * T) := by ring
        rw [e, div_eq_iff hT]; ring
      apply ih (f.input v) (isLpf_call hf (.input v)) hx'
      change f.k2 * f.effective v + f.k3 * (f.input v).x = v
      rw [hx', he, hf.k2, hf.k3]; field_simp
  exact key n _ (isLpf_call hl (.set v)) (set_x hl hT v) rfl

example : (1 : ℝ) + 2 * 5 ≠ 0 := by norm_num

/-- C47: for a time constant of at least half a step the low-pass output never leaves the interval
that contains the initial output and all inputs. -/
theorem C47_no_overshoot (T out0 lo hi : ℝ) (hT : 1 / 2 ≤ T) (h0 : lo ≤ out0 ∧ out0 ≤ hi)
    (vs : List ℝ) (hv : ∀ v ∈ vs, lo ≤ v ∧ v ≤ hi) :
    lo ≤ ((new .lpf T out0 false).feed vs).get ∧ ((new .lpf T out0 false).feed vs).get ≤ hi := by
  have ha : 0 < 1 + 2 * T := by linarith
  have key : ∀ vs : List ℝ, (∀ v ∈ vs, lo ≤ v ∧ v ≤ hi) → ∀ f : Filt ℝ, IsLpf f T → f.angle = false →
      (∃ y, f.x = -(2 * T) * y ∧ lo ≤ y ∧ y ≤ hi) → lo ≤ f.out → f.out ≤ hi →
      lo ≤ (f.feed vs).out ∧ (f.feed vs).out ≤ hi := by
    intro vs
    induction vs with
    | nil => intro _ f _ _ _ h1 h2; exact ⟨h1, h2⟩
    | cons v vs ih =>
      intro hv f hf hang ⟨y, hx, hy1, hy2⟩ _ _
      obtain ⟨hv1, hv2⟩ := hv v (by simp)
      have he : f.effective v = v := by simp [effective, hang]
      set y' := (2 * v + (2 * T - 1) * y) / (1 + 2 * T) with hy'
      have hx' : (f.input v).x = -(2 * T) * y' := by
        simp only [input, he, hx, hf.k0, hf.k1, hy']; field_simp; ring
      have hy1' : lo ≤ y' := by
        rw [hy', le_div_iff₀ ha]; nlinarith
      have hy2' : y' ≤ hi := by
        rw [hy', div_le_iff₀ ha]; nlinarith
      have ho : (f.input v).out = (v + 2 * T * y') / (1 + 2 * T) := by
        change f.k2 * f.effective v + f.k3 * (f.input v).x = _
        rw [hx', he, hf.k2, hf.k3]; ring
      refine ih (fun v hv' => hv v (by simp [hv'])) (f.input v) (isLpf_call hf (.input v)) hang
        ⟨y', hx', hy1', hy2'⟩ ?_ ?_
      · rw [ho, le_div_iff₀ ha]; nlinarith
      · rw [ho, div_le_iff₀ ha]; nlinarith
  exact key vs hv _ (isLpf_new T out0 ha.ne' false) rfl ⟨out0, new_x T out0 ha.ne' false, h0⟩ h0.1 h0.2

/-- C47, sharpness: below half a step the filter can overshoot. -/
theorem C47_overshoot_below_half :
    ∃ (T : ℝ) (vs : List ℝ), 0 < T ∧ T < 1/2 ∧ (∀ v ∈ vs, 0 ≤ v ∧ v ≤ 1) ∧
      1 < ((new .lpf T 0 false).feed vs).get := by
  refine ⟨1/4, [1], by norm_num, by norm_num, by simp, ?_⟩
  norm_num [feed, new, input, get, effective, two_real']

/-- C48: with constant input `v` the error of the output after `n + 1` samples is the error after the
first sample times `((2T-1)/(2T+1))^n`. -/
theorem C48_error_formula (T out0 v : ℝ) (hT : 1 + 2 * T ≠ 0) (n : ℕ) :
    ((new .lpf T out0 false).feed (List.replicate (n + 1) v)).get - v =
      ((2 * T - 1) / (2 * T + 1)) ^ n * (((new .lpf T out0 false).feed [v]).get - v) := by
  have hT' : 2 * T + 1 ≠ 0 := by rwa [add_comm]
  have key : ∀ n : ℕ, ∀ f : Filt ℝ, IsLpf f T → f.angle = false →
      ((f.input v).feed (List.replicate n v)).out - v =
        ((2 * T - 1) / (2 * T + 1)) ^ n * ((f.input v).out - v) := by
    intro n
    induction n with
    | zero => intro f _ _; simp [feed]
    | succ n ih =>
      intro f hf hang
      rw [List.replicate_succ]
      change (((f.input v).input v).feed (List.replicate n v)).out - v = _
      rw [ih (f.input v) (isLpf_call hf (.input v)) hang, pow_succ, mul_assoc]
      congr 1
      have he : ∀ g : Filt ℝ, g.angle = false → g.effective v = v := by intro g hg; simp [effective, hg]
      have e1 : ∀ g : Filt ℝ, IsLpf g T → g.angle = false →
          (g.input v).out = (v - (g.input v).x) / (1 + 2 * T) := by
        intro g hg hga
        change g.k2 * g.effective v + g.k3 * (g.input v).x = _
        rw [he g hga, hg.k2, hg.k3]; field_simp; ring
      have e2 : ((f.input v).input v).x = -(4 * T) / (1 + 2 * T) * v + (2 * T - 1) / (1 + 2 * T) * (f.input v).x := by
        change (f.input v).k0 * (f.input v).effective v + (f.input v).k1 * (f.input v).x = _
        rw [he (f.input v) hang]
        have := isLpf_call hf (.input v)
        rw [show (f.input v).k0 = _ from this.k0, show (f.input v).k1 = _ from this.k1]
      rw [e1 (f.input v) (isLpf_call hf (.input v)) hang, e1 f hf hang, e2, add_comm (2 * T) 1]
      generalize (f.input v).x = x
      have l : (v - (-(4 * T) / (1 + 2 * T) * v + (2 * T - 1) / (1 + 2 * T) * x)) / (1 + 2 * T) - v =
          (v * (1 + 2 * T) - (-(4 * T) * v + (2 * T - 1) * x) - v * (1 + 2 * T)^2) / (1 + 2 * T)^2 := by
        have gen : ∀ a P Q : ℝ, a ≠ 0 → (v - (P / a * v + Q / a * x)) / a - v =
            (v * a - (P * v + Q * x) - v * a^2) / a^2 := by
          intro a P Q ha; field_simp
        exact gen _ _ _ hT
      have r : (2 * T - 1) / (1 + 2 * T) * ((v - x) / (1 + 2 * T) - v) =
          ((2 * T - 1) * (v - x) - (2 * T - 1) * v * (1 + 2 * T)) / (1 + 2 * T)^2 := by
        have gen : ∀ a Q : ℝ, a ≠ 0 → Q / a * ((v - x) / a - v) = (Q * (v - x) - Q * v * a) / a^2 := by
          intro a Q ha; field_simp
        exact gen _ _ hT
      rw [l, r]; congr 1; ring
  exact key n (new .lpf T out0 false) (isLpf_new T out0 hT false) rfl

/-- C48: hence for every positive time constant the output converges to the constant input. -/
theorem C48_converges (T out0 v : ℝ) (hT : 0 < T) :
    Filter.Tendsto (fun n : ℕ => ((new .lpf T out0 false).feed (List.replicate n v)).get)
      Filter.atTop (nhds v) := by
  rw [← Filter.tendsto_add_atTop_iff_nat 1]
  have h : ∀ n : ℕ, ((new .lpf T out0 false).feed (List.replicate (n + 1) v)).get =
      v + ((2 * T - 1) / (2 * T + 1)) ^ n * (((new .lpf T out0 false).feed [v]).get - v) := by
    intro n
    have := C48_error_formula T out0 v (by linarith) n
    linarith
  simp only [h]
  have hr : |(2 * T - 1) / (2 * T + 1)| < 1 := by
    rw [abs_lt]; constructor
    · rw [lt_div_iff₀ (by linarith)]; linarith
    · rw [div_lt_iff₀ (by linarith)]; linarith
  have h2 := (tendsto_pow_atTop_nhds_zero_of_abs_lt_one hr).mul_const
    (((new .lpf T out0 false).feed [v]).get - v)
  have h3 := h2.const_add v
  simpa using h3

/-- C49: a low-pass and a high-pass filter with the same time constant, both started at 0, sum to the
input at every sample of every input sequence. -/
theorem C49_complementary (T : ℝ) (hT : 1 + 2 * T ≠ 0) (vs : List ℝ) (v : ℝ) :
    ((new .lpf T 0 false).feed (vs ++ [v])).get + ((new .hpf T 0 false).feed (vs ++ [v])).get = v := by
  have key : ∀ vs : List ℝ, ∀ f g : Filt ℝ, f.angle = false → g.angle = false → IsLpf f T →
      g.k0 = 4 * T / (1 + 2 * T) → g.k1 = f.k1 → g.k2 = 2 * T / (1 + 2 * T) → g.k3 = f.k3 → g.x = -f.x →
      (f.feed (vs ++ [v])).out + (g.feed (vs ++ [v])).out = v := by
    intro vs
    induction vs with
    | nil =>
      intro f g fa ga hf h0 h1 h2 h3 hx
      have ef : f.effective v = v := by simp [effective, fa]
      have eg : g.effective v = v := by simp [effective, ga]
      change (f.k2 * f.effective v + f.k3 * (f.k0 * f.effective v + f.k1 * f.x))
        + (g.k2 * g.effective v + g.k3 * (g.k0 * g.effective v + g.k1 * g.x)) = v
      rw [ef, eg, h0, h1, h2, h3, hx, hf.k0, hf.k1, hf.k2, hf.k3]
      field_simp; ring
    | cons u vs ih =>
      intro f g fa ga hf h0 h1 h2 h3 hx
      have ef : f.effective u = u := by simp [effective, fa]
      have eg : g.effective u = u := by simp [effective, ga]
      refine ih (f.input u) (g.input u) fa ga (isLpf_call hf (.input u)) h0 h1 h2 h3 ?_
      change g.k0 * g.effective u + g.k1 * g.x = -(f.k0 * f.effective u + f.k1 * f.x)
      rw [ef, eg, h0, h1, hx, hf.k0]; field_simp; ring
  apply key vs _ _ rfl rfl (isLpf_new T 0 hT false) <;>
    simp only [new, two_real'] <;> field_simp <;> ring

/-! ## C50: angle filter -/

theorem abs_sub_roundEven (t : ℝ) : |t - roundEven t| ≤ 1 / 2 := by
  have h0 := Int.fract_nonneg t
  have h1 := Int.fract_lt_one t
  have hf : Int.fract t = t - ⌊t⌋ := rfl
  unfold roundEven
  split_ifs with a b c <;> rw [abs_le] <;> push_cast <;> constructor <;> linarith

/-- The angle an angle filter works with is equivalent to the input and at most half a turn from its output. -/
theorem effective_turn (f : Filt ℝ) (hf : f.angle = true) (v : ℝ) :
    ∃ k : ℤ, f.effective v = v + k * (2 * π) ∧ |f.effective v - f.out| ≤ π := by
  have hpi := Real.pi_pos
  set t := (v - f.out) / (π * 2) with ht
  have hv : v - f.out = t * (π * 2) := by rw [ht]; field_simp
  have heff : f.effective v = v + (-(roundEven t) : ℤ) * (2 * π) := by
    simp only [effective, hf, if_true, HasRemainder.remainder, two_real', Transc.pi_real]
    rw [← ht]; push_cast; ring
  refine ⟨-(roundEven t), heff, ?_⟩
  have : f.effective v - f.out = (t - roundEven t) * (π * 2) := by
    rw [heff]; push_cast; linear_combination hv
  rw [this, abs_mul, abs_of_pos (by positivity : 0 < π * 2)]
  have := abs_sub_roundEven t
  nlinarith

/-- C50: an angle filter treats the input as an equivalent angle within a half turn of its current
output: its new state is that of the scalar filter fed with such an angle. -/
theorem C50_shortest_turn (f : Filt ℝ) (hf : f.angle = true) (v : ℝ) :
    ∃ (v' : ℝ) (k : ℤ), v' = v + k * (2 * π) ∧ |v' - f.out| ≤ π ∧
      (f.input v).out = (({ f with angle := false } : Filt ℝ).input v').out ∧
      (f.input v).x = (({ f with angle := false } : Filt ℝ).input v').x := by
  have hpi := Real.pi_pos
  set t := (v - f.out) / (π * 2) with ht
  have hv : v - f.out = t * (π * 2) := by rw [ht]; field_simp
  have heff : f.effective v = v + (-(roundEven t) : ℤ) * (2 * π) := by
    simp only [effective, hf, if_true, HasRemainder.remainder, two_real', Transc.pi_real]
    rw [← ht]; push_cast; ring
  refine ⟨f.effective v, -(roundEven t), heff, ?_, ?_, ?_⟩
  · have : f.effective v - f.out = (t - roundEven t) * (π * 2) := by
      rw [heff]; push_cast; linear_combination hv
    rw [this, abs_mul, abs_of_pos (by positivity : 0 < π * 2)]
    have := abs_sub_roundEven t
    nlinarith
  · simp [input, effective]
  · simp [input, effective]

/-- C50: whole turns of the input do not matter, unless the input is exactly opposite to the current
output. -/
theorem C50_ignores_turns (f : Filt ℝ) (hf : f.angle = true) (v : ℝ) (k : ℤ)
    (hopp : ∀ m : ℤ, v - f.out ≠ π + m * (2 * π)) :
    f.input (v + k * (2 * π)) = f.input v := by
  have hpi := Real.pi_pos
  have hre : ∀ t : ℝ, Int.fract t ≠ 1/2 → roundEven (t + k) = roundEven t + k := by
    intro t ht
    unfold roundEven
    rw [Int.fract_add_intCast, Int.floor_add_intCast]
    rcases lt_trichotomy (Int.fract t) (1/2) with h | h | h
    · rw [if_pos h, if_pos h]
    · exact absurd h ht
    · rw [if_neg (by linarith), if_pos h, if_neg (by linarith), if_pos h]; ring
  have heff : f.effective (v + k * (2 * π)) = f.effective v := by
    simp only [effective, hf, if_true, HasRemainder.remainder, two_real', Transc.pi_real]
    have e : (v + k * (2 * π) - f.out) / (π * 2) = (v - f.out) / (π * 2) + k := by field_simp; ring
    rw [e, hre]
    · push_cast; ring
    · intro h
      apply hopp ⌊(v - f.out) / (π * 2)⌋
      have h2 : (v - f.out) / (π * 2) = ⌊(v - f.out) / (π * 2)⌋ + 1/2 := by
        have : Int.fract ((v - f.out) / (π * 2)) = (v - f.out) / (π * 2) - ⌊(v - f.out) / (π * 2)⌋ := rfl
        linarith
      have h3 : v - f.out = ((v - f.out) / (π * 2)) * (π * 2) := by field_simp
      generalize ⌊(v - f.out) / (π * 2)⌋ = n at h2
      rw [h2] at h3
      rw [h3]; ring
  simp only [input, heff]

/-- Non-vacuity: an angle filter at output 3 and an input of -3 (which is 2π - 6 ahead). -/
example : (new .lpf (5 : ℝ) 3 true).angle = true ∧ ∀ m : ℤ, (-3 : ℝ) - (new .lpf (5 : ℝ) 3 true).out ≠ π + m * (2 * π) := by
  refine ⟨rfl, fun m h => ?_⟩
  have h' : (-6 : ℝ) = π * (1 + 2 * m) := by
    have : (new .lpf (5 : ℝ) 3 true).out = 3 := rfl
    rw [this] at h; linarith
  have h3 := Real.pi_gt_three
  have h4 := Real.pi_lt_four
  rcases le_or_gt 0 m with hm | hm
  · have : (0:ℝ) ≤ m := by exact_mod_cast hm
    nlinarith
  · rcases le_or_gt m (-2) with hm2 | hm2
    · have : (m:ℝ) ≤ -2 := by exact_mod_cast hm2
      nlinarith
    · have : m = -1 := by omega
      subst this
      push_cast at h'
      linarith

end Filt

namespace FiltVec3

/-- Public calls of the vector filter. -/
inductive Call where
  | set (v : Vec3 ℝ)
  | input (v : Vec3 ℝ)

noncomputable def call (f : FiltVec3 ℝ) : Call → FiltVec3 ℝ
  | .set v => f.set v
  | .input v => f.input v

/-- The same call on component `i`. -/
def Call.component (i : Nat) : Call → Filt.Call
  | .set v => .set (v.get i)
  | .input v => .input (v.get i)

/-- C51: after every history of calls, each component of the vector filter's output is the output of
a scalar filter with its own time constant that received that component of the same calls. -/
theorem C51_componentwise (type : FilterType) (timeConst out0 : Vec3 ℝ) (angle : Bool)
    (history : List Call) (i : Nat) (hi : i < 3) :
    ((history.foldl call (new type timeConst out0 angle)).get).get i =
      ((Filt.new type (timeConst.get i) (out0.get i) angle).calls (history.map (Call.component i))).get := by
  have key : ∀ (history : List Call) (f : FiltVec3 ℝ), f.x = ⟨f.fx.out, f.fy.out, f.fz.out⟩ →
      (history.foldl call f).x =
        ⟨(f.fx.calls (history.map (Call.component 0))).out,
         (f.fy.calls (history.map (Call.component 1))).out,
         (f.fz.calls (history.map (Call.component 2))).out⟩ := by
    intro history
    induction history with
    | nil => intro f h; exact h
    | cons c cs ih =>
      intro f h
      cases c with
      | set v => exact ih (f.set v) rfl
      | input v => exact ih (f.input v) rfl
  have h0 : (new type timeConst out0 angle).x =
      ⟨(new type timeConst out0 angle).fx.out, (new type timeConst out0 angle).fy.out,
        (new type timeConst out0 angle).fz.out⟩ := by
    cases type <;> rfl
  have := key history (new type timeConst out0 angle) h0
  unfold FiltVec3.get
  rw [this]
  interval_cases i <;> rfl

end FiltVec3
end Mcl3dl
