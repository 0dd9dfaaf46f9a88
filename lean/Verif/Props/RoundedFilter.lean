import Verif.Proofs.RoundedFilter
import Verif.Props.RoundedGeom
import Verif.Props.Filter

/-! # C173: the smoothing does not accumulate rounding errors -/

set_option linter.unusedSectionVars false

namespace Mcl3dl
namespace RFilt

variable {F : Type} [Zero F] [One F] [Neg F] [Add F] [Sub F] [Mul F] [Div F] [NatCast F] [Transc F] [HasRemainder F]
variable {val : F → ℝ} {u η hi S M : ℝ}

theorem div_err (R : RoundedGeom F val u η hi) {a b : F} (hb : val b ≠ 0) (h : |val a / val b| ≤ hi) :
    |val (a / b) - val a / val b| ≤ u * |val a / val b| + η := by
  obtain ⟨δ, ε, h1, h2, h3⟩ := R.div a b hb h
  have e : val (a / b) - val a / val b = val a / val b * δ + ε := by rw [h3]; ring
  rw [e]
  refine (abs_add_le _ _).trans ?_
  rw [abs_mul]
  have := mul_le_mul_of_nonneg_left h1 (abs_nonneg (val a / val b))
  linarith

/-- Crude bounds of the coefficients. -/
theorem Near.crude (h : Sizes u η S M) {k0 k1 k2 k3 : ℝ} (hk : Near u S k0 k1 k2 k3) :
    |k0| ≤ 3 ∧ |k1| ≤ 2 ∧ |k2| ≤ 1 ∧ |k3| ≤ 1 ∧ k3 ≠ 0 ∧ |1 / k3| ≤ 2 * S := by
  have hS0 : 0 < S := by linarith [h.S2]
  have hS2 := h.S2
  have hu0 := h.u0
  have hu1 := h.u1
  have hSi : 0 < 1 / S := by positivity
  have hSi2 : 1 / S ≤ 1 / 2 := one_div_le_one_div_of_le (by norm_num) hS2
  have hc : 42 / 10 * u / S ≤ 42 / 1000 * (1 / S) := by
    rw [show 42 / 10 * u / S = 42 / 10 * u * (1 / S) by ring]
    exact mul_le_mul_of_nonneg_right (by linarith) hSi.le
  have h0 : |-(2 * (S - 1)) / S| ≤ 2 := by
    rw [neg_div, abs_neg, abs_of_nonneg (div_nonneg (by linarith [h.S2]) hS0.le), div_le_iff₀ hS0]; linarith
  have h1 : |(S - 2) / S| ≤ 1 := by
    rw [abs_of_nonneg (div_nonneg (by linarith [h.S2]) hS0.le), div_le_one hS0]; linarith
  have e2 : |(-1 : ℝ) / S| = 1 / S := by rw [neg_div, abs_neg, abs_of_pos hSi]
  have a0 := abs_near hk.k0
  have a1 := abs_near hk.k1
  have a2 := abs_near hk.k2
  have a3 := abs_near hk.k3
  rw [abs_of_pos hSi] at a2
  rw [e2] at a3
  obtain ⟨g1, g2⟩ := abs_le.1 hk.k3
  rw [show (-1 : ℝ) / S = -(1 / S) by ring] at g1 g2
  have hneg : k3 < 0 := by linarith
  refine ⟨by linarith, by linarith, by linarith, by linarith, hneg.ne, ?_⟩
  rw [abs_div, abs_one, abs_of_neg hneg, div_le_iff₀ (by linarith)]
  have : 2 * S * (1 / 2 * (1 / S)) ≤ 2 * S * -k3 := mul_le_mul_of_nonneg_left (by linarith) (by positivity)
  have e : 2 * S * (1 / 2 * (1 / S)) = 1 := by field_simp
  linarith

/-- A machine filter that follows the exact one. -/
structure Tracks (val : F → ℝ) (u S M : ℝ) (f : Filt F) (g : Filt ℝ) : Prop where
  plain : f.angle = false
  plain' : g.angle = false
  near : Near u S (val f.k0) (val f.k1) (val f.k2) (val f.k3)
  k0 : g.k0 = -(2 * (S - 1)) / S
  k1 : g.k1 = (S - 2) / S
  k2 : g.k2 = 1 / S
  k3 : g.k3 = -1 / S
  small : |g.x| ≤ (S - 1) * M
  x : |val f.x - g.x| ≤ 13 * u * S ^ 2 * M
  out : |val f.out - g.out| ≤ 20 * u * S * M

theorem Sizes.small (h : Sizes u η S M) : 13 * u * S ^ 2 * M ≤ S * M ∧ η ≤ 1 ∧ M ≤ S * M / 2 ∧ 1 ≤ S * M := by
  have hS2 := h.S2
  have hM := h.M1
  have h1 : 0 ≤ S * M := by positivity
  have h2 := mul_le_mul_of_nonneg_right h.uS h1
  have h3 := mul_nonneg h.u0 (mul_nonneg (show 0 ≤ S by linarith) h1)
  refine ⟨by nlinarith, by linarith [h.eta', h.u1, h.η0], by nlinarith, by nlinarith⟩

/-- One input. -/
theorem tracks_input (R : RoundedGeom F val u η hi) (h : Sizes u η S M) (hhi : 10 * S * M ≤ hi) {f : Filt F} {g : Filt ℝ}
    (ht : Tracks val u S M f g) {v : F} (hv : |val v| ≤ M) : Tracks val u S M (f.input v) (g.input (val v)) := by
  obtain ⟨c0, c1, c2, c3, _, _⟩ := ht.near.crude h
  obtain ⟨s1, s2, s3, s4⟩ := h.small
  have hS2 := h.S2
  have hM := h.M1
  have hu0 := h.u0
  have hu1 := h.u1
  have hη0 := h.η0
  have hev : f.effective v = v := by rw [Filt.effective, ht.plain]; rfl
  have hev' : g.effective (val v) = val v := by rw [Filt.effective, ht.plain']; rfl
  -- ranges of the first line
  have hX : |val f.x| ≤ 2 * (S * M) := by
    have := abs_near ht.x
    have := ht.small
    nlinarith
  have r1 : |val f.k0 * val v| ≤ 3 * M := by
    rw [abs_mul]; exact mul_le_mul c0 hv (abs_nonneg _) (by norm_num)
  have r2 : |val f.k1 * val f.x| ≤ 4 * (S * M) := by
    rw [abs_mul]
    have := mul_le_mul c1 hX (abs_nonneg _) (by norm_num)
    linarith
  have r2' : |val f.k1 * val f.x| ≤ hi := by linarith
  have m1 := R.mul_err (a := f.k0) (b := v) (by linarith)
  have m2 := R.mul_err (a := f.k1) (b := f.x) r2'
  have n1 : |val (f.k0 * v)| ≤ 31 / 10 * M + η := by
    have h1 := abs_near m1
    have h2 := mul_le_mul_of_nonneg_left r1 hu0
    nlinarith
  have n2 : |val (f.k1 * f.x)| ≤ 41 / 10 * (S * M) + η := by
    have h1 := abs_near m2
    have h2 := mul_le_mul_of_nonneg_left r2 hu0
    nlinarith
  have n3 : |val (f.k0 * v) + val (f.k1 * f.x)| ≤ hi := by
    refine (abs_add_le _ _).trans ?_
    linarith
  have a1 := R.add_err (a := f.k0 * v) (b := f.k1 * f.x) n3
  obtain ⟨hx, hsm⟩ := step_x h ht.near hv ht.small ht.x m1 m2 a1
  -- the second line
  have hX' : |val (f.k0 * v + f.k1 * f.x)| ≤ 2 * (S * M) := by
    have := abs_near hx
    nlinarith
  have q1 : |val f.k2 * val v| ≤ M := by
    rw [abs_mul]
    have := mul_le_mul c2 hv (abs_nonneg _) (by norm_num)
    linarith
  have q2 : |val f.k3 * val (f.k0 * v + f.k1 * f.x)| ≤ 2 * (S * M) := by
    rw [abs_mul]
    have := mul_le_mul c3 hX' (abs_nonneg _) (by norm_num)
    linarith
  have m3 := R.mul_err (a := f.k2) (b := v) (by linarith)
  have m4 := R.mul_err (a := f.k3) (b := f.k0 * v + f.k1 * f.x) (by linarith)
  have n5 : |val (f.k2 * v)| ≤ 2 * M + η := by
    have h1 := abs_near m3
    have h2 := mul_le_mul_of_nonneg_left q1 hu0
    nlinarith
  have n6 : |val (f.k3 * (f.k0 * v + f.k1 * f.x))| ≤ 3 * (S * M) + η := by
    have h1 := abs_near m4
    have h2 := mul_le_mul_of_nonneg_left q2 hu0
    nlinarith
  have n7 : |val (f.k2 * v) + val (f.k3 * (f.k0 * v + f.k1 * f.x))| ≤ hi := by
    refine (abs_add_le _ _).trans ?_
    linarith
  have a2 := R.add_err (a := f.k2 * v) (b := f.k3 * (f.k0 * v + f.k1 * f.x)) n7
  have ho := step_out h ht.near hv hsm hx m3 m4 a2
  have eg : (g.input (val v)).x = -(2 * (S - 1)) / S * val v + (S - 2) / S * g.x := by
    simp only [Filt.input, hev', ht.k0, ht.k1]
  have ef : (f.input v).x = f.k0 * v + f.k1 * f.x := by simp only [Filt.input, hev]
  refine ⟨ht.plain, ht.plain', ht.near, ht.k0, ht.k1, ht.k2, ht.k3, ?_, ?_, ?_⟩
  · rw [eg]; exact hsm
  · rw [eg, ef]; exact hx
  · have eo : (g.input (val v)).out = 1 / S * val v + -1 / S * (-(2 * (S - 1)) / S * val v + (S - 2) / S * g.x) := by
      simp only [Filt.input, hev', ht.k0, ht.k1, ht.k2, ht.k3]
    have eo' : (f.input v).out = f.k2 * v + f.k3 * (f.k0 * v + f.k1 * f.x) := by simp only [Filt.input, hev]
    rw [eo, eo']; exact ho

/-- The internal state after `set` or the construction. -/
theorem near_set (R : RoundedGeom F val u η hi) (h : Sizes u η S M) (hhi : 10 * S * M ≤ hi) {k0 k1 k2 k3 v : F}
    (hk : Near u S (val k0) (val k1) (val k2) (val k3)) (hv : |val v| ≤ M) :
    |val ((1 - k2) * v / k3) - -(S - 1) * val v| ≤ 13 * u * S ^ 2 * M := by
  obtain ⟨_, _, c2, _, hne, hinv⟩ := hk.crude h
  obtain ⟨_, s2, s3, s4⟩ := h.small
  have hS2 := h.S2
  have hM := h.M1
  have hu0 := h.u0
  have hu1 := h.u1
  have hη0 := h.η0
  have r1 : |1 - val k2| ≤ 2 := by
    have := abs_sub (1 : ℝ) (val k2)
    have : |1 - val k2| ≤ |(1 : ℝ)| + |val k2| := abs_sub 1 (val k2)
    rw [abs_one] at this
    linarith
  have m1 := R.sub_err (a := (1 : F)) (b := k2) (by rw [R.one]; linarith)
  rw [R.one] at m1
  have n1 : |val (1 - k2)| ≤ 21 / 10 := by
    have h1 := abs_near m1
    have h2 := mul_le_mul_of_nonneg_left r1 hu0
    linarith
  have r2 : |val (1 - k2) * val v| ≤ 21 / 10 * M := by
    rw [abs_mul]; exact mul_le_mul n1 hv (abs_nonneg _) (by norm_num)
  have m2 := R.mul_err (a := 1 - k2) (b := v) (by linarith)
  have n2 : |val ((1 - k2) * v)| ≤ 4 * M := by
    have h1 := abs_near m2
    have h2 := mul_le_mul_of_nonneg_left r2 hu0
    nlinarith
  have r3 : |val ((1 - k2) * v) / val k3| ≤ hi := by
    rw [div_eq_mul_one_div, abs_mul]
    have := mul_le_mul n2 hinv (abs_nonneg _) (by linarith)
    nlinarith
  have m3 := div_err R (a := (1 - k2) * v) (b := k3) hne r3
  exact step_set h hk hv m1 m2 m3

theorem set_exact {g : Filt ℝ} (hS : 2 ≤ S) (h2 : g.k2 = 1 / S) (h3 : g.k3 = -1 / S) (v : ℝ) :
    (1 - g.k2) * v / g.k3 = -(S - 1) * v := by
  have : S ≠ 0 := by linarith
  rw [h2, h3]
  field_simp

theorem tracks_set (R : RoundedGeom F val u η hi) (h : Sizes u η S M) (hhi : 10 * S * M ≤ hi) {f : Filt F} {g : Filt ℝ}
    (ht : Tracks val u S M f g) {v : F} (hv : |val v| ≤ M) : Tracks val u S M (f.set v) (g.set (val v)) := by
  have hS2 := h.S2
  have e := set_exact (g := g) hS2 ht.k2 ht.k3 (val v)
  refine ⟨ht.plain, ht.plain', ht.near, ht.k0, ht.k1, ht.k2, ht.k3, ?_, ?_, ?_⟩
  · show |(1 - g.k2) * val v / g.k3| ≤ _
    rw [e, abs_mul, abs_neg, abs_of_nonneg (by linarith)]
    exact mul_le_mul_of_nonneg_left hv (by linarith)
  · show |val ((1 - f.k2) * v / f.k3) - (1 - g.k2) * val v / g.k3| ≤ _
    rw [e]; exact near_set R h hhi ht.near hv
  · show |val v - val v| ≤ _
    rw [sub_self, abs_zero]
    have := h.u0
    have := h.M1
    positivity

/-- The constructor. -/
theorem tracks_new (R : RoundedGeom F val u η hi) (h2 : val Quat.two = 2) {T v : F} (h : Sizes u η (1 + 2 * val T) M)
    (hhi : 10 * (1 + 2 * val T) * M ≤ hi) (hv : |val v| ≤ M) :
    Tracks val u (1 + 2 * val T) M (Filt.new .lpf T v false) (Filt.new .lpf (val T) (val v) false) := by
  set S := 1 + 2 * val T with hS
  have hS2 := h.S2
  have hM := h.M1
  have hu0 := h.u0
  have hu1 := h.u1
  have hη0 := h.η0
  obtain ⟨_, s2, s3, s4⟩ := h.small
  have hSM : S ≤ S * M := by nlinarith
  -- 2 T
  have e1 : val Quat.two * val T = S - 1 := by rw [h2, hS]; ring
  have m1 := R.mul_err (a := Quat.two) (b := T) (by rw [e1, abs_of_nonneg (by linarith)]; linarith)
  rw [e1] at m1
  have p1 := step_p h m1
  have p2 : |val (Quat.two * T)| ≤ 2 * S := by
    have h1 := abs_near p1
    have e : |S - 1| = S - 1 := abs_of_nonneg (by linarith)
    rw [e] at h1
    have : u * S ≤ 1 / 100 * S := mul_le_mul_of_nonneg_right hu1 (by linarith)
    linarith
  -- 1 + 2 T
  have r2 : |1 + val (Quat.two * T)| ≤ hi := by
    have := abs_add_le 1 (val (Quat.two * T))
    rw [abs_one] at this
    linarith
  have m2 := R.add_err (a := (1 : F)) (b := Quat.two * T) (by rw [R.one]; exact r2)
  rw [R.one] at m2
  have q1 := step_q h p1 m2
  obtain ⟨hq0, _, hq⟩ := inv_near (ε := 201 / 100 * u) (by linarith : 0 < S) (by linarith) (by linarith) q1
  -- k3
  have hSi2 : 104 / 100 / S ≤ 1 := by rw [div_le_one (by linarith)]; linarith
  have r3 : |val (-1 : F) / val (1 + Quat.two * T)| ≤ hi := by
    rw [R.neg, R.one, neg_div, abs_neg]
    linarith
  have m3 := div_err R (a := (-1 : F)) (b := 1 + Quat.two * T) hq0.ne' r3
  rw [R.neg, R.one] at m3
  have k3 := step_k3 h q1 m3
  set K3 : F := -1 / (1 + Quat.two * T) with hK3
  have k3' : |val K3| ≤ 1 := by
    have h1 := abs_near k3
    have hSi : 0 < 1 / S := by positivity
    have hSi2 : 1 / S ≤ 1 / 2 := one_div_le_one_div_of_le (by norm_num) hS2
    have hc : 42 / 10 * u / S ≤ 42 / 1000 * (1 / S) := by
      rw [show 42 / 10 * u / S = 42 / 10 * u * (1 / S) by ring]
      exact mul_le_mul_of_nonneg_right (by linarith) hSi.le
    rw [neg_div, abs_neg, abs_of_pos hSi] at h1
    linarith
  -- k1
  have r4' : |1 - val (Quat.two * T)| ≤ 3 * S := by
    have : |1 - val (Quat.two * T)| ≤ |(1 : ℝ)| + |val (Quat.two * T)| := abs_sub 1 _
    rw [abs_one] at this
    linarith
  have m4 := R.sub_err (a := (1 : F)) (b := Quat.two * T) (by rw [R.one]; linarith)
  rw [R.one] at m4
  have g1 : |val (1 - Quat.two * T)| ≤ 4 * S := by
    have h1 := abs_near m4
    have h2 := mul_le_mul_of_nonneg_left r4' hu0
    nlinarith
  have r5 : |val (1 - Quat.two * T) * val K3| ≤ hi := by
    rw [abs_mul]
    have := mul_le_mul g1 k3' (abs_nonneg _) (by linarith)
    linarith
  have m5 := R.mul_err (a := 1 - Quat.two * T) (b := K3) r5
  have k1 := step_k1 h p1 m4 k3 m5
  set K1 : F := (1 - Quat.two * T) * K3 with hK1
  have h1 : |(S - 2) / S| ≤ 1 := by
    rw [abs_of_nonneg (div_nonneg (by linarith [h.S2]) (by linarith)), div_le_one (by linarith)]; linarith
  have k1' : |val K1| ≤ 2 := by
    have := abs_near k1
    linarith
  -- k0
  have r6 : |-val K1 - 1| ≤ 3 := by
    have : |-val K1 - 1| ≤ |-val K1| + |(1 : ℝ)| := abs_sub _ _
    rw [abs_neg, abs_one] at this
    linarith
  have m6 := R.sub_err (a := -K1) (b := (1 : F)) (by rw [R.one, R.neg]; linarith)
  rw [R.one, R.neg] at m6
  have k0 := step_k0 h k1 m6
  have k2 : |val (-K3) - 1 / S| ≤ 42 / 10 * u / S := by
    rw [R.neg, show -val K3 - 1 / S = -(val K3 - -1 / S) by ring, abs_neg]; exact k3
  have hn : Near u S (val (-K1 - 1)) (val K1) (val (-K3)) (val K3) := ⟨k0, k1, k2, k3⟩
  have hl := Filt.isLpf_new (val T) (val v) (by rw [← hS]; linarith) false
  have hx : (Filt.new .lpf (val T) (val v) false).x = -(S - 1) * val v := by
    rw [Filt.new_x _ _ (by rw [← hS]; linarith), hS]; ring
  refine ⟨rfl, rfl, hn, ?_, ?_, ?_, ?_, ?_, ?_, ?_⟩
  · rw [hl.k0]; congr 1; rw [hS]; ring
  · rw [hl.k1]; congr 1; rw [hS]; ring
  · rw [hl.k2]
  · rw [hl.k3]
  · rw [hx, abs_mul, abs_neg, abs_of_nonneg (by linarith)]
    exact mul_le_mul_of_nonneg_left hv (by linarith)
  · rw [hx]
    exact near_set R h hhi hn hv
  · show |val v - val v| ≤ _
    rw [sub_self, abs_zero]
    positivity

end RFilt

open RFilt in
/-- C173: the machine's low-pass filter, with a time constant of at least 1/2 and inputs up to `M`, differs from exact
smoothing of the same inputs never by more than `20 u (1 + 2 T) M`, however many inputs there are. -/
theorem C173_no_accumulation {F : Type} [Zero F] [One F] [Neg F] [Add F] [Sub F] [Mul F] [Div F] [NatCast F] [Transc F]
    [HasRemainder F] {val : F → ℝ} {u η hi M : ℝ} (R : RoundedGeom F val u η hi) (h2 : val Quat.two = 2) (T out0 : F)
    (hT : 1 / 2 ≤ val T) (hu : u ≤ 1 / 100) (huT : 16 * u * (1 + 2 * val T) ≤ 1) (hη : η * (1 + 2 * val T) ≤ u)
    (hM : 1 ≤ M) (hhi : 10 * (1 + 2 * val T) * M ≤ hi) (h0 : |val out0| ≤ M) (cs : List (Filt.Use F))
    (hcs : ∀ c ∈ cs, |val c.arg| ≤ M) :
    |val ((Filt.new .lpf T out0 false).useAll cs).out -
      ((Filt.new .lpf (val T) (val out0) false).useAll (cs.map (Filt.Use.map val))).out| ≤
      20 * u * (1 + 2 * val T) * M := by
  have hs : Sizes u η (1 + 2 * val T) M :=
    ⟨R.unit_nonneg, R.under_nonneg, hu, by linarith, hM, hη, by linarith⟩
  have key : ∀ (cs : List (Filt.Use F)) (f : Filt F) (g : Filt ℝ), (∀ c ∈ cs, |val c.arg| ≤ M) →
      Tracks val u (1 + 2 * val T) M f g →
      Tracks val u (1 + 2 * val T) M (f.useAll cs) (g.useAll (cs.map (Filt.Use.map val))) := by
    intro cs
    induction cs with
    | nil => intro f g _ ht; exact ht
    | cons c cs ih =>
      intro f g hc ht
      have hcc := hc c List.mem_cons_self
      refine ih (f.use c) (g.use (c.map val)) (fun c' hc' => hc c' (List.mem_cons_of_mem _ hc')) ?_
      cases c with
      | set v => exact tracks_set R hs hhi ht hcc
      | input v => exact tracks_input R hs hhi ht hcc
  exact (key cs _ _ hcs (tracks_new R h2 hs hhi h0)).out

/-- C173: in particular the output stays, up to this error, in every range that holds the inputs and the initial value. -/
theorem C173_stays_in_range {F : Type} [Zero F] [One F] [Neg F] [Add F] [Sub F] [Mul F] [Div F] [NatCast F] [Transc F]
    [HasRemainder F] {val : F → ℝ} {u η hi M : ℝ} (R : RoundedGeom F val u η hi) (h2 : val Quat.two = 2) (T out0 : F)
    (hT : 1 / 2 ≤ val T) (hu : u ≤ 1 / 100) (huT : 16 * u * (1 + 2 * val T) ≤ 1) (hη : η * (1 + 2 * val T) ≤ u)
    (hM : 1 ≤ M) (hhi : 10 * (1 + 2 * val T) * M ≤ hi) {a b : ℝ} (ha : -M ≤ a) (hb : b ≤ M) (h0 : a ≤ val out0 ∧ val out0 ≤ b)
    (vs : List F) (hvs : ∀ v ∈ vs, a ≤ val v ∧ val v ≤ b) :
    let y := val ((Filt.new .lpf T out0 false).useAll (vs.map .input)).out
    a - 20 * u * (1 + 2 * val T) * M ≤ y ∧ y ≤ b + 20 * u * (1 + 2 * val T) * M := by
  intro y
  have key := C173_no_accumulation R h2 T out0 hT hu huT hη hM hhi (abs_le.2 ⟨by linarith, by linarith⟩) (vs.map .input)
    (by
      intro c hc
      obtain ⟨v, hv, rfl⟩ := List.mem_map.1 hc
      exact abs_le.2 ⟨by linarith [(hvs v hv).1, show val (Filt.Use.input v).arg = val v from rfl],
        by linarith [(hvs v hv).2, show val (Filt.Use.input v).arg = val v from rfl]⟩)
  have e : ∀ (vs : List F) (g : Filt ℝ), g.useAll ((vs.map Filt.Use.input).map (Filt.Use.map val)) = g.feed (vs.map val) := by
    intro vs
    induction vs with
    | nil => intro g; rfl
    | cons v vs ih => intro g; exact ih _
  rw [e] at key
  have := Filt.C47_no_overshoot (val T) (val out0) a b hT h0 (vs.map val)
    (by intro v hv; obtain ⟨w, hw, rfl⟩ := List.mem_map.1 hv; exact hvs w hw)
  obtain ⟨k1, k2⟩ := abs_le.1 key
  exact ⟨by linarith [this.1, show (Filt.feed (Filt.new .lpf (val T) (val out0) false) (vs.map val)).get = (Filt.feed (Filt.new .lpf (val T) (val out0) false) (vs.map val)).out from rfl],
    by linarith [this.2, show (Filt.feed (Filt.new .lpf (val T) (val out0) false) (vs.map val)).get = (Filt.feed (Filt.new .lpf (val T) (val out0) false) (vs.map val)).out from rfl]⟩

/-! ## With 24 binary digits and the node's default filter -/

open RoundedGeom

noncomputable instance : HasRemainder Cut24 where
  remainder := fun a b => ⟨cut 24 (HasRemainder.remainder a.v b.v)⟩

theorem cut24_two : Cut24.v Quat.two = 2 := by
  show cut 24 ((2 : ℕ) : ℝ) = 2
  have h0 : (0 : ℝ) ≤ ((2 : ℕ) : ℝ) := by norm_num
  rw [cut, if_pos h0]
  push_cast
  have h1 := PF.trunc_le 24 (2 : ℝ)
  have h2 := PF.zpow_le_trunc 24 (by norm_num) (x := (2 : ℝ)) (by norm_num)
  have h3 : Int.log 2 (2 : ℝ) = 1 := by
    have h := Int.log_natCast (R := ℝ) 2 2
    rw [Nat.cast_ofNat] at h
    rw [h]
    norm_num
  rw [h3] at h2
  norm_num at h2
  linarith

/-- The node's default time constant, 16 steps, for positions up to 100 m and any number of steps: the error stays below
8 mm with this arithmetic. -/
example (vs : List Cut24) (hvs : ∀ v ∈ vs, |v.v| ≤ 100) :
    |((Filt.new .lpf (⟨16⟩ : Cut24) ⟨0⟩ false).useAll (vs.map .input)).out.v -
      ((Filt.new .lpf (16 : ℝ) 0 false).useAll ((vs.map .input).map (Filt.Use.map Cut24.v))).out| ≤ 8 / 1000 := by
  have h := C173_no_accumulation (M := 100) (cut24 33000) cut24_two ⟨16⟩ ⟨0⟩ (by norm_num) (by norm_num) (by norm_num) (by norm_num)
    (by norm_num) (by norm_num) (by norm_num) (vs.map .input)
    (by intro c hc; obtain ⟨v, hv, rfl⟩ := List.mem_map.1 hc; exact hvs v hv)
  refine h.trans ?_
  norm_num

example : ∃ vs : List Cut24, vs.length = 1000000 ∧ ∀ v ∈ vs, |v.v| ≤ 100 :=
  ⟨List.replicate 1000000 ⟨50⟩, List.length_replicate, fun v hv => by rw [List.eq_of_mem_replicate hv]; norm_num⟩

end Mcl3dl
