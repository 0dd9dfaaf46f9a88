import Verif.Proofs.RoundedGeom
import Verif.Proofs.Digits
import Verif.Props.PFStructural
import Verif.Props.QuatAlgebra

/-!
# C170: orientations do not drift by rounding

Particles are turned by floating-point quaternion products at every odometry message for as long as the node runs, and
disturbed at every resampling. Since each of these ends with `normalize()`, the length of an orientation stays within a
fixed multiple of the rounding unit of 1, whatever the number of steps.
-/

set_option linter.unusedSectionVars false

namespace Mcl3dl
namespace RoundedGeom

variable {F : Type} [Zero F] [One F] [Neg F] [Add F] [Sub F] [Mul F] [Div F] [NatCast F]
  [LT F] [DecidableLT F] [LE F] [DecidableLE F] [Transc F]
variable {val : F → ℝ} {u η hi : ℝ}

/-- C170: `normalize()` makes the squared length 1 up to 12 rounding units, from any length that is not far from 1. -/
theorem C170_normalize (R : RoundedGeom F val u η hi) (hhi : 100 ≤ hi) (hu : u ≤ 1 / 10000) (hη : η ≤ u / 100) (q : Quat F)
    (h1 : 1 / 2 ≤ (q.vals val).lengthSq) (h2 : (q.vals val).lengthSq ≤ 2) :
    |(q.normalized.vals val).lengthSq - 1| ≤ 12 * u := R.normalized_err hhi hu hη h1 h2

/-- C170: rotating by a quaternion of squared length `L` multiplies all lengths by `L`: what an orientation that is
off by `e` does to a scan. -/
theorem C170_scale (q : Quat ℝ) (v : Vec3 ℝ) {e : ℝ} (h : |q.lengthSq - 1| ≤ e) :
    |(q.rotate v).norm - v.norm| ≤ e * v.norm := by
  have h0 : 0 ≤ q.lengthSq := by unfold Quat.lengthSq; positivity
  have hd : (q.rotate v).dot (q.rotate v) = q.lengthSq ^ 2 * v.dot v := by
    simp only [Quat.lengthSq, Vec3.dot, Quat.rotate_x, Quat.rotate_y, Quat.rotate_z]; ring
  have hn : (q.rotate v).norm = q.lengthSq * v.norm := by
    show Real.sqrt ((q.rotate v).dot (q.rotate v)) = q.lengthSq * Real.sqrt (v.dot v)
    rw [hd, Real.sqrt_mul (sq_nonneg _), Real.sqrt_sq h0]
  have hv : 0 ≤ v.norm := Real.sqrt_nonneg _
  rw [hn, show q.lengthSq * v.norm - v.norm = (q.lengthSq - 1) * v.norm by ring, abs_mul, abs_of_nonneg hv]
  exact mul_le_mul_of_nonneg_right h hv

/-- the normalised vertical axis -/
theorem axis_near (R : RoundedGeom F val u η hi) (hhi : 100 ≤ hi) (hu : u ≤ 1 / 10000) (hη : η ≤ u / 100) :
    |val ((0 : F) / Vec3.norm (⟨0, 0, 1⟩ : Vec3 F))| ≤ 1 / 1000000 ∧ 0.998 ≤ val ((1 : F) / Vec3.norm (⟨0, 0, 1⟩ : Vec3 F)) ∧
      val ((1 : F) / Vec3.norm (⟨0, 0, 1⟩ : Vec3 F)) ≤ 1.002 := by
  have hu0 := R.unit_nonneg
  have hη0 := R.under_nonneg
  have m0 : |val ((0 : F) * 0)| ≤ η := by
    have := R.mul_err (a := (0 : F)) (b := 0) (by rw [R.zero]; norm_num; linarith)
    simpa [R.zero] using this
  have m1 : |val ((1 : F) * 1) - 1| ≤ u + η := by
    have := R.mul_err (a := (1 : F)) (b := 1) (by rw [R.one]; norm_num; linarith)
    simpa [R.one] using this
  have s0 := R.add_chain hhi (a := (0 : F) * 0) (b := (0 : F) * 0) (A := 0) (B := 0) (α := η) (β := η) (by simpa using m0)
    (by simpa using m0) (by norm_num; linarith)
  have s0' : |val ((0 : F) * 0 + 0 * 0) - 0| ≤ u / 10 := by
    norm_num at s0 ⊢
    have : u * (η + η) ≤ 1 * (η + η) := mul_le_mul_of_nonneg_right (by linarith) (by linarith)
    linarith
  have s1 := R.add_chain hhi s0' m1 (by norm_num; linarith)
  have s1' : |val ((⟨0, 0, 1⟩ : Vec3 F).dot ⟨0, 0, 1⟩) - 1| ≤ 3 * u := by
    have e : (⟨0, 0, 1⟩ : Vec3 F).dot ⟨0, 0, 1⟩ = (0 : F) * 0 + 0 * 0 + 1 * 1 := rfl
    rw [e]
    norm_num at s1 ⊢
    have : u * (1 + u / 10 + (u + η)) ≤ u * 1.1 := mul_le_mul_of_nonneg_left (by linarith) hu0
    linarith
  obtain ⟨d1, d2⟩ := abs_le.1 s1'
  have hDpos : 0 < val ((⟨0, 0, 1⟩ : Vec3 F).dot ⟨0, 0, 1⟩) := by linarith
  obtain ⟨δ, hδ, hn⟩ := R.sqrt _ hDpos.le (by linarith)
  have hn' : val (Vec3.norm (⟨0, 0, 1⟩ : Vec3 F)) = _ := hn
  obtain ⟨l1, l2⟩ := abs_le.1 hδ
  have q1 : Real.sqrt (val ((⟨0, 0, 1⟩ : Vec3 F).dot ⟨0, 0, 1⟩)) ≤ 1.001 := by
    rw [Real.sqrt_le_left (by norm_num)]; linarith
  have q2 : 0.999 ≤ Real.sqrt (val ((⟨0, 0, 1⟩ : Vec3 F).dot ⟨0, 0, 1⟩)) := by
    apply Real.le_sqrt_of_sq_le; linarith
  have n1 : val (Vec3.norm (⟨0, 0, 1⟩ : Vec3 F)) ≤ 1.0012 := by rw [hn']; nlinarith
  have n2 : 0.9988 ≤ val (Vec3.norm (⟨0, 0, 1⟩ : Vec3 F)) := by rw [hn']; nlinarith
  set n := Vec3.norm (⟨0, 0, 1⟩ : Vec3 F)
  have npos : 0 < val n := by linarith
  -- the scaled axis
  obtain ⟨δ1, ε1, e1, e2, hx⟩ := R.div 0 n npos.ne' (by rw [R.zero]; norm_num; linarith)
  rw [R.zero, zero_div, zero_mul, zero_add] at hx
  have hinv : 1 / val n ≤ 1.0013 := by rw [div_le_iff₀ npos]; linarith
  have hinv' : 0.9987 ≤ 1 / val n := by rw [le_div_iff₀ npos]; linarith
  obtain ⟨δ2, ε2, e3, e4, hz⟩ := R.div 1 n npos.ne' (by rw [R.one, abs_of_pos (by positivity)]; linarith)
  rw [R.one] at hz
  obtain ⟨j1, j2⟩ := abs_le.1 e3
  obtain ⟨j3, j4⟩ := abs_le.1 e4
  have az1 : val ((1 : F) / n) ≤ 1.002 := by rw [hz]; nlinarith
  have az2 : 0.998 ≤ val ((1 : F) / n) := by rw [hz]; nlinarith
  exact ⟨by rw [hx]; linarith, az2, az1⟩

theorem sq_change {x s : ℝ} (h : |x - s| ≤ 0.003) (hs : |s| ≤ 1.01) : |x ^ 2 - s ^ 2| ≤ 0.01 := by
  obtain ⟨a1, a2⟩ := abs_le.1 h
  obtain ⟨b1, b2⟩ := abs_le.1 hs
  rw [abs_le]; constructor <;> nlinarith

/-- the turn about the vertical axis by the yaw error -/
theorem yaw_near (R : RoundedGeom F val u η hi) (hhi : 100 ≤ hi) (hu : u ≤ 1 / 10000) (hη : η ≤ u / 100) (ang : F) :
    |((Quat.ofAxisAng (⟨0, 0, 1⟩ : Vec3 F) ang).vals val).lengthSq - 1| ≤ 12 * u := by
  have hu0 := R.unit_nonneg
  have hη0 := R.under_nonneg
  obtain ⟨ax, az2, az1⟩ := R.axis_near hhi hu hη
  have hdef : Quat.ofAxisAng (⟨0, 0, 1⟩ : Vec3 F) ang = Quat.normalized
    ⟨(0 : F) / Vec3.norm (⟨0, 0, 1⟩ : Vec3 F) * Transc.sin (ang / (Quat.two : F)),
     (0 : F) / Vec3.norm (⟨0, 0, 1⟩ : Vec3 F) * Transc.sin (ang / (Quat.two : F)),
     (1 : F) / Vec3.norm (⟨0, 0, 1⟩ : Vec3 F) * Transc.sin (ang / (Quat.two : F)), Transc.cos (ang / (Quat.two : F))⟩ := rfl
  rw [hdef]
  generalize Vec3.norm (⟨0, 0, 1⟩ : Vec3 F) = n at *
  -- the components
  have hc := abs_le.1 (R.circle (ang / (Quat.two : F)))
  generalize Transc.sin (ang / (Quat.two : F)) = s at *
  generalize Transc.cos (ang / (Quat.two : F)) = c at *
  have ps := sq_nonneg (val s); have pc := sq_nonneg (val c)
  have hs1 : |val s| ≤ 1.01 := abs_le.2 (abs_le_of_sq_le_sq' (by norm_num; linarith [hc.2] : val s ^ 2 ≤ (1.01 : ℝ) ^ 2) (by norm_num))
  have px : |val ((0 : F) / n) * val s| ≤ 1 / 1000000 * 1.01 := by
    rw [abs_mul]; exact mul_le_mul ax hs1 (abs_nonneg _) (by norm_num)
  have vx : |val ((0 : F) / n * s)| ≤ 1 / 100000 := by
    have := R.mul_err (a := (0 : F) / n) (b := s) (by linarith)
    have h := abs_add_le (val ((0 : F) / n * s) - val ((0 : F) / n) * val s) (val ((0 : F) / n) * val s)
    rw [sub_add_cancel] at h
    have : u * |val ((0 : F) / n) * val s| ≤ 1 * |val ((0 : F) / n) * val s| :=
      mul_le_mul_of_nonneg_right (by linarith) (abs_nonneg _)
    linarith
  have pz : |val ((1 : F) / n) * val s| ≤ 1.02 := by
    rw [abs_mul]
    calc _ ≤ 1.002 * (1.01 : ℝ) := mul_le_mul (abs_le.2 ⟨by linarith, az1⟩) hs1 (abs_nonneg _) (by norm_num)
      _ ≤ 1.02 := by norm_num
  have vz : |val ((1 : F) / n * s) - val ((1 : F) / n) * val s| ≤ 2 * u := by
    have := R.mul_err (a := (1 : F) / n) (b := s) (by linarith)
    have : u * |val ((1 : F) / n) * val s| ≤ u * 1.02 := mul_le_mul_of_nonneg_left pz hu0
    linarith
  have vz2 : |val ((1 : F) / n * s) - val s| ≤ 0.003 := by
    have e : val ((1 : F) / n * s) - val s = (val ((1 : F) / n * s) - val ((1 : F) / n) * val s) + (val ((1 : F) / n) - 1) * val s := by
      ring
    rw [e]
    refine (abs_add_le _ _).trans ?_
    rw [abs_mul]
    have : |val ((1 : F) / n) - 1| ≤ 0.002 := abs_le.2 ⟨by linarith, by linarith⟩
    have := mul_le_mul this hs1 (abs_nonneg _) (by norm_num)
    linarith
  have z2 : |val ((1 : F) / n * s) ^ 2 - val s ^ 2| ≤ 0.01 := sq_change vz2 hs1
  have x2 : val ((0 : F) / n * s) ^ 2 ≤ 0.001 := by
    rw [← sq_abs]; nlinarith [abs_nonneg (val ((0 : F) / n * s))]
  have hlen : ((⟨(0 : F) / n * s, (0 : F) / n * s, (1 : F) / n * s, c⟩ : Quat F).vals val).lengthSq =
      val ((0 : F) / n * s) ^ 2 + val ((0 : F) / n * s) ^ 2 + val ((1 : F) / n * s) ^ 2 + val c ^ 2 := rfl
  obtain ⟨z3, z4⟩ := abs_le.1 z2
  have px2 := sq_nonneg (val ((0 : F) / n * s))
  refine R.normalized_err hhi hu hη (q := ⟨(0 : F) / n * s, (0 : F) / n * s, (1 : F) / n * s, c⟩) ?_ ?_
  · rw [hlen]; linarith [hc.1]
  · rw [hlen]; linarith [hc.2]

theorem near_mul (R : RoundedGeom F val u η hi) (hhi : 100 ≤ hi) (hu : u ≤ 1 / 10000) (hη : η ≤ u / 100) {a b : Quat F}
    {l h l' h' : ℝ} (a1 : l ≤ (a.vals val).lengthSq) (a2 : (a.vals val).lengthSq ≤ h) (b1 : l' ≤ (b.vals val).lengthSq)
    (b2 : (b.vals val).lengthSq ≤ h') (hl : 0 ≤ l) (hl' : 0 ≤ l') (hh : h ≤ 3 / 2) (hh' : h' ≤ 3 / 2) :
    l * l' - 0.0256 ≤ ((a * b).vals val).lengthSq ∧ ((a * b).vals val).lengthSq ≤ h * h' + 0.0256 := by
  obtain ⟨t1, t2⟩ := abs_le.1 (R.mul_lengthSq hhi hu hη (a := a) (b := b) (by linarith) (by linarith))
  have m1 : l * l' ≤ (a.vals val).lengthSq * (b.vals val).lengthSq := mul_le_mul a1 b1 hl' (by linarith)
  have m2 : (a.vals val).lengthSq * (b.vals val).lengthSq ≤ h * h' := mul_le_mul a2 b2 (by linarith) (by linarith)
  constructor <;> linarith

/-- one odometry message -/
theorem step_near (R : RoundedGeom F val u η hi) (hhi : 100 ≤ hi) (hu : u ≤ 1 / 10000) (hη : η ≤ u / 100) (m : Motion F)
    {prev cur s : State6 F} (dt : F) (hp : prev.rot.NearUnit val) (hc : cur.rot.NearUnit val) (hs : s.rot.NearUnit val) :
    |((m.stepParticle prev cur dt s).rot.vals val).lengthSq - 1| ≤ 12 * u := by
  have hu0 := R.unit_nonneg
  obtain ⟨p1, p2⟩ := abs_le.1 hp
  obtain ⟨c1, c2⟩ := abs_le.1 hc
  obtain ⟨s1, s2⟩ := abs_le.1 hs
  have hrot : ∃ y, (m.stepParticle prev cur dt s).rot =
      (Quat.ofAxisAng ⟨0, 0, 1⟩ y * s.rot * (prev.rot.inv * cur.rot)).normalized := ⟨_, rfl⟩
  obtain ⟨y, hrot⟩ := hrot
  rw [hrot]
  obtain ⟨y1, y2⟩ := abs_le.1 (R.yaw_near hhi hu hη y)
  obtain ⟨i1, i2⟩ := abs_le.1 (R.inv_lengthSq hhi hu hη (q := prev.rot) (by linarith) (by linarith))
  have I1 : 0.9 ≤ (prev.rot.inv.vals val).lengthSq := by
    by_contra h
    have := mul_le_mul_of_nonneg_right (le_of_not_ge h) (by linarith : 0 ≤ (prev.rot.vals val).lengthSq)
    linarith
  have I2 : (prev.rot.inv.vals val).lengthSq ≤ 1.115 := by
    by_contra h
    have := mul_le_mul_of_nonneg_right (le_of_not_ge h) (by linarith : 0 ≤ (prev.rot.vals val).lengthSq)
    linarith
  have hA := R.near_mul hhi hu hη (a := prev.rot.inv) (b := cur.rot) (l := 0.9) (h := 1.115) (l' := 0.9) (h' := 1.1) I1 I2
    (by linarith) (by linarith) (by norm_num) (by norm_num) (by norm_num) (by norm_num)
  have hB := R.near_mul hhi hu hη (a := Quat.ofAxisAng (⟨0, 0, 1⟩ : Vec3 F) y) (b := s.rot) (l := 0.99) (h := 1.01) (l' := 0.9)
    (h' := 1.1) (by linarith) (by linarith) (by linarith) (by linarith) (by norm_num) (by norm_num) (by norm_num) (by norm_num)
  have hT := R.near_mul hhi hu hη (a := Quat.ofAxisAng (⟨0, 0, 1⟩ : Vec3 F) y * s.rot) (b := prev.rot.inv * cur.rot) (l := 0.86)
    (h := 1.14) (l' := 0.78) (h' := 1.26) (by linarith [hB.1]) (by linarith [hB.2]) (by linarith [hA.1]) (by linarith [hA.2])
    (by norm_num) (by norm_num) (by norm_num) (by norm_num)
  exact R.normalized_err hhi hu hη (q := Quat.ofAxisAng (⟨0, 0, 1⟩ : Vec3 F) y * s.rot * (prev.rot.inv * cur.rot))
    (by linarith [hT.1]) (by linarith [hT.2])

/-- **C170**: after any number of odometry messages (whose orientations, like the particle's first one, have a squared
length within a tenth of 1) the squared length of the particle's orientation is within 12 rounding units of 1. The bound
does not grow with the number of messages. -/
theorem C170_no_drift (R : RoundedGeom F val u η hi) (hhi : 100 ≤ hi) (hu : u ≤ 1 / 10000) (hη : η ≤ u / 100) (m : Motion F)
    (prev s : State6 F) (msgs : List (State6 F × F)) (hp : prev.rot.NearUnit val) (hs : s.rot.NearUnit val)
    (hm : ∀ e ∈ msgs, e.1.rot.NearUnit val) (hne : msgs ≠ []) :
    |((m.run prev s msgs).rot.vals val).lengthSq - 1| ≤ 12 * u := by
  induction msgs generalizing m prev s with
  | nil => exact absurd rfl hne
  | cons e rest ih =>
    obtain ⟨cur, dt⟩ := e
    have hcur : cur.rot.NearUnit val := hm (cur, dt) List.mem_cons_self
    have h1 := R.step_near hhi hu hη m dt hp hcur hs
    rcases rest with _ | ⟨e2, rest⟩
    · exact h1
    · refine ih (m.setOdoms prev cur dt) cur (m.stepParticle prev cur dt s) hcur ?_ (fun e he => hm e (List.mem_cons_of_mem _ he))
        (List.cons_ne_nil _ _)
      exact h1.trans (by linarith)

/-- C170: a resampled particle has the orientation of an old one or, disturbed by a noise orientation of about unit
length, one whose squared length is within 12 rounding units of 1. -/
theorem C170_resample (R : RoundedGeom F val u η hi) (hhi : 100 ≤ hi) (hu : u ≤ 1 / 10000) (hη : η ≤ u / 100)
    (f : PF.Filter (State6 F) F) (dup : List (PF.Particle (State6 F) F)) (u0 : F) (noise : ℕ → State6 F)
    (hsort : PF.IsSorted (PF.accumulate 0 f.particles) dup) (hf : ∀ p ∈ f.particles, p.state.rot.NearUnit val)
    (hn : ∀ k, (noise k).rot.NearUnit val) :
    ∃ f', f.resample dup u0 noise = .ok f' ∧ f'.particles.length = f.particles.length ∧
      ∀ p' ∈ f'.particles, |(p'.state.rot.vals val).lengthSq - 1| ≤ 12 * u ∨ ∃ p ∈ f.particles, p'.state.rot = p.state.rot := by
  have hu0 := R.unit_nonneg
  obtain ⟨f', h1, h2, h3⟩ := PF.C16_resample_invents_nothing f dup u0 noise hsort
  refine ⟨f', h1, h2, fun p' hp' => ?_⟩
  obtain ⟨-, q, hq, hst | ⟨k, hst⟩⟩ := h3 p' hp'
  · exact Or.inr ⟨q, hq, by rw [hst]⟩
  · left
    have hrot : p'.state.rot = ((noise k).rot * q.state.rot).normalized := by rw [hst]; rfl
    rw [hrot]
    obtain ⟨a1, a2⟩ := abs_le.1 (hn k)
    obtain ⟨b1, b2⟩ := abs_le.1 (hf q hq)
    have hT := R.near_mul hhi hu hη (a := (noise k).rot) (b := q.state.rot) (l := 0.9) (h := 1.1) (l' := 0.9) (h' := 1.1)
      (by linarith) (by linarith) (by linarith) (by linarith) (by norm_num) (by norm_num) (by norm_num) (by norm_num)
    exact R.normalized_err hhi hu hη (q := (noise k).rot * q.state.rot) (by linarith [hT.1]) (by linarith [hT.2])

/-! ## An arithmetic with rounding: results cut off after 24 binary digits -/

/-- Keep `p` binary digits, towards zero. -/
noncomputable def cut (p : ℕ) (x : ℝ) : ℝ := if 0 ≤ x then PF.trunc p x else -PF.trunc p (-x)

theorem cut_error (p : ℕ) (x : ℝ) : ∃ δ : ℝ, |δ| ≤ 2 ^ (1 - (p : ℤ)) ∧ cut p x = x * (1 + δ) := by
  unfold cut
  split_ifs with h
  · exact PF.trunc_error p h
  · obtain ⟨δ, h1, h2⟩ := PF.trunc_error p (x := -x) (by linarith)
    exact ⟨δ, h1, by rw [h2]; ring⟩

/-- Numbers computed with 24 binary digits. -/
structure Cut24 where
  v : ℝ

namespace Cut24
noncomputable instance : Zero Cut24 := ⟨⟨0⟩⟩
noncomputable instance : One Cut24 := ⟨⟨1⟩⟩
noncomputable instance : Neg Cut24 := ⟨fun a => ⟨-a.v⟩⟩
noncomputable instance : Add Cut24 := ⟨fun a b => ⟨cut 24 (a.v + b.v)⟩⟩
noncomputable instance : Sub Cut24 := ⟨fun a b => ⟨cut 24 (a.v - b.v)⟩⟩
noncomputable instance : Mul Cut24 := ⟨fun a b => ⟨cut 24 (a.v * b.v)⟩⟩
noncomputable instance : Div Cut24 := ⟨fun a b => ⟨cut 24 (a.v / b.v)⟩⟩
noncomputable instance : NatCast Cut24 := ⟨fun n => ⟨cut 24 n⟩⟩
instance : LT Cut24 := ⟨fun a b => a.v < b.v⟩
instance : LE Cut24 := ⟨fun a b => a.v ≤ b.v⟩
noncomputable instance : DecidableLT Cut24 := fun a b => Classical.propDecidable (a.v < b.v)
noncomputable instance : DecidableLE Cut24 := fun a b => Classical.propDecidable (a.v ≤ b.v)
noncomputable instance : Transc Cut24 where
  sqrt := fun a => ⟨cut 24 (Real.sqrt a.v)⟩
  sin := fun a => ⟨cut 24 (Real.sin a.v)⟩
  cos := fun a => ⟨cut 24 (Real.cos a.v)⟩
  asin := fun a => ⟨cut 24 (Real.arcsin a.v)⟩
  acos := fun a => ⟨cut 24 (Real.arccos a.v)⟩
  atan2 := fun a b => ⟨cut 24 (Complex.arg ⟨b.v, a.v⟩)⟩
  pi := ⟨cut 24 Real.pi⟩
end Cut24

theorem cut24 (hi : ℝ) : RoundedGeom Cut24 Cut24.v (2 ^ (-23 : ℤ)) 0 hi where
  unit_nonneg := by positivity
  under_nonneg := le_rfl
  zero := rfl
  one := rfl
  neg := fun _ => rfl
  add := fun a b _ => cut_error 24 _
  sub := fun a b _ => cut_error 24 _
  mul := fun a b _ => by
    obtain ⟨δ, h1, h2⟩ := cut_error 24 (a.v * b.v)
    exact ⟨δ, 0, h1, by simp, by rw [add_zero]; exact h2⟩
  div := fun a b _ _ => by
    obtain ⟨δ, h1, h2⟩ := cut_error 24 (a.v / b.v)
    exact ⟨δ, 0, h1, by simp, by rw [add_zero]; exact h2⟩
  sqrt := fun a _ _ => cut_error 24 _
  circle := fun a => by
    obtain ⟨δ, h1, h2⟩ := cut_error 24 (Real.sin a.v)
    obtain ⟨δ', h3, h4⟩ := cut_error 24 (Real.cos a.v)
    have hb : ((2 : ℝ) ^ (1 - ((24 : ℕ) : ℤ))) ≤ 1 / 1000 := by norm_num
    obtain ⟨a1, a2⟩ := abs_le.1 (h1.trans hb)
    obtain ⟨a3, a4⟩ := abs_le.1 (h3.trans hb)
    show |cut 24 (Real.sin a.v) ^ 2 + cut 24 (Real.cos a.v) ^ 2 - 1| ≤ 1 / 100
    rw [h2, h4, mul_pow, mul_pow]
    have b1 : |(1 + δ) ^ 2 - 1| ≤ 3 / 1000 := by rw [abs_le]; constructor <;> nlinarith
    have b2 : |(1 + δ') ^ 2 - 1| ≤ 3 / 1000 := by rw [abs_le]; constructor <;> nlinarith
    obtain ⟨c1, c2⟩ := abs_le.1 b1
    obtain ⟨c3, c4⟩ := abs_le.1 b2
    have := Real.sin_sq_add_cos_sq a.v
    rw [abs_le]; constructor <;> nlinarith [sq_nonneg (Real.sin a.v), sq_nonneg (Real.cos a.v)]

/-- A million odometry messages alternating between two headings, in 24-digit arithmetic. -/
example (m : Motion Cut24) (s : State6 Cut24) (hs : s.rot = ⟨⟨0⟩, ⟨0⟩, ⟨0.6⟩, ⟨0.8⟩⟩) (msgs : List (State6 Cut24 × Cut24))
    (hlen : msgs.length = 1000000) (hm : ∀ e ∈ msgs, e.1.rot = ⟨⟨0⟩, ⟨0⟩, ⟨0.6⟩, ⟨0.8⟩⟩ ∨ e.1.rot = ⟨⟨0⟩, ⟨0⟩, ⟨0⟩, ⟨1⟩⟩) :
    |((m.run s s msgs).rot.vals Cut24.v).lengthSq - 1| ≤ 12 * 2 ^ (-23 : ℤ) := by
  have h1 : Quat.NearUnit Cut24.v (⟨⟨0⟩, ⟨0⟩, ⟨0.6⟩, ⟨0.8⟩⟩ : Quat Cut24) := by
    norm_num [Quat.NearUnit, Quat.vals, Quat.lengthSq]
  have h2 : Quat.NearUnit Cut24.v (⟨⟨0⟩, ⟨0⟩, ⟨0⟩, ⟨1⟩⟩ : Quat Cut24) := by
    norm_num [Quat.NearUnit, Quat.vals, Quat.lengthSq]
  refine C170_no_drift (cut24 100) le_rfl (by norm_num) (by positivity) m s s msgs (hs ▸ h1) (hs ▸ h1) (fun e he => ?_) ?_
  · rcases hm e he with h | h <;> rw [h]
    · exact h1
    · exact h2
  · rintro rfl; norm_num at hlen

/-- Its hypotheses are met by a particle and such a list of messages. -/
example : ∃ (s : State6 Cut24) (msgs : List (State6 Cut24 × Cut24)), msgs.length = 1000000 ∧ s.rot.NearUnit Cut24.v ∧
    ∀ e ∈ msgs, e.1.rot.NearUnit Cut24.v := by
  have h2 : Quat.NearUnit Cut24.v (⟨⟨0⟩, ⟨0⟩, ⟨0.6⟩, ⟨0.8⟩⟩ : Quat Cut24) := by
    norm_num [Quat.NearUnit, Quat.vals, Quat.lengthSq]
  refine ⟨State6.ofQuat 0 ⟨⟨0⟩, ⟨0⟩, ⟨0.6⟩, ⟨0.8⟩⟩,
    List.replicate 1000000 (State6.ofQuat 0 ⟨⟨0⟩, ⟨0⟩, ⟨0.6⟩, ⟨0.8⟩⟩, 0), List.length_replicate, h2, ?_⟩
  intro e he
  rw [List.eq_of_mem_replicate he]
  exact h2

/-- Resampling two particles of 24-digit numbers, with noise that turns by 74 degrees. -/
example (dup : List (PF.Particle (State6 Cut24) Cut24)) (p : PF.Particle (State6 Cut24) Cut24)
    (hp : p.state.rot = ⟨⟨0⟩, ⟨0⟩, ⟨0.6⟩, ⟨0.8⟩⟩) (hd : PF.IsSorted (PF.accumulate 0 [p, p]) dup) :
    ∃ f', PF.Filter.resample (⟨[p, p], none⟩ : PF.Filter (State6 Cut24) Cut24) dup ⟨0.1⟩ (fun _ => p.state) = .ok f' := by
  have h2 : p.state.rot.NearUnit Cut24.v := by
    rw [hp]; norm_num [Quat.NearUnit, Quat.vals, Quat.lengthSq]
  obtain ⟨f', h, -⟩ := C170_resample (cut24 100) le_rfl (by norm_num) (by positivity) ⟨[p, p], none⟩ dup ⟨0.1⟩ (fun _ => p.state) hd
    (fun q hq => by simp at hq; rw [hq]; exact h2) (fun _ => h2)
  exact ⟨f', h⟩

end RoundedGeom
end Mcl3dl
