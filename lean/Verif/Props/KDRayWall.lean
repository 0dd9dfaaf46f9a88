import Verif.Props.KDRayHits

/-! # Property C145: the incidence sine of a ray against a flat wall -/

set_option linter.unusedSectionVars false

namespace Mcl3dl
namespace KDRay
open DDA (len rayPoint)

/-- The point of the plane `n · x = c` (unit normal `n`) nearest to `x`. -/
noncomputable def foot (n : Vec3 ℝ) (c : ℝ) (x : Vec3 ℝ) : Vec3 ℝ :=
  ⟨x.x - (x.dot n - c) * n.x, x.y - (x.dot n - c) * n.y, x.z - (x.dot n - c) * n.z⟩

/-- The sine of the angle between the ray from `b` to `e` and the plane with unit normal `n`. -/
noncomputable def incidence (n b e : Vec3 ℝ) : ℝ := |(e - b).dot n| / len (e - b)

/-- Pythagoras for a point of the plane. -/
theorem dist_plane {n x p : Vec3 ℝ} {c : ℝ} (hn : n.dot n = 1) (hp : p.dot n = c) :
    weightedDist ⟨1, 1, 1⟩ x p = (x.dot n - c) ^ 2 + weightedDist ⟨1, 1, 1⟩ (foot n c x) p := by
  simp only [weightedDist, foot, Vec3.dot] at *
  subst hp
  generalize hk : x.x * n.x + x.y * n.y + x.z * n.z - (p.x * n.x + p.y * n.y + p.z * n.z) = k
  linear_combination (-k ^ 2) * hn + 2 * k * hk

/-- The distance from `x` to the nearest point of a wall that has a point within `ρ` of the foot of `x`. -/
theorem nearest_wall {n x p : Vec3 ℝ} {c ρ : ℝ} {cloud : List (Vec3 ℝ)} (hn : n.dot n = 1) (hρ : 0 ≤ ρ)
    (hwall : ∀ y ∈ cloud, y.dot n = c) (hp : p ∈ cloud)
    (hmin : ∀ y ∈ cloud, weightedDist ⟨1, 1, 1⟩ x p ≤ weightedDist ⟨1, 1, 1⟩ x y)
    (hdense : ∃ y ∈ cloud, weightedDist ⟨1, 1, 1⟩ (foot n c x) y ≤ ρ ^ 2) :
    |x.dot n - c| ≤ Real.sqrt (weightedDist ⟨1, 1, 1⟩ x p) ∧
    Real.sqrt (weightedDist ⟨1, 1, 1⟩ x p) ≤ |x.dot n - c| + ρ := by
  obtain ⟨y, hy, hyρ⟩ := hdense
  have h0 : 0 ≤ weightedDist ⟨1, 1, 1⟩ (foot n c x) p := by unfold weightedDist; positivity
  constructor
  · rw [← Real.sqrt_sq_eq_abs]
    refine Real.sqrt_le_sqrt ?_
    rw [dist_plane hn (hwall p hp)]; linarith
  · rw [Real.sqrt_le_left (by positivity)]
    refine (hmin y hy).trans ?_
    rw [dist_plane hn (hwall y hy)]
    nlinarith [abs_nonneg (x.dot n - c), sq_abs (x.dot n - c)]

/-- Two numbers of the same sign. -/
theorem same_side {x y : ℝ} (h : 0 ≤ x * y) : |x - y| = |(|x| - |y|)| := by
  rcases mul_nonneg_iff.1 h with ⟨hx, hy⟩ | ⟨hx, hy⟩
  · rw [abs_of_nonneg hx, abs_of_nonneg hy]
  · rw [abs_of_nonpos hx, abs_of_nonpos hy, ← abs_neg]; congr 1; ring

theorem rayPoint_dot (n b e : Vec3 ℝ) (t : ℝ) :
    (rayPoint b e t).dot n = b.dot n + t * ((e - b).dot n / len (e - b)) := by
  show (b.x + t * ((e.x - b.x) / len (e - b))) * n.x + (b.y + t * ((e.y - b.y) / len (e - b))) * n.y +
    (b.z + t * ((e.z - b.z) / len (e - b))) * n.z = b.x * n.x + b.y * n.y + b.z * n.z +
    t * (((e.x - b.x) * n.x + (e.y - b.y) * n.y + (e.z - b.z) * n.z) / len (e - b))
  ring

/-- C145: a ray against a flat wall.  All map points lie in the plane `n · x = c`; unit axis weights.  Take a collision
at distance `t = (k + 1) step` from the begin.  If the wall has a point within `ρ` of the feet (on the plane) of the
sample and of the point two steps before, then the reported sine exceeds the sine of the angle between ray and wall by at
most `ρ / (2 step)`; and if both lie on the same side of the wall, it differs from it by at most that. -/
theorem C145_flat_wall {cfg : Cfg} (hg : 0 < stepOf cfg) {cloud : List (Vec3 ℝ)}
    {search : Vec3 ℝ → ℝ → Outcome (List (ℕ × ℝ))} (hsearch : ExactOver cfg cloud ⟨1, 1, 1⟩ search) {b e : Vec3 ℝ}
    (hne : 0 < len (e - b)) {s : St} (hs : setRay cfg b e = .ok s) {m : ℕ} {l : List (Option CastResult)} {s' : St}
    (hl : nexts cfg search cloud.length m s = .ok (l, s')) {n : Vec3 ℝ} {c ρ : ℝ} (hn : n.dot n = 1) (hρ : 0 ≤ ρ)
    (hwall : ∀ y ∈ cloud, y.dot n = c) {k : ℕ} {res : CastResult} (hk : l[k]? = some (some res))
    (hcol : res.collision = true)
    (hd1 : ∃ y ∈ cloud, weightedDist ⟨1, 1, 1⟩ (foot n c (rayPoint b e ((k + 1) * stepOf cfg))) y ≤ ρ ^ 2)
    (hd2 : ∃ y ∈ cloud, weightedDist ⟨1, 1, 1⟩ (foot n c (rayPoint b e ((k + 1) * stepOf cfg - 2 * stepOf cfg))) y ≤ ρ ^ 2) :
    res.sinAngle ≤ incidence n b e + ρ / (2 * stepOf cfg) ∧
    (0 ≤ ((rayPoint b e ((k + 1) * stepOf cfg)).dot n - c) * ((rayPoint b e ((k + 1) * stepOf cfg - 2 * stepOf cfg)).dot n - c) →
      |res.sinAngle - incidence n b e| ≤ ρ / (2 * stepOf cfg)) := by
  obtain ⟨rs, s2, h1, h2, h3⟩ := C65_results hsearch hne hs m
  rw [hl] at h1
  simp only [Outcome.ok.injEq, Prod.mk.injEq] at h1
  obtain ⟨rfl, rfl⟩ := h1
  have hklt : k < rs.length := by
    by_contra hge
    push _root_.Not at hge
    rw [List.getElem?_append_right (by simpa using hge)] at hk
    have := List.mem_of_getElem? hk
    simp at this
  rw [List.getElem?_append_left (by simpa using hklt)] at hk
  have hres : rs[k] = res := by
    rw [List.getElem?_map, List.getElem?_eq_getElem hklt] at hk
    simpa using hk
  have hr := h3 k hklt
  rw [hres] at hr
  rw [stepOf_eq] at *
  obtain ⟨-, -, -, hc⟩ := C107_sin_unit_weights hg hsearch hne hr
  obtain ⟨p, hp, q, hq, prev, hprev, hpmin, hqmin, hsin⟩ := hc hcol
  have hprev' : prev = rayPoint b e ((k + 1) * cfg.gridMin - 2 * cfg.gridMin) := by
    rw [hprev]
    have : ∀ i : Fin 3, (rayPoint b e ((k + 1) * cfg.gridMin) - ((e - b).normalized.smul cfg.gridMin).smul 2).get i =
        (rayPoint b e ((k + 1) * cfg.gridMin - 2 * cfg.gridMin)).get i := by
      intro i
      rw [DDA.get_sub, DDA.get_smul, DDA.get_smul, DDA.rayPoint_get, DDA.rayPoint_get]; ring
    exact Vec3.ext (this 0) (this 1) (this 2)
  subst hprev'
  set g := cfg.gridMin with hgdef
  set P := rayPoint b e ((k + 1) * g) with hP
  set Q := rayPoint b e ((k + 1) * g - 2 * g) with hQ
  obtain ⟨a1, a2⟩ := nearest_wall hn hρ hwall hp hpmin hd1
  obtain ⟨b1, b2⟩ := nearest_wall hn hρ hwall hq hqmin hd2
  have hdiff : (P.dot n - c) - (Q.dot n - c) = 2 * g * ((e - b).dot n / len (e - b)) := by
    rw [hP, hQ, rayPoint_dot, rayPoint_dot]; ring
  have hinc : incidence n b e * (2 * g) = |(P.dot n - c) - (Q.dot n - c)| := by
    rw [hdiff, abs_mul, abs_div, abs_of_pos hne, abs_of_pos (by positivity : 0 < 2 * g)]
    unfold incidence; ring
  set u := Real.sqrt (weightedDist ⟨1, 1, 1⟩ Q q)
  set v := Real.sqrt (weightedDist ⟨1, 1, 1⟩ P p)
  have hs' : res.sinAngle * (2 * g) = |u - v| := by
    rw [hsin]; field_simp
  have hρ' : ρ / (2 * g) * (2 * g) = ρ := by field_simp
  have h2g : 0 < 2 * g := by positivity
  have habs := abs_abs_sub_abs_le (Q.dot n - c) (P.dot n - c)
  rw [abs_sub_comm (Q.dot n - c)] at habs
  have hup : |u - v| ≤ |(P.dot n - c) - (Q.dot n - c)| + ρ := by
    have := abs_le.1 habs
    rw [abs_le]; constructor <;> linarith
  refine ⟨?_, fun hside => ?_⟩
  · rw [← mul_le_mul_iff_left₀ h2g, add_mul, hinc, hs', hρ']; exact hup
  · have heq : |(P.dot n - c) - (Q.dot n - c)| = |(|P.dot n - c| - |Q.dot n - c|)| := same_side hside
    have hlow : |(P.dot n - c) - (Q.dot n - c)| ≤ |u - v| + ρ := by
      rw [heq, abs_le]
      have := abs_le.1 (le_refl |u - v|)
      constructor <;> linarith
    have hm : |res.sinAngle - incidence n b e| * (2 * g) ≤ ρ := by
      rw [show |res.sinAngle - incidence n b e| * (2 * g) = |(res.sinAngle - incidence n b e) * (2 * g)| by
        rw [abs_mul, abs_of_pos h2g], sub_mul, hinc, hs', abs_le]
      constructor <;> linarith
    rw [le_div_iff₀ h2g]; exact hm

/-- A ray of length 10 in direction (4/5, 3/5, 0) against the wall x = 4, which has points at the two feet: the fifth
result is a collision and its sine is exactly 4/5. -/
example : ∃ (cfg : Cfg) (cloud : List (Vec3 ℝ)) (search : Vec3 ℝ → ℝ → Outcome (List (ℕ × ℝ))) (b e : Vec3 ℝ) (s s' : St)
    (l : List (Option CastResult)) (res : CastResult), 0 < stepOf cfg ∧ ExactOver cfg cloud ⟨1, 1, 1⟩ search ∧
    0 < len (e - b) ∧ setRay cfg b e = .ok s ∧ nexts cfg search cloud.length 9 s = .ok (l, s') ∧ l[4]? = some (some res) ∧
    res.collision = true ∧ res.sinAngle = 4 / 5 := by
  have hlen : len ((⟨8, 6, 0⟩ : Vec3 ℝ) - ⟨0, 0, 0⟩) = 10 := by
    show Real.sqrt ((8 - 0) ^ 2 + (6 - 0) ^ 2 + (0 - 0) ^ 2) = 10
    rw [show ((8:ℝ) - 0) ^ 2 + (6 - 0) ^ 2 + (0 - 0) ^ 2 = 10 ^ 2 by norm_num, Real.sqrt_sq (by norm_num)]
  have hstep : stepOf ⟨1, 1, 1, 1/2⟩ = 1 := by rw [stepOf_eq]; simp [Cfg.gridMin]
  have hlarge : largest ⟨1, 1, 1, 1/2⟩ = 1 := by rw [largest_eq]; simp [Cfg.gridMax]
  have hfl : ⌊((10:ℝ) + 1 / 2) / 1⌋ = 10 := by norm_num [Int.floor_eq_iff]
  have hray : ∀ t, rayPoint ⟨0, 0, 0⟩ ⟨8, 6, 0⟩ t = ⟨4 / 5 * t, 3 / 5 * t, 0⟩ := by
    intro t; unfold rayPoint; rw [hlen]; simp only [Vec3.mk.injEq]; refine ⟨?_, ?_, ?_⟩ <;> ring
  obtain ⟨search, hsearch⟩ := exactOver_exists ⟨1, 1, 1, 1/2⟩ [⟨4, 3, 0⟩, ⟨4, 9/5, 0⟩] ⟨1, 1, 1⟩
  have hne : 0 < len ((⟨8, 6, 0⟩ : Vec3 ℝ) - ⟨0, 0, 0⟩) := by rw [hlen]; norm_num
  obtain ⟨s, hs⟩ : ∃ s, setRay ⟨1, 1, 1, 1/2⟩ ⟨0, 0, 0⟩ ⟨8, 6, 0⟩ = .ok s := by
    unfold setRay
    rw [← stepOf_eq, hstep, if_neg (by norm_num), DDA.norm_eq_len, hlen, hfl]
    have : DDA.i32 10 = .ok 10 := by simp [DDA.i32]
    rw [this, Outcome.bind_ok, if_neg]
    · exact ⟨_, rfl⟩
    · show ¬ ((8:ℝ) - 0) * (8 - 0) + (6 - 0) * (6 - 0) + (0 - 0) * (0 - 0) = 0
      norm_num
  obtain ⟨rs, s', h1, h2, h3⟩ := C107_samples hsearch hne hs 9
  rw [hlen, hstep, hfl] at h2
  have hl9 : rs.length = 9 := by rw [h2]; rfl
  obtain ⟨hpos, hcol, -⟩ := h3 4 (by omega)
  have hc : rs[4].collision = true := by
    rw [hcol, hpos, hray, hlarge, hstep]
    exact ⟨⟨4, 3, 0⟩, by simp, by norm_num [weightedDist]⟩
  have hl4 : (rs.map some ++ List.replicate (9 - rs.length) none)[4]? = some (some rs[4]) := by
    rw [List.getElem?_append_left (by simp; omega), List.getElem?_map, List.getElem?_eq_getElem (by omega)]; rfl
  refine ⟨_, _, search, _, _, s, s', _, rs[4], by rw [hstep]; norm_num, hsearch, hne, hs, h1, hl4, hc, ?_⟩
  have h := (C145_flat_wall (n := ⟨1, 0, 0⟩) (c := 4) (ρ := 0) (by rw [hstep]; norm_num) hsearch hne hs h1
    (by norm_num [Vec3.dot]) le_rfl (by intro y hy; simp at hy; rcases hy with rfl | rfl <;> norm_num [Vec3.dot]) hl4 hc
    ⟨⟨4, 3, 0⟩, by simp, by rw [hray, hstep]; norm_num [foot, weightedDist, Vec3.dot]⟩
    ⟨⟨4, 9/5, 0⟩, by simp, by rw [hray, hstep]; norm_num [foot, weightedDist, Vec3.dot]⟩).2
    (by rw [hray, hray, hstep]; norm_num [Vec3.dot])
  rw [zero_div, abs_nonpos_iff, sub_eq_zero] at h
  rw [h]
  unfold incidence
  rw [hlen]
  show |((8:ℝ) - 0) * 1 + (6 - 0) * 0 + (0 - 0) * 0| / 10 = 4 / 5
  norm_num

end KDRay
end Mcl3dl
