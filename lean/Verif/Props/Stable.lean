import Verif.Spec.Stable
import Verif.Props.Concentrate
import Verif.Props.Smooth

/-! # C177: the posterior and the estimate depend stably on the likelihoods -/

set_option linter.unusedSectionVars false

namespace Mcl3dl
namespace PF

variable {S K ι : Type} [Field K] [LinearOrder K] [IsStrictOrderedRing K]

/-- The weights agree up to a common factor `κ` and a factor between `a` and `b`. -/
def Scaled (κ a b : K) (ps ps' : List (Particle S K)) : Prop :=
  List.Forall₂ (fun q q' => q'.state = q.state ∧ κ * a * q.prob ≤ q'.prob ∧ q'.prob ≤ κ * b * q.prob) ps ps'

theorem Scaled.sums {κ a b : K} {ps ps' : List (Particle S K)} (h : Scaled κ a b ps ps') (g : Particle S K → K)
    (g' : Particle S K → K) {A B : K} (hg : ∀ q ∈ ps, ∀ q', q'.state = q.state → κ * a * q.prob ≤ q'.prob → q'.prob ≤ κ * b * q.prob →
      A * g q ≤ g' q' ∧ g' q' ≤ B * g q) : A * (ps.map g).sum ≤ (ps'.map g').sum ∧ (ps'.map g').sum ≤ B * (ps.map g).sum := by
  induction h with
  | nil => simp
  | @cons q q' ps ps' hq _ ih =>
    have h1 := hg q List.mem_cons_self q' hq.1 hq.2.1 hq.2.2
    have h2 := ih fun x hx => hg x (List.mem_cons_of_mem _ hx)
    simp only [List.map_cons, List.sum_cons, mul_add]
    constructor <;> linarith [h1.1, h1.2, h2.1, h2.2]

theorem evidence_pos (ps : List (Particle S K)) (lik : S → K) (hnn : ∀ p ∈ ps, 0 ≤ p.prob) (hl : ∀ p ∈ ps, 0 < lik p.state)
    (hs : 0 < (ps.map Particle.prob).sum) : 0 < (ps.map fun p => p.prob * lik p.state).sum := by
  have hex : ∃ p ∈ ps, 0 < p.prob := by
    by_contra hc
    push _root_.Not at hc
    have : (ps.map Particle.prob).sum ≤ 0 := by
      clear hs hnn hl
      induction ps with
      | nil => simp
      | cons q ps ih =>
        rw [List.map_cons, List.sum_cons]
        linarith [hc q List.mem_cons_self, ih fun p hp => hc p (List.mem_cons_of_mem _ hp)]
    linarith
  obtain ⟨p, hp, hpos⟩ := hex
  have h1 : p.prob * lik p.state ≤ (ps.map fun p => p.prob * lik p.state).sum := by
    apply List.single_le_sum
    · intro x hx
      obtain ⟨q, hq, rfl⟩ := List.mem_map.1 hx
      exact mul_nonneg (hnn q hq) (hl q hq).le
    · exact List.mem_map_of_mem hp
  exact lt_of_lt_of_le (mul_pos hpos (hl p hp)) h1

theorem scaled_measure (log : K → K) {κ a b A B : K} (hκ : 0 < κ) (ha : 0 < a) (hA : 0 < A) (f f' : Filter S K)
    (hnn : ∀ p ∈ f.particles, 0 ≤ p.prob) (hs : 0 < (f.particles.map Particle.prob).sum)
    (h : Scaled κ A B f.particles f'.particles) {lik lik' : S → K} (hw : Within f.particles a b lik lik') :
    (∃ κ', 0 < κ' ∧ Scaled κ' (A * a) (B * b) (f.measure log lik).particles (f'.measure log lik').particles) ∧
    (∀ p ∈ (f.measure log lik).particles, 0 ≤ p.prob) ∧
    (f.measure log lik).particles.map Particle.state = f.particles.map Particle.state ∧
    ((f.measure log lik).particles.map Particle.prob).sum = 1 ∧
    ((f'.measure log lik').particles.map Particle.prob).sum = 1 := by
  have hE := evidence_pos f.particles lik hnn (fun p hp => (hw p hp).1) hs
  have pt : ∀ q ∈ f.particles, ∀ q' : Particle S K, q'.state = q.state → κ * A * q.prob ≤ q'.prob → q'.prob ≤ κ * B * q.prob →
      κ * (A * a) * (q.prob * lik q.state) ≤ q'.prob * lik' q'.state ∧
      q'.prob * lik' q'.state ≤ κ * (B * b) * (q.prob * lik q.state) := by
    intro q hq q' e l1 l2
    obtain ⟨w0, w1, w2⟩ := hw q hq
    rw [e]
    have n0 := hnn q hq
    have n1 : 0 ≤ q'.prob := le_trans (by positivity) l1
    have p1 : 0 ≤ lik' q.state := le_trans (by positivity) w1
    constructor
    · calc κ * (A * a) * (q.prob * lik q.state) = (κ * A * q.prob) * (a * lik q.state) := by ring
        _ ≤ q'.prob * lik' q.state := mul_le_mul l1 w1 (by positivity) n1
    · calc q'.prob * lik' q.state ≤ (κ * B * q.prob) * (b * lik q.state) := mul_le_mul l2 w2 p1 (n1.trans l2)
        _ = _ := by ring
  have sums := h.sums (fun p => p.prob * lik p.state) (fun p => p.prob * lik' p.state) (A := κ * (A * a)) (B := κ * (B * b)) pt
  have hE' : 0 < (f'.particles.map fun p => p.prob * lik' p.state).sum := lt_of_lt_of_le (by positivity) sums.1
  obtain ⟨m, s⟩ := C11_measure_bayes log f lik hE
  obtain ⟨m', s'⟩ := C11_measure_bayes log f' lik' hE'
  set E := (f.particles.map fun p => p.prob * lik p.state).sum
  set E' := (f'.particles.map fun p => p.prob * lik' p.state).sum
  refine ⟨⟨κ * E / E', by positivity, ?_⟩, ?_, ?_, s, s'⟩
  · rw [m, m']
    unfold Scaled at h ⊢
    rw [List.forall₂_map_left_iff, List.forall₂_map_right_iff]
    refine List.Forall₂.imp ?_ ((List.forall₂_and_left (p := fun p : Particle S K => p ∈ f.particles) f.particles f'.particles).2
      ⟨fun p hp => hp, h⟩)
    rintro q q' ⟨hq, e, l1, l2⟩
    obtain ⟨t1, t2⟩ := pt q hq q' e l1 l2
    refine ⟨e, ?_, ?_⟩
    · simp only
      rw [le_div_iff₀ hE']
      calc κ * E / E' * (A * a) * (q.prob * lik q.state / E) * E' = κ * (A * a) * (q.prob * lik q.state) := by
            field_simp
        _ ≤ _ := t1
    · simp only
      rw [div_le_iff₀ hE']
      calc q'.prob * lik' q'.state ≤ κ * (B * b) * (q.prob * lik q.state) := t2
        _ = κ * E / E' * (B * b) * (q.prob * lik q.state / E) * E' := by field_simp
  · intro p hp
    rw [m] at hp
    obtain ⟨q, hq, rfl⟩ := List.mem_map.1 hp
    exact div_nonneg (mul_nonneg (hnn q hq) (hw q hq).1.le) hE.le
  · rw [m, List.map_map]; rfl

theorem scaled_measureAll (log : K → K) {a b : K} (ha : 0 < a) {liks liks' : List (S → K)} :
    ∀ {κ A B : K} (f f' : Filter S K), 0 < κ → 0 < A → (∀ p ∈ f.particles, 0 ≤ p.prob) →
    0 < (f.particles.map Particle.prob).sum → (f'.particles.map Particle.prob).sum = (f.particles.map Particle.prob).sum →
    Scaled κ A B f.particles f'.particles → List.Forall₂ (Within f.particles a b) liks liks' →
    (∃ κ', 0 < κ' ∧ Scaled κ' (A * a ^ liks.length) (B * b ^ liks.length) (f.measureAll log liks).particles
      (f'.measureAll log liks').particles) ∧
    (∀ p ∈ (f.measureAll log liks).particles, 0 ≤ p.prob) ∧
    0 < ((f.measureAll log liks).particles.map Particle.prob).sum ∧
    ((f'.measureAll log liks').particles.map Particle.prob).sum = ((f.measureAll log liks).particles.map Particle.prob).sum := by
  induction liks generalizing liks' with
  | nil =>
    intro κ A B f f' hκ hA hnn hs heq h hl
    cases hl
    exact ⟨⟨κ, hκ, by simpa [Filter.measureAll] using h⟩, hnn, hs, heq⟩
  | cons l ls ih =>
    intro κ A B f f' hκ hA hnn hs heq h hl
    cases hl with
    | @cons _ l' _ ls' h1 h2 =>
      obtain ⟨⟨κ1, hκ1, hsc⟩, hnn1, hst, s1, s1'⟩ := scaled_measure log hκ ha hA f f' hnn hs h h1
      have hl1 : List.Forall₂ (Within (f.measure log l).particles a b) ls ls' := by
        refine h2.imp fun x y hxy p hp => ?_
        have : p.state ∈ (f.measure log l).particles.map Particle.state := List.mem_map_of_mem hp
        rw [hst] at this
        obtain ⟨q, hq, e⟩ := List.mem_map.1 this
        rw [← e]
        exact hxy q hq
      obtain ⟨⟨κ2, hκ2, hsc2⟩, r⟩ := ih (f.measure log l) (f'.measure log l') hκ1 (mul_pos hA ha) hnn1 (by rw [s1]; exact one_pos)
        (by rw [s1, s1']) hsc hl1
      refine ⟨⟨κ2, hκ2, ?_⟩, r⟩
      rw [List.length_cons, pow_succ', pow_succ', ← mul_assoc, ← mul_assoc]
      exact hsc2

theorem Scaled.close {κ a b : K} {ps ps' : List (Particle S K)} (hκ : 0 < κ) (ha : 0 < a) (h : Scaled κ a b ps ps')
    (hnn : ∀ p ∈ ps, 0 ≤ p.prob) (hs : 0 < (ps.map Particle.prob).sum)
    (he : (ps'.map Particle.prob).sum = (ps.map Particle.prob).sum) : Close a b ps ps' ∧ a ≤ b := by
  have sums := h.sums Particle.prob Particle.prob (A := κ * a) (B := κ * b) fun q _ q' _ h1 h2 => ⟨h1, h2⟩
  rw [he] at sums
  have k1 : κ * a ≤ 1 := by
    by_contra hc
    push _root_.Not at hc
    nlinarith [sums.1]
  have k2 : 1 ≤ κ * b := by
    by_contra hc
    push _root_.Not at hc
    nlinarith [sums.2]
  have hb : 0 < b := by
    by_contra hc
    push _root_.Not at hc
    nlinarith
  refine ⟨?_, by nlinarith⟩
  unfold Scaled at h
  refine List.Forall₂.imp ?_ ((List.forall₂_and_left (p := fun p : Particle S K => p ∈ ps) ps ps').2 ⟨fun p hp => hp, h⟩)
  rintro q q' ⟨hq, e, l1, l2⟩
  have n := hnn q hq
  refine ⟨e, ?_, ?_⟩
  · calc a * q.prob ≤ (κ * b) * (a * q.prob) := le_mul_of_one_le_left (by positivity) k2
      _ = b * (κ * a * q.prob) := by ring
      _ ≤ b * q'.prob := mul_le_mul_of_nonneg_left l1 hb.le
  · calc a * q'.prob ≤ a * (κ * b * q.prob) := mul_le_mul_of_nonneg_left l2 ha.le
      _ = (κ * a) * (b * q.prob) := by ring
      _ ≤ b * q.prob := mul_le_of_le_one_left (by positivity) k1

/-- **C177**: if in each of `n` measurements the likelihoods are known up to a factor between `a` and `b`, every posterior
weight is known up to the factor `(b/a)^n`; no weight can be off by more, whatever the number of particles. -/
theorem C177_weights (log : K → K) {a b : K} (ha : 0 < a) (f : Filter S K) (hnn : ∀ p ∈ f.particles, 0 ≤ p.prob)
    (hs : 0 < (f.particles.map Particle.prob).sum) {liks liks' : List (S → K)}
    (h : List.Forall₂ (Within f.particles a b) liks liks') :
    Close (a ^ liks.length) (b ^ liks.length) (f.measureAll log liks).particles (f.measureAll log liks').particles := by
  have h0 : Scaled 1 1 1 f.particles f.particles := by
    unfold Scaled
    rw [List.forall₂_same]
    intro p _; simp
  obtain ⟨⟨κ, hκ, hsc⟩, h1, h2, h3⟩ := scaled_measureAll log ha f f one_pos one_pos hnn hs rfl h0 h
  rw [one_mul, one_mul] at hsc
  exact (hsc.close hκ (pow_pos ha _) h1 h2 h3).1

theorem close_mean {a b lo hi : K} (ha : 0 < a) {ps ps' : List (Particle S K)} (h : Close a b ps ps') (hb : 0 < b)
    (hnn : ∀ p ∈ ps, 0 ≤ p.prob) (x : S → K) (hx : ∀ p ∈ ps, lo ≤ x p.state ∧ x p.state ≤ hi) :
    |(ps'.map fun p => p.prob * (x p.state - lo)).sum - (ps.map fun p => p.prob * (x p.state - lo)).sum| ≤
      (b / a - 1) * ((hi - lo) * (ps.map Particle.prob).sum) := by
  unfold Close at h
  induction h with
  | nil => simp
  | @cons q q' ps ps' hq _ ih =>
    have h1 := ih (fun p hp => hnn p (List.mem_cons_of_mem _ hp)) (fun p hp => hx p (List.mem_cons_of_mem _ hp))
    obtain ⟨e, l1, l2⟩ := hq
    obtain ⟨x1, x2⟩ := hx q List.mem_cons_self
    have n := hnn q List.mem_cons_self
    have u1 : q'.prob ≤ b / a * q.prob := by
      rw [div_mul_eq_mul_div, le_div_iff₀ ha]; linarith
    have u2 : a / b * q.prob ≤ q'.prob := by
      rw [div_mul_eq_mul_div, div_le_iff₀ hb]; linarith
    have amgm : 2 ≤ b / a + a / b := by
      rw [div_add_div _ _ ha.ne' hb.ne', le_div_iff₀ (mul_pos ha hb)]
      nlinarith [sq_nonneg (a - b)]
    have d1 : q'.prob - q.prob ≤ (b / a - 1) * q.prob := by linarith
    have d2 : -((b / a - 1) * q.prob) ≤ q'.prob - q.prob := by
      have : (2 - b / a) * q.prob ≤ a / b * q.prob := mul_le_mul_of_nonneg_right (by linarith) n
      linarith
    have d3 : |q'.prob - q.prob| ≤ (b / a - 1) * q.prob := abs_le.2 ⟨d2, d1⟩
    have d4 : |(q'.prob - q.prob) * (x q.state - lo)| ≤ (b / a - 1) * q.prob * (hi - lo) := by
      rw [abs_mul, abs_of_nonneg (show 0 ≤ x q.state - lo by linarith)]
      exact mul_le_mul d3 (by linarith) (by linarith) ((abs_nonneg _).trans d3)
    simp only [List.map_cons, List.sum_cons, e]
    rw [abs_le] at h1 d4 ⊢
    constructor
    · nlinarith [h1.1, d4.1]
    · nlinarith [h1.2, d4.2]

/-- **C177**: then every coordinate of the estimated state (the weighted mean) is known up to `(b/a)^n - 1` times the width
of the range of this coordinate over the particles. -/
theorem C177_estimate (log : K → K) {a b : K} (ha : 0 < a) (f : Filter (ι → K) K) (hnn : ∀ p ∈ f.particles, 0 ≤ p.prob)
    (hs : (f.particles.map Particle.prob).sum = 1) {liks liks' : List ((ι → K) → K)}
    (h : List.Forall₂ (Within f.particles a b) liks liks') (sorted sorted' : List (Particle (ι → K) K)) (i : ι) {lo hi : K}
    (hx : ∀ p ∈ f.particles, lo ≤ p.state i ∧ p.state i ≤ hi) :
    |((f.measureAll log liks').expectation componentMean 1 sorted').1 i -
      ((f.measureAll log liks).expectation componentMean 1 sorted).1 i| ≤ ((b / a) ^ liks.length - 1) * (hi - lo) := by
  have h0 : Scaled 1 1 1 f.particles f.particles := by
    unfold Scaled
    rw [List.forall₂_same]
    intro p _; simp
  obtain ⟨⟨κ, hκ, hsc⟩, h1, h2, h3⟩ := scaled_measureAll log ha f f one_pos one_pos hnn (by rw [hs]; exact one_pos) rfl h0 h
  rw [one_mul, one_mul] at hsc
  obtain ⟨hc, hab⟩ := hsc.close hκ (pow_pos ha _) h1 h2 h3
  have sum1 : ((f.measureAll log liks).particles.map Particle.prob).sum = 1 := by
    cases liks with
    | nil => exact hs
    | cons l ls =>
      have key : ∀ (ls : List ((ι → K) → K)) (g : Filter (ι → K) K), (g.particles.map Particle.prob).sum = 1 →
          (∀ p ∈ g.particles, 0 ≤ p.prob) → (∀ l ∈ ls, ∀ p ∈ g.particles, 0 < l p.state) →
          ((g.measureAll log ls).particles.map Particle.prob).sum = 1 := by
        intro ls
        induction ls with
        | nil => intro g hg _ _; exact hg
        | cons l ls ih =>
          intro g hg gn hl
          have hE := evidence_pos g.particles l gn (hl l List.mem_cons_self) (by rw [hg]; exact one_pos)
          obtain ⟨m, s⟩ := C11_measure_bayes log g l hE
          refine ih (g.measure log l) s ?_ ?_
          · intro p hp
            rw [m] at hp
            obtain ⟨q, hq, rfl⟩ := List.mem_map.1 hp
            exact div_nonneg (mul_nonneg (gn q hq) (hl l List.mem_cons_self q hq).le) hE.le
          · intro l' hl' p hp
            rw [m] at hp
            obtain ⟨q, hq, rfl⟩ := List.mem_map.1 hp
            exact hl l' (List.mem_cons_of_mem _ hl') q hq
      refine key (l :: ls) f hs hnn fun l' hl' p hp => ?_
      obtain ⟨k, hk, rfl⟩ := List.getElem_of_mem hl'
      exact ((List.forall₂_iff_get.1 h).2 k hk (by rw [← h.length_eq]; exact hk) p hp).1
  have sum2 : ((f.measureAll log liks').particles.map Particle.prob).sum = 1 := h3.trans sum1
  have hnn' : ∀ p ∈ (f.measureAll log liks').particles, 0 ≤ p.prob := by
    intro p hp
    obtain ⟨k, hk, rfl⟩ := List.getElem_of_mem hp
    have hk' : k < (f.measureAll log liks).particles.length := by rw [hsc.length_eq]; exact hk
    have := (List.forall₂_iff_get.1 hsc).2 k hk' hk
    exact le_trans (mul_nonneg (by positivity) (h1 _ (List.getElem_mem hk'))) this.2.1
  have states : ∀ p ∈ (f.measureAll log liks).particles, lo ≤ p.state i ∧ p.state i ≤ hi := by
    have st : ∀ (ls : List ((ι → K) → K)) (g : Filter (ι → K) K), (g.measureAll log ls).particles.map Particle.state =
        g.particles.map Particle.state := by
      intro ls
      induction ls with
      | nil => intro g; rfl
      | cons l ls ih =>
        intro g
        refine (ih (g.measure log l)).trans ?_
        simp only [Filter.measure]
        split <;> simp [weigh, Function.comp_def]
    intro p hp
    have : p.state ∈ (f.measureAll log liks).particles.map Particle.state := List.mem_map_of_mem hp
    rw [st] at this
    obtain ⟨q, hq, e⟩ := List.mem_map.1 this
    rw [← e]; exact hx q hq
  rw [(C23_expectation_is_weighted_mean _ sorted h1 sum1 i).1, (C23_expectation_is_weighted_mean _ sorted' hnn' sum2 i).1]
  have := close_mean (pow_pos ha _) hc (lt_of_lt_of_le (pow_pos ha _) hab) h1 (fun s => s i) states
  rw [sum1, mul_one, ← div_pow] at this
  have e : ∀ ps : List (Particle (ι → K) K), (ps.map Particle.prob).sum = 1 →
      (ps.map fun p => p.prob * (p.state i - lo)).sum = (ps.map fun p => p.prob * p.state i).sum - lo := by
    intro ps hp
    have : (ps.map fun p => p.prob * (p.state i - lo)).sum = (ps.map fun p => p.prob * p.state i).sum - (ps.map Particle.prob).sum * lo := by
      clear hp
      induction ps with
      | nil => simp
      | cons q ps ih => simp only [List.map_cons, List.sum_cons, ih]; ring
    rw [this, hp, one_mul]
  rw [e _ sum1, e _ sum2] at this
  simpa using this

/-- **C177**: likelihoods of at least `m` that are off by at most `δ < m` are off by a factor between `1 - δ/m` and
`1 + δ/m`. -/
theorem C177_absolute {m δ : K} (hδ : δ < m) (hδ0 : 0 ≤ δ) (ps : List (Particle S K)) {lik lik' : S → K}
    (h : ∀ p ∈ ps, m ≤ lik p.state ∧ |lik' p.state - lik p.state| ≤ δ) :
    0 < 1 - δ / m ∧ Within ps (1 - δ / m) (1 + δ / m) lik lik' := by
  have hm : 0 < m := lt_of_le_of_lt hδ0 hδ
  refine ⟨by rw [sub_pos, div_lt_one hm]; exact hδ, fun p hp => ?_⟩
  obtain ⟨h1, h2⟩ := h p hp
  have hl : 0 < lik p.state := lt_of_lt_of_le hm h1
  have : δ ≤ δ / m * lik p.state := by
    rw [div_mul_eq_mul_div, le_div_iff₀ hm]
    exact mul_le_mul_of_nonneg_left h1 hδ0
  rw [abs_le] at h2
  refine ⟨hl, ?_, ?_⟩
  · linarith [h2.1]
  · linarith [h2.2]

/-- **C177**: in particular, for the likelihood field: scan points that are off by at most `ε` change no posterior weight by
more than the factor `(1 + q)/(1 - q)`, where `q` is the ratio of `match_weight · number of points · ε` (times the largest
axis weight) to the smallest score among the particles. -/
theorem C177_scan_noise {A : Type} (log : ℝ → ℝ) {l : Lidar.Like} {p : Lidar.LikeParams} (hl : Lidar.Like.Reach p l)
    (h0 : 0 ≤ p.matchDistMin) (hw : 0 ≤ p.matchWeight) {search : Vec3 ℝ → ℝ → Outcome (List (ℕ × ℝ))} {map : List (Vec3 ℝ)}
    {w : Vec3 ℝ} {W : ℝ} (hW : |w.x| ≤ W ∧ |w.y| ≤ W ∧ |w.z| ≤ W) (hs : Lidar.ExactAt map w search p.matchDistMin)
    {pc pc' : List (Pt ℝ A)} (hne : pc ≠ []) {ε : ℝ} (hε : 0 ≤ ε)
    (hp : List.Forall₂ (fun q q' => Lidar.dist q.pos q'.pos ≤ ε) pc pc') (res res' : State6 ℝ → Lidar.Result)
    (hm : ∀ s, l.measure search (some pc) s = .ok (res s)) (hm' : ∀ s, l.measure search (some pc') s = .ok (res' s))
    (f : Filter (State6 ℝ) ℝ) (hu : ∀ q ∈ f.particles, q.state.rot.dot q.state.rot = 1) (hnn : ∀ q ∈ f.particles, 0 ≤ q.prob)
    (hsum : 0 < (f.particles.map Particle.prob).sum) {m : ℝ} (hmin : ∀ q ∈ f.particles, m ≤ (res q.state).likelihood)
    (hδ : p.matchWeight * (pc.length * (W * ε)) < m) :
    Close (1 - p.matchWeight * (pc.length * (W * ε)) / m) (1 + p.matchWeight * (pc.length * (W * ε)) / m)
      (f.measure log fun s => (res s).likelihood).particles (f.measure log fun s => (res' s).likelihood).particles := by
  have hW0 : 0 ≤ W := (abs_nonneg _).trans hW.1
  obtain ⟨ha, hwi⟩ := C177_absolute hδ (by positivity) f.particles (lik := fun s => (res s).likelihood)
    (lik' := fun s => (res' s).likelihood) fun q hq => ⟨hmin q hq, by
      rw [abs_sub_comm]
      exact Lidar.C176_noise hl h0 hw hW hs hne q.state (hu q hq) hε hp (hm _) (hm' _)⟩
  have := C177_weights log ha f hnn hsum (List.Forall₂.cons hwi List.Forall₂.nil)
  simpa [Filter.measureAll] using this

/-! ## Non-vacuity -/

/-- C177 applied: two particles at 0 and 1 with equal weights; likelihoods 1 and 3, known up to ten per cent; two
measurements: the estimate is known up to 1/2. -/
example (l1 l2 : (Unit → ℚ) → ℚ)
    (h1 : Within [⟨fun _ => 0, 1 / 2, 1, 0⟩, ⟨fun _ => 1, 1 / 2, 1, 0⟩] (9 / 10) (11 / 10) (fun s => 1 + 2 * s ()) l1)
    (h2 : Within [⟨fun _ => 0, 1 / 2, 1, 0⟩, ⟨fun _ => 1, 1 / 2, 1, 0⟩] (9 / 10) (11 / 10) (fun s => 1 + 2 * s ()) l2) :
    |((Filter.measureAll id ⟨[⟨fun _ => 0, 1 / 2, 1, 0⟩, ⟨fun _ => 1, 1 / 2, 1, 0⟩], none⟩ [l1, l2]).expectation componentMean 1 []).1 () -
      ((Filter.measureAll id (⟨[⟨fun _ => 0, 1 / 2, 1, 0⟩, ⟨fun _ => 1, 1 / 2, 1, 0⟩], none⟩ : Filter (Unit → ℚ) ℚ)
        [fun s => 1 + 2 * s (), fun s => 1 + 2 * s ()]).expectation componentMean 1 []).1 ()| ≤ 1 / 2 := by
  have := C177_estimate (ι := Unit) (K := ℚ) id (a := 9 / 10) (b := 11 / 10) (by norm_num)
    ⟨[⟨fun _ => 0, 1 / 2, 1, 0⟩, ⟨fun _ => 1, 1 / 2, 1, 0⟩], none⟩ (by simp) (by norm_num) (.cons h1 (.cons h2 .nil)) [] [] ()
    (lo := 0) (hi := 1) (by simp)
  refine this.trans ?_
  norm_num

/-- The likelihoods 1.05 and 2.9 are such. -/
example : Within (F := ℚ) [⟨(fun _ => 0 : Unit → ℚ), 1 / 2, 1, 0⟩, ⟨fun _ => 1, 1 / 2, 1, 0⟩] (9 / 10) (11 / 10)
    (fun s => 1 + 2 * s ()) (fun s => 1.05 + 1.85 * s ()) := by
  intro p hp
  simp only [List.mem_cons, List.not_mem_nil, or_false] at hp
  rcases hp with rfl | rfl <;> norm_num

end PF
end Mcl3dl
