import Verif.Proofs.CloudTotal
import Verif.Spec.Lidar
import Verif.Props.NodeSensors

/-! # Histories in which nothing goes wrong -/

namespace Mcl3dl
namespace Node

variable {C : Type}

theorem FlannSound.ids {flann : List (Vec3 ℝ) → Vec3 ℝ → ℝ → ℕ → List (ℕ × ℝ)} {w : Vec3 ℝ}
    (h : FlannSound flann w) : FlannIds flann := by
  intro pts p r k e he
  obtain ⟨q, hq, _⟩ := h pts p r k e he
  exact (List.getElem?_eq_some_iff.1 hq).1

theorem Works.ids {P : Params} {lib : Lib C} {I : C → Prop} (h : Works P lib I) : FlannIds lib.flann := by
  obtain ⟨w, _, hw⟩ := h.sound
  exact hw.ids

/-- The invariant of the members written by `measure`. -/
structure LocOk (P : Params) (I : C → Prop) (loc : LocSt C) : Prop where
  beam : Lidar.Beam.Reach P.beam loc.beam
  like : Lidar.Like.Reach P.like loc.like
  caster : I loc.caster
  pf : loc.pf.particles ≠ []

theorem likeReach_params {p : Lidar.LikeParams} {l : Lidar.Like} (h : Lidar.Like.Reach p l) : l.params = p := by
  induction h with
  | make => rfl
  | set n cur _ ih => exact ih

theorem reduce_length {P : Params} (h0 : 0 ≤ P.numParticles) {env : Env} (hv : env.Valid) {f f' : Filter}
    (h : reduceFilter P env f = .ok f') :
    f'.particles.length = if P.numParticles < (f.particles.length : ℤ)
      then max (3 * f.particles.length / 4) P.numParticles.toNat else f.particles.length := by
  unfold reduceFilter at h
  by_cases h1 : P.numParticles < (f.particles.length : ℤ)
  · rw [if_pos h1] at h
    rw [if_pos h1]
    simp only at h
    have := (resizeFilter_spec hv h).2.1
    rw [this]
    split_ifs with h2
    · omega
    · omega
  · rw [if_neg h1] at h
    simp only [Outcome.ok.injEq] at h
    rw [if_neg h1, h]

/-- A measurement ends normally if the rays of the particles and of the estimate can be cast. -/
theorem measure_total {P : Params} (hP : Sensible P) {lib : Lib C} (hf : FlannIds lib.flann) {I : C → Prop}
    {ok : Vec3 ℝ → Vec3 ℝ → Prop} {env : Env} (hv : env.Valid) {n : Node C}
    (hprep : ∀ header, n.acc.headers.getLast? = some header → ∃ r, prepare P lib env n.acc n.loc header = .ok r)
    (hall : n.loc.allAccum ≠ none) (ho : LocOk P I n.loc)
    (hrays : ∀ header p, n.acc.headers.getLast? = some header → prepare P lib env n.acc n.loc header = .ok (.ready p) →
      p.likePc ≠ [] → Lidar.Beam.Reach P.beam p.beam → CastsRays p.beam (caster P lib n.map) I ok ∧
      (∀ q ∈ n.loc.pf.particles, RaysOk ok p.origins q.state p.beamPc) ∧
      ∀ w, weighLoop P lib n.map p n.loc.pf.particles ⟨n.loc.caster, 1, 0⟩ = .ok w →
        RaysOk ok p.origins (estimate (biasFilter P n.loc.statePrev (measureWith n.loc.pf w.1))) p.beamPc) :
    ∃ n' o, measure P lib env n = .ok (n', o) ∧ LocOk P I n'.loc := by
  have key : ∃ c a loc' o, measureCore P lib env n.map n.odo n.stdWarn n.acc n.loc n.cnt = .ok (c, a, loc', o) ∧
      LocOk P I loc' := by
    unfold measureCore
    simp only
    rw [if_neg hP.skip]
    by_cases hk : (n.cnt + 1) % 2 ^ 64 % Params.toSize P.skipMeasure ≠ 0
    · rw [if_pos hk]; exact ⟨_, _, _, _, rfl, ho⟩
    rw [if_neg hk]
    cases hh : n.acc.headers.getLast? with
    | none => exact ⟨_, _, _, _, rfl, ho⟩
    | some header =>
      simp only
      obtain ⟨r, hr⟩ := hprep header hh
      rw [hr, Outcome.bind_ok]
      cases r with
      | noTf => exact ⟨_, _, _, _, rfl, ho⟩
      | noOrigin c => exact ⟨_, _, _, _, rfl, ho⟩
      | ready p =>
        obtain ⟨_, _, _, _, _, _, _, _, hb, hlk, _⟩ := prepare_ready hr
        have rb : Lidar.Beam.Reach P.beam p.beam := by rw [hb]; exact .set _ _ ho.beam
        have rl : Lidar.Like.Reach P.like p.like := by rw [hlk]; exact .set _ _ ho.like
        simp only
        split_ifs with hlp
        · exact ⟨_, _, _, _, rfl, rb, rl, ho.caster, ho.pf⟩
        · obtain ⟨g1, g2, g3⟩ := hrays header p hh hr (by intro h0; rw [h0] at hlp; simp at hlp) rb
          obtain ⟨loc', o, h1, h2⟩ := localize_total (odo := n.odo) (warn := n.stdWarn) (header := header)
            (le_of_lt hP.particles) hP.lpf hP.unmatch hf hv
            g1 (by rw [likeReach_params rl]; exact hP.like) g2 g3 ho.caster ho.pf hall
          rw [h1, Outcome.bind_ok]
          refine ⟨_, _, _, _, rfl, ?_⟩
          obtain ⟨r, e1, _, _, _, _, _, e7, e8, e9, e10, rfl, _⟩ := localize_ok h1
          refine ⟨rb, rl, h2, ?_⟩
          have hs := (localize_sizes hv e1 e7 e8).2.2
          have hr := reduce_length (le_of_lt hP.particles) hv e9
          intro hnil
          have hnil : r.pf6.particles = [] := hnil
          have hlp := List.length_pos_iff.2 ho.pf
          have hpos := hP.particles
          rw [hnil, hs] at hr
          simp only [List.length_nil] at hr
          split_ifs at hr <;> omega
  obtain ⟨c, a, loc', o, h1, h2⟩ := key
  unfold measure
  rw [h1]
  exact ⟨_, _, rfl, h2⟩

/-- … in particular if every ray can be cast. -/
theorem measure_works {P : Params} (hP : Sensible P) {lib : Lib C} {I : C → Prop} (hL : Works P lib I)
    {env : Env} (hv : env.Valid) {n : Node C} (hl : n.acc.Labelled)
    (hprep : ∀ header, n.acc.headers.getLast? = some header → ∃ r, prepare P lib env n.acc n.loc header = .ok r)
    (hall : n.loc.allAccum ≠ none) (ho : LocOk P I n.loc) :
    ∃ n' o, measure P lib env n = .ok (n', o) ∧ LocOk P I n'.loc := by
  refine measure_total (ok := fun _ _ => True) hP hL.ids hv hprep hall ho fun header p _ hr _ rb => ?_
  obtain ⟨_, hlab, _⟩ := prepare_labels hv hl hr
  have hall : ∀ s : State6 ℝ, RaysOk (fun _ _ => True) p.origins s p.beamPc := by
    intro s q hq
    unfold State6.transform at hq
    obtain ⟨q', hq', rfl⟩ := List.mem_map.1 hq
    exact ⟨_, List.getElem?_eq_getElem (hlab q' hq'), trivial⟩
  exact ⟨hL.rays n.map p.beam rb, fun q _ => hall q.state, fun w _ => hall _⟩

theorem accumCloud_total (P : Params) (env : Env) (header : Header) {msg : Conv.Msg} (hx : HasXYZ msg) {a : AccSt}
    (ha : a.cloud ≠ none) : ∃ b a', accumCloud P env header msg a = .ok (b, a') := by
  have hidx : ∀ k ∈ ["x", "y", "z"], ∃ i, msg.fields.findIdx? (fun f => f.name == k) = some i := by
    intro k hk
    obtain ⟨f, hf, hn⟩ := hx k hk
    cases h : msg.fields.findIdx? (fun f => f.name == k) with
    | some i => exact ⟨i, rfl⟩
    | none =>
      have := List.findIdx?_eq_none_iff.1 h f hf
      simp [hn] at this
  obtain ⟨x, hx⟩ := hidx "x" (by simp)
  obtain ⟨y, hy⟩ := hidx "y" (by simp)
  obtain ⟨z, hz⟩ := hidx "z" (by simp)
  unfold accumCloud
  cases env.tf P.odomFrame header.frame header.stamp with
  | none => exact ⟨_, _, rfl⟩
  | some t =>
    simp only [transformMsg, hx, hy, hz, Outcome.bind_ok]
    generalize Conv.fromROSMsg _ [] = r
    obtain ⟨b, pts⟩ := r
    cases b with
    | false => exact ⟨_, _, rfl⟩
    | true =>
      simp only
      cases h : a.cloud with
      | none => exact absurd h ha
      | some c => exact ⟨_, _, rfl⟩

/-- The cloud callback ends normally if the measurement does that it may start. -/
theorem cbCloud_total {P : Params} (hP : Sensible P) {lib : Lib C} {I : C → Prop}
    {env : Env} {n : Node C} (hi : AccInv n) (ho : LocOk P I n.loc) (header : Header)
    {msg : Conv.Msg} (hx : HasXYZ msg)
    (hmeas : n.map.hasMap = true → ∀ a : AccSt, a.Labelled → a.cloud ≠ none →
      (P.accumCloud = 0 ∧ accumCloud P env header msg (accumClear n.acc) = .ok (true, a) ∨
        P.accumCloud ≠ 0 ∧ a = n.acc ∧ ((accCfg P).accumMax ≤ n.acc.logic.keys.length ∨
          n.acc.logic.keys.head? = some header.frame ∧ (accCfg P).accum ≤ n.acc.logic.cnt)) →
      ∃ n' o, measure P lib env { freshen env n with acc := a } = .ok (n', o) ∧ LocOk P I n'.loc) :
    ∃ n' o, cbCloud P lib env n header msg = .ok (n', o) ∧ LocOk P I n'.loc := by
  cases hm : n.map.hasMap with
  | false => rw [cbCloud_noMap hm]; exact ⟨_, _, rfl, ho.1, ho.2, ho.3, ho.4⟩
  | true =>
    have hcl := hi.cloud hm
    have hof : LocOk P I (freshen env n).loc := ⟨ho.1, ho.2, ho.3, ho.4⟩
    have hacc : ∀ (n1 : Node C) (o : List Out), n1.acc.cloud ≠ none → ∃ b a,
        (callbacks P lib env header).accumulate msg (.ok (n1, o)) = (b, .ok ({ n1 with acc := a }, o)) := by
      intro n1 o h1
      obtain ⟨b, a, h2⟩ := accumCloud_total P env header hx h1
      refine ⟨b, a, ?_⟩
      show (match accumCloud P env header msg n1.acc with
        | .ok (b, a) => (b, (.ok ({ n1 with acc := a }, o) : World C))
        | .throws e => (false, .throws e)
        | .ub e => (false, .ub e)) = _
      rw [h2]
    rw [cbCloud_eq hm]
    by_cases hP0 : P.accumCloud = 0
    · rw [if_pos hP0]
      unfold CloudAccum.pushPassThrough
      have h1 : (callbacks P lib env header).clear (.ok (freshen env n, [])) =
          .ok ({ freshen env n with acc := accumClear n.acc }, []) := rfl
      rw [h1]
      obtain ⟨b, a, h2⟩ := accumCloud_total P env header hx (a := accumClear n.acc) (by simp [accumClear])
      have h3 : (callbacks P lib env header).accumulate msg (.ok ({ freshen env n with acc := accumClear n.acc }, [])) =
          (b, .ok ({ freshen env n with acc := a }, [])) := by
        show (match accumCloud P env header msg (accumClear n.acc) with
          | .ok (b, a) => (b, (.ok ({ freshen env n with acc := a }, []) : World C))
          | .throws e => (false, .throws e)
          | .ub e => (false, .ub e)) = _
        rw [h2]
      rw [h3]
      obtain ⟨_, _, h5, h6⟩ := accumCloud_spec h2
      cases b with
      | false => exact ⟨_, _, rfl, hof⟩
      | true =>
        obtain ⟨n', o, h7, h8⟩ := hmeas hm a (h5 (accumClear_labelled _)) (h6 (by simp [accumClear]))
          (.inl ⟨hP0, h2⟩)
        refine ⟨n', o, ?_, h8⟩
        simp only [callbacks, Outcome.bind_ok, h7, List.nil_append]
    · rw [if_neg hP0]
      have hmax : 0 < (accCfg P).accumMax := Nat.pos_of_ne_zero (hP.accum.resolve_left hP0)
      -- what `push` yields
      have key : ∃ l n2 o, CloudAccum.push (accCfg P) n.acc.logic header.frame msg (callbacks P lib env header)
          (.ok (freshen env n, [])) = .ok (l, .ok (n2, o)) ∧ LocOk P I n2.loc := by
        obtain ⟨b, a, h1⟩ := hacc (freshen env n) [] hcl
        have hproc : ((accCfg P).accumMax ≤ n.acc.logic.keys.length ∨
            n.acc.logic.keys.head? = some header.frame ∧ (accCfg P).accum ≤ n.acc.logic.cnt) →
            ∃ l n2 o, CloudAccum.processAndRestart n.acc.logic header.frame msg
            (callbacks P lib env header) (.ok (freshen env n, [])) = (l, .ok (n2, o)) ∧ LocOk P I n2.loc := by
          intro hcomp
          obtain ⟨n', o, h7, h8⟩ := hmeas hm n.acc hi.labelled hcl (.inr ⟨hP0, rfl, hcomp⟩)
          have h7 : measure P lib env (freshen env n) = .ok (n', o) := h7
          have h9 : (callbacks P lib env header).process (.ok (freshen env n, [])) = .ok (n', o) := by
            simp only [callbacks, Outcome.bind_ok, h7, List.nil_append]
          have h10 : (callbacks P lib env header).clear (.ok (n', o)) = .ok ({ n' with acc := accumClear n'.acc }, o) := rfl
          obtain ⟨b, a, h11⟩ := hacc { n' with acc := accumClear n'.acc } o (by simp [accumClear])
          unfold CloudAccum.processAndRestart
          simp only [h9, h10, h11]
          cases b
          · exact ⟨_, _, _, rfl, h8⟩
          · exact ⟨_, _, _, rfl, h8⟩
        unfold CloudAccum.push
        rw [h1]
        by_cases hk : n.acc.logic.keys.length < (accCfg P).accumMax
        · rw [if_pos hk]
          by_cases hk2 : n.acc.logic.keys.length = 0 ∨ n.acc.logic.keys.head? ≠ some header.frame
          · rw [if_pos hk2]
            cases b
            · exact ⟨_, _, _, rfl, hof⟩
            · exact ⟨_, _, _, rfl, hof⟩
          · rw [if_neg hk2]
            by_cases hk3 : n.acc.logic.cnt < (accCfg P).accum
            · rw [if_pos hk3]
              cases b
              · exact ⟨_, _, _, rfl, hof⟩
              · exact ⟨_, _, _, rfl, hof⟩
            · rw [if_neg hk3]
              obtain ⟨l, n2, o, h, h'⟩ := hproc (.inr ⟨not_not.1 (not_or.1 hk2).2, not_lt.1 hk3⟩)
              exact ⟨l, n2, o, by rw [h], h'⟩
        · rw [if_neg hk]
          cases hke : n.acc.logic.keys with
          | nil => rw [hke] at hk; simp at hk; omega
          | cons k ks =>
            obtain ⟨l, n2, o, h, h'⟩ := hproc (.inl (not_lt.1 hk))
            exact ⟨l, n2, o, by rw [h], h'⟩
      obtain ⟨l, n2, o, h, h'⟩ := key
      rw [h, Outcome.bind_ok]
      exact ⟨_, _, rfl, h'⟩

/-- Placing the particles on the points. -/
theorem place_total {dir : ℤ} (hd : 0 < dir) (prob : ℝ) (imu : Quat ℝ) (ps : List Particle) (cnt : ℤ)
    (pts : List Point) (h0 : 0 ≤ cnt) (h1 : cnt < dir) (h : (ps.length : ℤ) ≤ pts.length * dir - cnt) :
    ∃ r, place dir prob imu ps cnt pts = .ok r ∧ r.length = ps.length := by
  induction ps generalizing cnt pts with
  | nil => exact ⟨[], by unfold place; rfl, rfl⟩
  | cons p ps ih =>
    cases pts with
    | nil => simp only [List.length_cons, List.length_nil] at h; push_cast at h; omega
    | cons t ts =>
      unfold place
      simp only
      have hlen : (((t :: ts).length : ℕ) : ℤ) = (ts.length : ℤ) + 1 := by simp
      have hlp : (((p :: ps).length : ℕ) : ℤ) = (ps.length : ℤ) + 1 := by simp
      rw [hlp] at h
      split_ifs with hc
      · obtain ⟨r, hr, hl⟩ := ih 0 ts le_rfl hd (by rw [hlen] at h; nlinarith)
        rw [hr]
        exact ⟨_, rfl, by simp [hl]⟩
      · obtain ⟨r, hr, hl⟩ := ih (cnt + 1) (t :: ts) (by omega) (by omega) (by omega)
        rw [hr]
        exact ⟨_, rfl, by simp [hl]⟩

/-- The highest point of a cloud always has room above it. -/
theorem standing_nonempty {P : Params} (hg : 0 < P.globalGrid) {lib : Lib C} {w : Vec3 ℝ} (hw : 1 ≤ w.z)
    (hf : FlannSound lib.flann w) {env : Env} (hk : KeepsPoints env) {pts : List Point} (hne : pts ≠ []) :
    standingPoints P lib env pts ≠ [] := by
  unfold standingPoints
  simp only
  have hgr := hk ⟨P.globalGrid, P.globalGrid, P.globalGrid⟩ pts hne
  generalize env.voxel ⟨P.globalGrid, P.globalGrid, P.globalGrid⟩ pts = grid at hgr
  obtain ⟨p, hp, hmax⟩ : ∃ p ∈ grid, ∀ q ∈ grid, q.pos.z ≤ p.pos.z := by
    clear hk hne
    induction grid with
    | nil => exact absurd rfl hgr
    | cons a l ih =>
      by_cases hl : l = []
      · subst hl
        exact ⟨a, by simp, by simp⟩
      · obtain ⟨p, hp, hm⟩ := ih hl
        rcases le_total p.pos.z a.pos.z with h | h
        · refine ⟨a, by simp, fun q hq => ?_⟩
          rcases List.mem_cons.1 hq with rfl | hq
          · exact le_rfl
          · exact (hm q hq).trans h
        · refine ⟨p, by simp [hp], fun q hq => ?_⟩
          rcases List.mem_cons.1 hq with rfl | hq
          · exact h
          · exact hm q hq
  have : p ∈ grid.filter fun p => (lib.flann (grid.map Pt.pos)
      ⟨p.pos.x, p.pos.y, p.pos.z + (1 / 100 + P.globalGrid)⟩ P.globalGrid 1).isEmpty := by
    refine List.mem_filter.2 ⟨hp, ?_⟩
    rw [List.isEmpty_iff, List.eq_nil_iff_forall_not_mem]
    intro e he
    obtain ⟨q, hq, hd⟩ := hf _ _ _ _ e he
    have hmem : q ∈ grid.map Pt.pos := List.mem_of_getElem? hq
    obtain ⟨q', hq', rfl⟩ := List.mem_map.1 hmem
    have hz := hmax q' hq'
    unfold weightedDist at hd
    simp only at hd
    have h1 : P.globalGrid + 1 / 100 ≤ (p.pos.z + (1 / 100 + P.globalGrid)) - q'.pos.z := by linarith
    have h2 : (p.pos.z + (1 / 100 + P.globalGrid)) - q'.pos.z ≤
        w.z * ((p.pos.z + (1 / 100 + P.globalGrid)) - q'.pos.z) := by nlinarith
    have h3 : P.globalGrid ^ 2 < (w.z * (q'.pos.z - (p.pos.z + (1 / 100 + P.globalGrid)))) ^ 2 := by
      have h4 : P.globalGrid < w.z * ((p.pos.z + (1 / 100 + P.globalGrid)) - q'.pos.z) := by linarith
      nlinarith
    nlinarith [sq_nonneg (w.x * (q'.pos.x - p.pos.x)), sq_nonneg (w.y * (q'.pos.y - p.pos.y))]
  exact List.ne_nil_of_mem this

theorem cloudPoints_ne {m : Conv.Msg} (h : validCloud m = true) : cloudPoints m ≠ [] := by
  have hv := h
  unfold validCloud at hv
  simp only [Bool.and_eq_true, decide_eq_true_eq] at hv
  unfold cloudPoints
  simp only [ne_eq, List.map_eq_nil_iff]
  unfold Conv.fromROSMsg
  simp only [hv.1.1.1, hv.1.1.2, hv.1.2, Bool.not_true, Bool.or_self, Bool.false_eq_true, if_false]
  unfold Conv.fromROSMsgImpl
  cases m.has "intensity" <;> cases m.has "label" <;> simp [hv.2]

/-- The invariant of a history in which nothing goes wrong. -/
structure Safe (P : Params) (I : C → Prop) (n : Node C) (v : MapView) : Prop where
  acc : AccInv n
  map : MapInv P n.map v
  loc : LocOk P I n.loc
  active : v.available = true → v.active ≠ []

theorem step_safe' {P : Params} (hP : Sensible P) {lib : Lib C} {I : C → Prop}
    (hsound : ∃ w : Vec3 ℝ, 1 ≤ w.z ∧ FlannSound lib.flann w)
    {env : Env} (hv : env.Valid) (hk : KeepsPoints env) {n : Node C} {v : MapView} (hs : Safe P I n v)
    {ev : Event} (he : SafeEvent ev)
    (hcl : ∀ header msg, ev = .cloud header msg →
      ∃ n' o, cbCloud P lib env n header msg = .ok (n', o) ∧ LocOk P I n'.loc) :
    ∃ n' o, step P lib env n ev = .ok (n', o) ∧ Safe P I n' (v.step P (ev, env)) := by
  -- the parts of the invariant that follow from a normal end
  have fin : ∀ n' o, step P lib env n ev = .ok (n', o) → LocOk P I n'.loc →
      ((v.step P (ev, env)).available = true → (v.step P (ev, env)).active ≠ []) →
      ∃ n' o, step P lib env n ev = .ok (n', o) ∧ Safe P I n' (v.step P (ev, env)) :=
    fun n' o h hl ha => ⟨n', o, h, step_accInv hs.acc h, (step_map hs.map h).1, hl, ha⟩
  have hloc : ∀ n' o, step P lib env n ev = .ok (n', o) → (∀ header msg, ev ≠ .cloud header msg) →
      n'.loc.pf.particles ≠ [] → LocOk P I n'.loc := by
    intro n' o h hev hne
    have h1 := (step_loc h hev).1
    exact ⟨by rw [h1]; exact hs.loc.beam, by rw [h1]; exact hs.loc.like, by rw [h1]; exact hs.loc.caster, hne⟩
  have hpfne : ∀ f : Filter, f.particles.length = n.loc.pf.particles.length → f.particles ≠ [] := by
    intro f h hn
    rw [hn] at h
    exact hs.loc.pf (List.length_eq_zero_iff.1 h.symm)
  cases ev with
  | mapcloud stamp msg =>
    have htot : ∃ n' o, step P lib env n (.mapcloud stamp msg) = .ok (n', o) := by
      show ∃ n' o, cbMapcloud P env n stamp msg = .ok (n', o)
      unfold cbMapcloud
      split
      · exact ⟨_, _, rfl⟩
      · obtain ⟨n', o, h, _⟩ := loadMapCloud_spec (P := P) (env := env) n
          (pclStamp (if stamp ≠ 0 then stamp else env.now 1)) (pointsOf ‹_›)
        exact ⟨n', o, h⟩
    obtain ⟨n', o, h⟩ := htot
    refine fin n' o h (hloc n' o h (by simp) ?_) ?_
    · rcases cbMapcloud_ok h with ⟨_, rfl, _⟩ | ⟨_, hl⟩
      · exact hs.loc.pf
      · rw [(load_frame hl).2.2.2.2.1]; exact hs.loc.pf
    · simp only [MapView.step]
      split_ifs with hm
      · exact fun _ => hk _ _ (cloudPoints_ne hm)
      · simp
  | mapcloudUpdate msg =>
    refine fin _ _ rfl ?_ ?_
    · unfold cbMapcloudUpdate
      split
      · exact hs.loc
      · exact ⟨hs.loc.1, hs.loc.2, hs.loc.3, hs.loc.4⟩
    · simp only [MapView.step]
      split_ifs <;> exact hs.active
  | loadPcd file =>
    have htot : ∃ n' o, step P lib env n (.loadPcd file) = .ok (n', o) := by
      show ∃ n' o, cbLoadPcd P env n file = .ok (n', o)
      unfold cbLoadPcd
      split
      · exact ⟨_, _, rfl⟩
      · obtain ⟨n', o, h, _⟩ := loadMapCloud_spec (P := P) (env := env) n (pclStamp (env.now 1)) ‹_›
        rw [h]
        exact ⟨_, _, rfl⟩
    obtain ⟨n', o, h⟩ := htot
    refine fin n' o h (hloc n' o h (by simp) ?_) ?_
    · rcases cbLoadPcd_ok h with ⟨_, rfl, _⟩ | ⟨_, _, _, hl, _⟩
      · exact hs.loc.pf
      · rw [(load_frame hl).2.2.2.2.1]; exact hs.loc.pf
    · cases file with
      | none => simp [MapView.step]
      | some pts => exact fun _ => hk _ _ he
  | timer =>
    obtain ⟨m', o, h, _⟩ := mapTimer_spec (env := env) hs.map
    refine fin { n with map := m' } o (by simp [step, h]) ⟨hs.loc.1, hs.loc.2, hs.loc.3, hs.loc.4⟩ ?_
    simp only [MapView.step]
    split_ifs with hm
    · intro _ h0
      exact hs.active hm (List.append_eq_nil_iff.1 h0).1
    · exact fun h => absurd h hm
  | cloud header msg =>
    obtain ⟨n', o, h, h2⟩ := hcl header msg rfl
    exact fin n' o h h2 hs.active
  | odom msg =>
    obtain ⟨n', o, h⟩ := C88_terminates P lib env n (.odom msg) (.inl ⟨_, rfl⟩)
    exact fin n' o h (hloc n' o h (by simp) (hpfne _ (sensor_frame _ h).2.2.2.2.2.1)) hs.active
  | imu msg =>
    obtain ⟨n', o, h⟩ := C88_terminates P lib env n (.imu msg) (.inr ⟨_, rfl⟩)
    exact fin n' o h (hloc n' o h (by simp) (hpfne _ (sensor_frame _ h).2.2.2.2.2.1)) hs.active
  | initialpose msg =>
    obtain ⟨n', o, h⟩ := cbPosition_total P lib env n msg
    have h' : step P lib env n (.initialpose msg) = .ok (n', o) := h
    refine fin n' o h' (hloc n' o h' (by simp) (hpfne _ ?_)) ?_
    · rcases cbPosition_ok h with ⟨rfl, _⟩ | ⟨_, t, st, _, rfl, _⟩
      · rfl
      · simp [PF.Filter.init, PF.Filter.predict]
    · simp only [MapView.step]
      split_ifs <;> exact hs.active
  | landmark msg =>
    obtain ⟨pf, h⟩ := resampleFilter_total hv 0 P.resampleVar
      (n.loc.pf.measure Real.log (landmarkLikelihood msg.cov (State6.ofQuat msg.pos msg.rot)))
    have h' : step P lib env n (.landmark msg) = .ok ({ n with loc := { n.loc with pf := pf } },
        [publishParticles P n.odo n.loc.tolBase (env.now 0) pf]) := by
      show cbLandmark P env n msg = _
      unfold cbLandmark
      simp only [h, Outcome.bind_ok]
    refine fin _ _ h' (hloc _ _ h' (by simp) (hpfne _ ?_)) hs.active
    simp only
    rw [(resampleFilter_spec hv h).1]
    simp only [PF.Filter.measure]
    split_ifs <;> simp [PF.weigh]
  | resize size =>
    have he : 0 < size := he
    obtain ⟨pf, h⟩ := resizeFilter_total hv hs.loc.pf (le_of_lt he)
    have h' : step P lib env n (.resize size) = .ok ({ n with loc := { n.loc with pf := pf } },
        [publishParticles P n.odo n.loc.tolBase (env.now 0) pf, .response true]) := by
      show cbResize P env n size = _
      unfold cbResize
      simp only [h, Outcome.bind_ok]
    refine fin _ _ h' (hloc _ _ h' (by simp) ?_) hs.active
    have := (resizeFilter_spec hv h).2.1
    intro hn
    have hn : pf.particles = [] := hn
    rw [hn] at this
    simp at this
    omega
  | expansionReset =>
    obtain ⟨pf, h⟩ := addNoise_total env 0 P.expansionVar n.loc.pf
    have h' : step P lib env n .expansionReset = .ok ({ n with loc := { n.loc with pf := pf } },
        [publishParticles P n.odo n.loc.tolBase (env.now 0) pf, .response true]) := by
      show cbExpansionReset P env n = _
      unfold cbExpansionReset
      simp only [h, Outcome.bind_ok]
    exact fin _ _ h' (hloc _ _ h' (by simp) (hpfne _ (addNoise_spec h).1)) hs.active
  | globalLocalization =>
    by_cases hm : n.map.hasMap = true
    · obtain ⟨ha, _, _, hd⟩ := hs.map
      have hav : v.available = true := by rw [← ha, hm]
      rcases hd with ⟨_, _, _, h4, _⟩ | ⟨b, c, hb, _, _, hh, hc⟩
      · rw [hav] at h4; cases h4
      have hbase : (n.map.base.bind fun b => n.map.heap[b]?) = some c := by rw [hb]; exact hh
      have hst : standingPoints P lib env c.points ≠ [] := by
        obtain ⟨w, hw, hf⟩ := hsound
        exact standing_nonempty hP.grid hw hf hk (by rw [hc]; exact hs.active hav)
      have hlen := List.length_pos_iff.2 hst
      have hpos : (0 : ℤ) < ((standingPoints P lib env c.points).length : ℤ) * P.divYaw :=
        mul_pos (by exact_mod_cast hlen) hP.divYaw
      obtain ⟨pf, hpf⟩ := resizeFilter_total hv hs.loc.pf (le_of_lt hpos)
      have hl := (resizeFilter_spec hv hpf).2.1
      obtain ⟨ps, hps, hpl⟩ := place_total hP.divYaw (1 / ((standingPoints P lib env c.points).length : ℝ)) n.imu.quat
        pf.particles 0 (standingPoints P lib env c.points) le_rfl hP.divYaw (by rw [hl]; omega)
      have h' : step P lib env n .globalLocalization =
          .ok ({ n with loc := { n.loc with pf := { pf with particles := ps } } }, [.response true]) := by
        show cbGlobalLocalization P lib env n = _
        unfold cbGlobalLocalization
        rw [if_pos hm, hbase]
        simp only [hpf, Outcome.bind_ok, hps]
      refine fin _ _ h' (hloc _ _ h' (by simp) ?_) hs.active
      intro hn
      have hn : ps = [] := hn
      rw [hn] at hpl
      simp at hpl
      omega
    · have h' : step P lib env n .globalLocalization = .ok (n, [.response false]) := by
        show cbGlobalLocalization P lib env n = _
        unfold cbGlobalLocalization
        rw [if_neg hm]
      exact fin _ _ h' hs.loc hs.active
  | reconfigure w => exact fin _ _ rfl ⟨hs.loc.1, hs.loc.2, hs.loc.3, hs.loc.4⟩ hs.active

theorem step_safe {P : Params} (hP : Sane P) {lib : Lib C} {I : C → Prop} (hL : Works P lib I)
    {env : Env} (hv : env.Valid) (hk : KeepsPoints env) {n : Node C} {v : MapView} (hs : Safe P I n v)
    {ev : Event} (he : SafeEvent ev) :
    ∃ n' o, step P lib env n ev = .ok (n', o) ∧ Safe P I n' (v.step P (ev, env)) := by
  refine step_safe' hP.toSensible hL.sound hv hk hs he fun header msg hev => ?_
  subst hev
  refine cbCloud_total hP.toSensible hs.acc hs.loc header he fun hm a hl hc _ => ?_
  exact measure_works hP.toSensible hL hv (n := { freshen env n with acc := a }) hl
    (fun _ _ => prepare_total hP.uniform hv hc) (hs.acc.all hm)
    ⟨hs.loc.1, hs.loc.2, hs.loc.3, hs.loc.4⟩

theorem run_safe {P : Params} (hP : Sane P) {lib : Lib C} {I : C → Prop} (hL : Works P lib I)
    {h : History} (hv : ∀ e ∈ h, e.2.Valid ∧ KeepsPoints e.2 ∧ SafeEvent e.1) {n : Node C} {v : MapView}
    (hs : Safe P I n v) :
    ∃ n' outs, run P lib n h = .ok (n', outs) ∧ Safe P I n' (h.foldl (MapView.step P) v) := by
  induction h generalizing n v with
  | nil => exact ⟨n, [], rfl, hs⟩
  | cons e h ih =>
    obtain ⟨ev, env⟩ := e
    obtain ⟨h1, h2, h3⟩ := hv (ev, env) List.mem_cons_self
    obtain ⟨n1, o, hst, hs1⟩ := step_safe hP hL h1 h2 hs h3
    obtain ⟨n', outs, hr, hs'⟩ := ih (fun e he => hv e (List.mem_cons_of_mem _ he)) hs1
    refine ⟨n', o :: outs, ?_, hs'⟩
    unfold run
    rw [hst, Outcome.bind_ok, hr]
    rfl

theorem start_safe {P : Params} (hP : Sensible P) {lib : Lib C} {I : C → Prop} (hL : Works P lib I) (env0 : Env)
    (motion0 : Motion ℝ) : ∃ n0, start P lib env0 motion0 = .ok n0 ∧ Safe P I n0 MapView.init := by
  obtain ⟨n0, hs⟩ := start_total P lib env0 motion0 (le_of_lt hP.particles)
  refine ⟨n0, hs, start_accInv hs, ?_, ?_, by simp [MapView.init]⟩
  · obtain ⟨_, ns, _, rfl⟩ := start_ok hs
    exact mapInv_init P
  · obtain ⟨_, ns, _, rfl⟩ := start_ok hs
    refine ⟨.make, .make, hL.init, ?_⟩
    have := hP.particles
    intro hn
    have h1 := congrArg List.length hn
    simp [PF.Filter.init, PF.Filter.new] at h1
    omega

end Node
end Mcl3dl
