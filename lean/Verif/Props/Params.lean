import Verif.Spec.Interface
import Mathlib.Tactic

/-!
# Parameters and compatibility: C102–C105
-/

set_option linter.unusedSectionVars false

namespace Mcl3dl
namespace Params

/-! ## C102: renamed parameters -/

/-- A parameter that holds a number (an old parameter that holds something else cannot be converted). -/
def NumberOrUnset (s : Server) (name : String) : Prop := s name ≠ none → (s.getDouble name).isSome

/-- What the user expects of a renamed number: the new name's value if the new name is set, otherwise
the old name's value if that is set, otherwise the default. -/
noncomputable def expected (s : Server) (new old : String) (d : ℝ) : ℝ :=
  if s new ≠ none then s.dblD new d else if s old ≠ none then s.dblD old d else d

/-- The same for an integer parameter. -/
noncomputable def expectedInt (s : Server) (new old : String) (d : ℤ) : ℤ :=
  if s new ≠ none then s.intD new d else if s old ≠ none then s.intD old d else d

theorem paramRename_other (junk : ℝ) (s : Server) (new old n : String) (h : n ≠ new) :
    Compat.paramRename junk s new old n = s n := by
  unfold Compat.paramRename
  cases s old with
  | none => rfl
  | some v =>
    cases s new with
    | some w => rfl
    | none => simp [Server.set, h]

theorem foldl_other (junk : String → ℝ) (l : List (String × String)) : ∀ (s : Server) (n : String),
    n ∉ l.map Prod.fst → (l.foldl (fun s r => Compat.paramRename (junk r.1) s r.1 r.2) s) n = s n := by
  induction l with
  | nil => intro s n _; rfl
  | cons r l ih =>
    intro s n hn
    simp only [List.map_cons, List.mem_cons, not_or] at hn
    rw [List.foldl_cons, ih _ _ hn.2, paramRename_other _ _ _ _ _ hn.1]

theorem foldl_new (junk : String → ℝ) (l : List (String × String)) (hnd : (l.map Prod.fst).Nodup)
    (hdis : ∀ r ∈ l, r.2 ∉ l.map Prod.fst) : ∀ (s : Server), ∀ r ∈ l,
    (l.foldl (fun s r => Compat.paramRename (junk r.1) s r.1 r.2) s) r.1 =
      Compat.paramRename (junk r.1) s r.1 r.2 r.1 := by
  induction l with
  | nil => intro s r hr; simp at hr
  | cons a l ih =>
    intro s r hr
    rw [List.map_cons, List.nodup_cons] at hnd
    rw [List.foldl_cons]
    rcases List.mem_cons.1 hr with rfl | hr
    · rw [foldl_other _ _ _ _ hnd.1]
    · have hne : r.1 ≠ a.1 := fun h => hnd.1 (h ▸ List.mem_map_of_mem hr)
      have hold : r.2 ≠ a.1 := fun h => hdis r (List.mem_cons_of_mem _ hr) (by simp [h])
      rw [ih hnd.2 (fun r hr h => hdis r (List.mem_cons_of_mem _ hr) (by simp [h])) _ r hr]
      have e1 := paramRename_other (junk a.1) s a.1 a.2 r.1 hne
      have e2 := paramRename_other (junk a.1) s a.1 a.2 r.2 hold
      generalize Compat.paramRename (junk a.1) s a.1 a.2 = s' at e1 e2
      unfold Compat.paramRename
      rw [e2]
      cases h2 : s r.2 with
      | none => simp only; exact e1
      | some v =>
        simp only
        rw [e1]
        cases h1 : s r.1 with
        | some w => simp only; rw [e1, h1]
        | none =>
          simp only [Server.set, if_true, Server.getDouble]
          rw [e2]

theorem renames_ok : (renames.map Prod.fst).Nodup ∧ ∀ r ∈ renames, r.2 ∉ renames.map Prod.fst := by
  constructor
  · decide
  · decide

/-- C102: the renaming changes no name but the new names, so the old names keep their values. -/
theorem C102_old_untouched (junk : String → ℝ) (s : Server) (n : String)
    (hn : ∀ r ∈ renames, r.1 ≠ n) : rename junk s n = s n ∧ ∀ r ∈ renames, rename junk s r.2 = s r.2 := by
  constructor
  · apply foldl_other
    intro h
    obtain ⟨r, hr, he⟩ := List.mem_map.1 h
    exact hn r hr he
  · intro r hr
    exact foldl_other _ _ _ _ (renames_ok.2 r hr)

theorem rename_eq (junk : String → ℝ) (s : Server) (r : String × String) (hr : r ∈ renames) :
    rename junk s r.1 = Compat.paramRename (junk r.1) s r.1 r.2 r.1 :=
  foldl_new junk renames renames_ok.1 renames_ok.2 s r hr

/-- C102, the old parameter is a number or not set: for every renamed parameter, a program reading the
new name gets the expected number. (The other case is `C102_not_a_number`.) -/
theorem C102_renamed (junk : String → ℝ) (s : Server) (new old : String)
    (hr : (new, old) ∈ renames) (hnum : NumberOrUnset s old) (d : ℝ) (di : ℤ) :
    (rename junk s).dblD new d = expected s new old d ∧
    (rename junk s).intD new di = expectedInt s new old di := by
  have h := rename_eq junk s (new, old) hr
  simp only [Compat.paramRename] at h
  have toInt_cast : ∀ i : ℤ, Server.toInt (i : ℝ) = i := by
    intro i; simp [Server.toInt]
  unfold expected expectedInt Server.dblD Server.intD Server.getDouble Server.getInt
  rw [h]
  cases ho : s old with
  | none => cases hn : s new <;> simp [hn]
  | some v =>
    cases hn : s new with
    | some w => simp [hn]
    | none =>
      have := hnum (by rw [ho]; simp)
      simp only [Server.getDouble, ho] at this
      simp only [Server.set, if_true, Server.getDouble, ho]
      cases v with
      | int i => simp [toInt_cast]
      | dbl r => simp
      | bool b => simp at this
      | str b => simp at this

/-- C102, the old parameter is set to something that is not a number: if the new name is set the reader
gets its value as usual; if not, it gets neither a configured value nor the default but whatever the
uninitialised variable of the renaming held. -/
theorem C102_not_a_number (junk : String → ℝ) (s : Server) (new old : String)
    (hr : (new, old) ∈ renames) (hset : s old ≠ none) (hnum : s.getDouble old = none) (d : ℝ) (di : ℤ) :
    (s new ≠ none → (rename junk s).dblD new d = s.dblD new d ∧
      (rename junk s).intD new di = s.intD new di) ∧
    (s new = none → (rename junk s).dblD new d = junk new ∧
      (rename junk s).intD new di = Server.toInt (junk new)) := by
  have h := rename_eq junk s (new, old) hr
  simp only [Compat.paramRename] at h
  obtain ⟨v, ho⟩ := Option.ne_none_iff_exists'.1 hset
  simp only [ho] at h
  constructor
  · intro hn
    obtain ⟨w, hw⟩ := Option.ne_none_iff_exists'.1 hn
    simp only [hw] at h
    simp only [Server.dblD, Server.intD, Server.getDouble, Server.getInt, h, hw, and_self]
  · intro hn
    simp only [hn, hnum, Server.set, if_true, Option.getD_none] at h
    simp only [Server.dblD, Server.intD, Server.getDouble, Server.getInt, h, Option.getD_some, and_self]

/-- What an accepted configuration consists of. -/
theorem load_some {junk : String → ℝ} {s : Server} {p : Params} (h : load junk s = some p) :
    loadFrom junk (rename junk s) (s.boolD "fake_imu" false) (s.boolD "fake_odom" false) = p := by
  unfold load at h
  simp only [] at h
  generalize loadFrom junk (rename junk s) _ _ = q at h ⊢
  split_ifs at h
  exact Option.some.inj h

/-- C102, in terms of what `load` produces: the sixteen renamed parameters of an accepted
configuration. -/
theorem C102_loaded (junk : String → ℝ) (s : Server) (p : Params)
    (hp : load junk s = some p) (hnum : ∀ r ∈ renames, NumberOrUnset s r.2) :
    p.like.clip.near = expected s "likelihood/clip_near" "clip_near" (1 / 2) ∧
    p.like.clip.far = expected s "likelihood/clip_far" "clip_far" 10 ∧
    p.like.clip.zMin = expected s "likelihood/clip_z_min" "clip_z_min" (-2) ∧
    p.like.clip.zMax = expected s "likelihood/clip_z_max" "clip_z_max" 2 ∧
    p.like.matchDistMin = expected s "likelihood/match_dist_min" "match_dist_min" (1 / 5) ∧
    p.like.matchDistFlat = expected s "likelihood/match_dist_flat" "match_dist_flat" (1 / 20) ∧
    p.like.matchWeight = expected s "likelihood/match_weight" "match_weight" 5 ∧
    p.like.numDefault = toSize (expectedInt s "likelihood/num_points" "num_points" 96) ∧
    p.like.numGlobal = toSize (expectedInt s "likelihood/num_points_global" "num_points_global" 8) ∧
    p.beam.clip.near = expected s "beam/clip_near" "clip_beam_near" (1 / 2) ∧
    p.beam.clip.far = expected s "beam/clip_far" "clip_beam_far" 4 ∧
    p.beam.clip.zMin = expected s "beam/clip_z_min" "clip_beam_z_min" (-2) ∧
    p.beam.clip.zMax = expected s "beam/clip_z_max" "clip_beam_z_max" 2 ∧
    p.beam.numDefault = toSize (expectedInt s "beam/num_points" "num_points_beam" 3) ∧
    p.beam.likelihoodMin = expected s "beam/beam_likelihood" "beam_likelihood" (1 / 5) ∧
    p.beam.angTotalRef = expected s "beam/ang_total_ref" "ang_total_ref" (Real.pi / 6) := by
  have hp' := load_some hp
  have hD : ∀ (new old : String) (d : ℝ), (new, old) ∈ renames →
      (rename junk s).dblD new d = expected s new old d :=
    fun new old d hr => (C102_renamed junk s new old hr (hnum _ hr) d 0).1
  have hI : ∀ (new old : String) (d : ℤ), (new, old) ∈ renames →
      (rename junk s).intD new d = expectedInt s new old d :=
    fun new old d hr => (C102_renamed junk s new old hr (hnum _ hr) 0 d).2
  subst hp'
  simp only [loadFrom, loadLike, loadBeam]
  refine ⟨hD _ _ _ (by decide), hD _ _ _ (by decide), hD _ _ _ (by decide), hD _ _ _ (by decide),
    hD _ _ _ (by decide), hD _ _ _ (by decide), hD _ _ _ (by decide),
    congrArg _ (hI _ _ _ (by decide)), congrArg _ (hI _ _ _ (by decide)),
    hD _ _ _ (by decide), hD _ _ _ (by decide), hD _ _ _ (by decide), hD _ _ _ (by decide),
    congrArg _ (hI _ _ _ (by decide)), hD _ _ _ (by decide), hD _ _ _ (by decide)⟩

/-- C102, the second case on a concrete configuration: the old parameter is the string "0.5", and the
program runs with any value `x` at all — whatever the uninitialised variable held. -/
theorem C102_mistyped (x : ℝ) :
    ∃ (junk : String → ℝ) (s : Server) (p : Params), load junk s = some p ∧
      s "clip_near" = some (.str "0.5") ∧ s "likelihood/clip_near" = none ∧ p.like.clip.near = x := by
  refine ⟨fun _ => x, fun n => if n = "clip_near" then some (.str "0.5") else none, _, rfl, by simp, by simp, ?_⟩
  simp only [loadFrom, loadLike, Server.dblD, Server.getDouble]
  rw [rename_eq (fun _ => x) _ ("likelihood/clip_near", "clip_near") (by decide)]
  simp [Compat.paramRename, Server.set, Server.getDouble]

/-! ## C103: compatibility level -/

/-- C103: the configuration is refused with an exception iff the compatibility level is below the
supported level 0 or above the current level 1 (the default level is 0). -/
theorem C103_refused (junk : String → ℝ) (s : Server) :
    (∃ msg, configureIface junk s = .throws msg) ↔ s.intD "compatible" 0 < 0 ∨ 1 < s.intD "compatible" 0 := by
  unfold configureIface Compat.checkCompatMode Compat.getCompat Compat.defaultLevel Compat.supportedLevel
    Compat.currentLevel
  split_ifs with h1 h2
  · simp [h1]
  · simp only [Outcome.bind_throws, Outcome.throws.injEq, exists_eq', true_iff]; right; exact h2
  · simp only [Outcome.bind_ok]
    constructor
    · rintro ⟨m, hm⟩
      split at hm <;> simp at hm
    · rintro (h | h)
      · exact absurd h h1
      · exact absurd h h2

/-- C103: every endpoint of an accepted configuration (other than `load_pcd`, which has one name) has the new (public)
name iff the level is the current one, and the old (private) name otherwise. -/
theorem C103_names (junk : String → ℝ) (s : Server) (p : Params) (eps : List (Endpoint × Compat.Name))
    (h : configureIface junk s = .ok (some (p, eps))) (e : Endpoint) (name : Compat.Name)
    (he : (e, name) ∈ eps) (hpcd : e ≠ .loadPcd) :
    (s.intD "compatible" 0 = 1 → name = e.names.1 ∧ name.isPrivate = false) ∧
    (s.intD "compatible" 0 = 0 → name = e.names.2 ∧ name.isPrivate = true) ∧
    (s.intD "compatible" 0 = 0 ∨ s.intD "compatible" 0 = 1) := by
  have hlevel : ¬ (s.intD "compatible" 0 < 0 ∨ 1 < s.intD "compatible" 0) := by
    rw [← C103_refused junk s, h]; simp
  unfold configureIface at h
  cases hc : Compat.checkCompatMode s with
  | throws m => rw [hc] at h; simp at h
  | ub m => rw [hc] at h; simp at h
  | ok u =>
    rw [hc] at h
    simp only [Outcome.bind_ok] at h
    cases hl : load junk s with
    | none => rw [hl] at h; simp at h
    | some p' =>
      rw [hl] at h
      simp only [Outcome.ok.injEq, Option.some.injEq, Prod.mk.injEq] at h
      rw [← h.2] at he
      obtain ⟨e', _, he'⟩ := List.mem_map.1 he
      simp only [Prod.mk.injEq] at he'
      obtain ⟨rfl, hn⟩ := he'
      have hcompat : Compat.getCompat (rename junk s) = s.intD "compatible" 0 := by
        unfold Compat.getCompat Server.intD Server.getInt
        rw [(C102_old_untouched junk s "compatible" (by decide)).1]
        rfl
      have hpub : e'.names.1.isPrivate = false ∧ e'.names.2.isPrivate = true := by
        cases e' <;> first | exact ⟨rfl, rfl⟩ | exact absurd rfl hpcd
      unfold Compat.choose at hn
      rw [hcompat] at hn
      unfold Compat.currentLevel at hn
      refine ⟨fun h1 => ?_, fun h0 => ?_, by omega⟩
      · rw [if_neg (by simp [h1])] at hn
        exact ⟨hn.symm, hn ▸ hpub.1⟩
      · rw [if_pos (by simp [h0])] at hn
        exact ⟨hn.symm, hn ▸ hpub.2⟩

/-- C103: the topics and services of an accepted configuration are, in this order and under these names, those of the
table: with the names of the first column at level 1 and those of the second one at level 0, odometry and the IMU unless
they are faked. -/
theorem C103_opened (junk : String → ℝ) (s : Server) (p : Params) (eps : List (Endpoint × Compat.Name))
    (h : configureIface junk s = .ok (some (p, eps))) :
    eps.map (fun e => (e.1, Interface.written e.2)) =
      (Interface.table (s.boolD "fake_odom" false) (s.boolD "fake_imu" false)).map fun r =>
        (r.1, if s.intD "compatible" 0 = 1 then r.2.1 else r.2.2) := by
  have hlevel : ¬ (s.intD "compatible" 0 < 0 ∨ 1 < s.intD "compatible" 0) := by
    rw [← C103_refused junk s, h]; simp
  unfold configureIface at h
  obtain ⟨u, hu⟩ : ∃ u, Compat.checkCompatMode s = .ok u := by
    cases hc : Compat.checkCompatMode s with
    | throws m => rw [hc] at h; simp at h
    | ub m => rw [hc] at h; simp at h
    | ok u => exact ⟨u, rfl⟩
  rw [hu, Outcome.bind_ok] at h
  cases hl : load junk s with
  | none => rw [hl] at h; simp at h
  | some p' =>
    rw [hl] at h
    simp only [Outcome.ok.injEq, Option.some.injEq, Prod.mk.injEq] at h
    obtain ⟨rfl, rfl⟩ := h
    have hcompat : Compat.getCompat (rename junk s) = s.intD "compatible" 0 := by
      unfold Compat.getCompat Server.intD Server.getInt
      rw [(C102_old_untouched junk s "compatible" (by decide)).1]
      rfl
    have hfake : p'.fakeOdom = s.boolD "fake_odom" false ∧ p'.fakeImu = s.boolD "fake_imu" false := by
      rw [← load_some hl]
      exact ⟨rfl, rfl⟩
    unfold Endpoint.opened Interface.table Compat.choose Compat.currentLevel
    rw [hfake.1, hfake.2, hcompat]
    have h01 : s.intD "compatible" 0 = 0 ∨ s.intD "compatible" 0 = 1 := by omega
    rcases h01 with h | h <;> rw [h] <;>
      cases s.boolD "fake_odom" false <;> cases s.boolD "fake_imu" false <;> rfl

/-- C103: the node does not start iff both odometry and the IMU are faked. -/
theorem C103_not_both (junk : String → ℝ) (s : Server) :
    configureIface junk s = .ok none ↔
      (0 ≤ s.intD "compatible" 0 ∧ s.intD "compatible" 0 ≤ 1) ∧
        s.boolD "fake_imu" false = true ∧ s.boolD "fake_odom" false = true := by
  have hlevel := C103_refused junk s
  constructor
  · intro h
    have hl : ¬ (s.intD "compatible" 0 < 0 ∨ 1 < s.intD "compatible" 0) := by
      rw [← hlevel, h]; simp
    refine ⟨by omega, ?_⟩
    by_contra hc
    unfold configureIface at h
    cases hk : Compat.checkCompatMode s with
    | throws m => rw [hk] at h; simp at h
    | ub m => rw [hk] at h; simp at h
    | ok u =>
      have hf : ¬ ((s.boolD "fake_imu" false && s.boolD "fake_odom" false) = true) := by simpa using hc
      rw [hk, Outcome.bind_ok] at h
      simp only [load] at h
      rw [if_neg hf] at h
      simp at h
  · rintro ⟨hl, hi, ho⟩
    unfold configureIface Compat.checkCompatMode Compat.getCompat Compat.defaultLevel Compat.supportedLevel
      Compat.currentLevel
    rw [if_neg (by omega), if_neg (by omega), Outcome.bind_ok]
    simp only [load]
    rw [if_pos (by rw [hi, ho]; rfl)]

/-! ## C104: label filter -/

/-- C104: with `beam/filter_label_max` unset (or not a number) every 32-bit map label passes the filter;
with a configured value `v ≥ 0` exactly the labels greater than `v` are filtered out, with `-v` exactly the `v - 1`
largest labels. -/
theorem C104_label_filter (junk : String → ℝ) (s : Server) (p : Params) (hp : load junk s = some p)
    (label : ℕ) (hl : label < 2 ^ 32) :
    (s.getInt "beam/filter_label_max" = none → ¬ p.beam.filterLabelMax < label) ∧
    (∀ v : ℕ, v < 2 ^ 31 → s.getInt "beam/filter_label_max" = some (v : ℤ) →
      (p.beam.filterLabelMax < label ↔ v < label)) ∧
    (∀ v : ℕ, 0 < v → v ≤ 2 ^ 31 → s.getInt "beam/filter_label_max" = some (-(v : ℤ)) →
      (p.beam.filterLabelMax < label ↔ 2 ^ 32 - v < label)) := by
  have hp' := load_some hp
  subst hp'
  have e : (rename junk s).getInt "beam/filter_label_max" = s.getInt "beam/filter_label_max" := by
    unfold Server.getInt
    rw [(C102_old_untouched junk s _ (by decide)).1]
  simp only [loadFrom, loadBeam, Server.intD, e]
  refine ⟨?_, ?_, ?_⟩
  · intro h
    rw [h]
    simp only [Option.getD_none, toU32]
    omega
  · intro v hv h
    rw [h]
    simp only [Option.getD_some, toU32]
    omega
  · intro v h0 hv h
    rw [h]
    simp only [Option.getD_some, toU32]
    omega

/-! ## C105: DDA grid -/

/-- C105: with DDA enabled the effective grid size is at least the largest map grid size, and it is the
configured value (or the default 0.2) whenever that is at least the largest map grid size. -/
theorem C105_dda_grid (junk : String → ℝ) (s : Server) (p : Params) (hp : load junk s = some p)
    (hdda : p.useDda = true) :
    p.mapDownsample.x ≤ p.ddaGridSize ∧ p.mapDownsample.y ≤ p.ddaGridSize ∧
    p.mapDownsample.z ≤ p.ddaGridSize ∧
    (p.mapDownsample.x ≤ s.dblD "beam/dda_grid_size" (1 / 5) →
      p.mapDownsample.y ≤ s.dblD "beam/dda_grid_size" (1 / 5) →
      p.mapDownsample.z ≤ s.dblD "beam/dda_grid_size" (1 / 5) →
      p.ddaGridSize = s.dblD "beam/dda_grid_size" (1 / 5)) ∧
    (p.ddaGridSize = s.dblD "beam/dda_grid_size" (1 / 5) ∨ p.ddaGridSize = p.mapGridMax) := by
  have hp' := load_some hp
  subst hp'
  simp only [loadFrom] at hdda
  have e : (rename junk s).dblD "beam/dda_grid_size" (1 / 5) = s.dblD "beam/dda_grid_size" (1 / 5) := by
    unfold Server.dblD Server.getDouble
    rw [(C102_old_untouched junk s _ (by decide)).1]
  simp only [loadFrom, loadDdaGrid, hdda, if_true, e]
  generalize (rename junk s).dblD "map_downsample_x" (1 / 10) = gx
  generalize (rename junk s).dblD "map_downsample_y" (1 / 10) = gy
  generalize (rename junk s).dblD "map_downsample_z" (1 / 10) = gz
  generalize s.dblD "beam/dda_grid_size" (1 / 5) = d
  have h1 : gx ≤ max (max gx gy) gz := le_max_of_le_left (le_max_left _ _)
  have h2 : gy ≤ max (max gx gy) gz := le_max_of_le_left (le_max_right _ _)
  have h3 : gz ≤ max (max gx gy) gz := le_max_right _ _
  split_ifs with h
  · refine ⟨h1, h2, h3, ?_, Or.inr rfl⟩
    intro a b c
    exact absurd (max_le (max_le a b) c) (not_le.2 h)
  · rw [not_lt] at h
    exact ⟨h1.trans h, h2.trans h, h3.trans h, fun _ _ _ => rfl, Or.inl rfl⟩

/-! ## Non-vacuity -/

/-- A server with old and new parameters, level 1, DDA with a too small grid and a label filter. -/
noncomputable def exServer : Server := fun n =>
  if n = "clip_near" then some (.dbl (7 / 10))
  else if n = "num_points" then some (.int 50)
  else if n = "likelihood/clip_far" then some (.int 20)
  else if n = "clip_far" then some (.int 30)
  else if n = "compatible" then some (.int 1)
  else if n = "beam/use_raycast_using_dda" then some (.bool true)
  else if n = "beam/dda_grid_size" then some (.dbl (1 / 100))
  else if n = "beam/filter_label_max" then some (.int 3)
  else none

example : (∀ r ∈ renames, NumberOrUnset exServer r.2) ∧
    (∃ p, load (fun _ => 0) exServer = some p ∧ p.useDda = true) ∧
    exServer.getInt "beam/filter_label_max" = some ((3 : ℕ) : ℤ) ∧
    expected exServer "likelihood/clip_near" "clip_near" (1 / 2) = 7 / 10 ∧
    expected exServer "likelihood/clip_far" "clip_far" 10 = 20 ∧
    expectedInt exServer "likelihood/num_points" "num_points" 96 = 50 ∧
    ¬ ∃ msg, configureIface (fun _ => 0) exServer = .throws msg := by
  refine ⟨?_, ⟨_, rfl, ?_⟩, ?_, ?_, ?_, ?_, ?_⟩
  · simp [renames, NumberOrUnset, exServer, Server.getDouble]
  · simp only [loadFrom, Server.boolD, Server.getBool]
    rw [(C102_old_untouched _ exServer _ (by decide)).1]
    simp [exServer]
  · simp [Server.getInt, exServer]
  · simp [expected, exServer, Server.dblD, Server.getDouble]
  · simp [expected, exServer, Server.dblD, Server.getDouble]
  · simp [expectedInt, exServer, Server.intD, Server.getInt]
  · rw [C103_refused]
    simp [exServer, Server.intD, Server.getInt]

/-- Faked odometry at the current level. -/
def fakedOdom : Server := fun n =>
  if n = "fake_odom" then some (.bool true) else if n = "compatible" then some (.int 1) else none

/-- An accepted configuration for C103: faked odometry at the current level; the node subscribes to the IMU and not to
odometry. -/
example : ∃ (p : Params) (eps : List (Endpoint × Compat.Name)), configureIface (fun _ => 0) fakedOdom = .ok (some (p, eps)) ∧
    (Endpoint.imu, "imu/data") ∈ eps.map (fun e => (e.1, Interface.written e.2)) ∧
    ∀ name, (Endpoint.odom, name) ∉ eps.map (fun e => (e.1, Interface.written e.2)) := by
  obtain ⟨p, eps, h⟩ : ∃ (p : Params) (eps : List (Endpoint × Compat.Name)),
      configureIface (fun _ => 0) fakedOdom = .ok (some (p, eps)) := ⟨_, _, rfl⟩
  refine ⟨p, eps, h, ?_, fun name => ?_⟩ <;> rw [C103_opened (fun _ => 0) _ _ _ h] <;>
    simp [fakedOdom, Interface.table, Interface.always, Server.boolD, Server.getBool, Server.intD, Server.getInt]

end Params
end Mcl3dl
