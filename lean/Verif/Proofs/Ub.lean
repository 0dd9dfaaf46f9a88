import Verif.Proofs.NodeCloud
import Verif.Props.LidarBeam
import Verif.Props.NodeSensors

/-! # Which kinds of undefined behaviour a step can have -/

namespace Mcl3dl

/-- If the execution is undefined, the reason satisfies `U`. -/
def Outcome.Only {α : Type*} (U : String → Prop) (x : Outcome α) : Prop := ∀ w, x = .ub w → U w

namespace Outcome.Only
variable {α β : Type*} {U : String → Prop}

theorem ok (a : α) : (Outcome.ok a).Only U := by intro w h; cases h
theorem throws (e : String) : (Outcome.throws e : Outcome α).Only U := by intro w h; cases h
theorem ub {w : String} (h : U w) : (Outcome.ub w : Outcome α).Only U := by
  intro w' h'; cases h'; exact h
theorem bind {x : Outcome α} {f : α → Outcome β} (hx : x.Only U) (hf : ∀ a, x = .ok a → (f a).Only U) :
    (x.bind f).Only U := by
  cases x with
  | ok a => exact hf a rfl
  | throws e => exact throws e
  | ub w => exact ub (hx w rfl)
theorem ite {c : Prop} [Decidable c] {a b : Outcome α} (ha : a.Only U) (hb : b.Only U) :
    (if c then a else b).Only U := by
  split_ifs
  · exact ha
  · exact hb
theorem of_ok {x : Outcome α} (h : ∃ a, x = .ok a) : x.Only U := by
  obtain ⟨a, rfl⟩ := h; exact ok a

theorem iterO {S R : Type*} {step : S → Outcome (S ⊕ R)} (h : ∀ s, (step s).Only U) (n : ℕ) (s : S) :
    (Mcl3dl.iterO step n s).Only U := by
  induction n generalizing s with
  | zero => exact ok _
  | succ n ih =>
    rw [iterO_succ]
    refine bind (h s) fun x _ => ?_
    cases x with
    | inl s' => exact ih s'
    | inr r => exact ok _

theorem loopO {S R : Type*} {step : S → Outcome (S ⊕ R)} (h : ∀ s, (step s).Only U)
    (h1 : U "loop does not end") (h2 : U "unreachable") (s : S) : (Mcl3dl.loopO step s).Only U := by
  classical
  unfold Mcl3dl.loopO
  split_ifs with hn
  · have := iterO h (Nat.find hn) s
    revert this
    generalize Mcl3dl.iterO step (Nat.find hn) s = o
    intro this
    match o, this with
    | .ok (.inr r), _ => exact ok r
    | .ok (.inl _), _ => exact ub h2
    | .throws m, _ => exact throws m
    | .ub w, this => exact ub (this w rfl)
  · exact ub h1

end Outcome.Only

namespace Node
variable {C : Type}

/-- All reasons for undefined behaviour of the model but `bad` (which is a list). -/
abbrev Not (bad : List String) : String → Prop := fun w => w ∉ bad

/-- The library's ray caster is not undefined for one of the reasons in `bad` (nor are the searches it
makes, if they are not). -/
def LibOnly (U : String → Prop) (lib : Lib C) : Prop :=
  ∀ cloud search, (∀ p r, (search p r : Outcome (List (ℕ × ℝ))).Only U) →
    (∀ c b e, ((lib.caster cloud search).setRay c b e).Only U) ∧
    (∀ c, ((lib.caster cloud search).next c).Only U)

theorem search_only {U : String → Prop} (h : U "original_ids_[i] out of range") (P : Params) (lib : Lib C)
    (m : MapSt) (p : Vec3 ℝ) (r : ℝ) : (search P lib m p r).Only U := by
  unfold search ChunkedKdtree.radiusSearch
  simp only
  split_ifs
  · exact .throws _
  · exact .ok _
  · exact .ok _
  · exact .ub h

theorem getBeamStatus_only {U : String → Prop} (h1 : U "loop does not end") (h2 : U "unreachable")
    (h3 : U "null point dereferenced") (b : Lidar.Beam)
    {c : Lidar.Caster C} (hs : ∀ x p q, (c.setRay x p q).Only U) (hn : ∀ x, (c.next x).Only U)
    (l s : Vec3 ℝ) (w : C) : (Lidar.getBeamStatus b c l s w).Only U := by
  unfold Lidar.getBeamStatus
  refine .bind (hs _ _ _) fun x _ => .loopO (fun y => ?_) h1 h2 x
  unfold Lidar.beamRound
  refine .bind (hn _) fun r _ => ?_
  split
  · exact .ok _
  · refine .ite (.ok _) ?_
    split
    · exact .ub h3
    · exact .ite (.ok _) (.ite (.ite (.ok _) (.ok _)) (.ok _))

/-- The reasons that are shown to be impossible or possible by name below are all different from those
of the library models. -/
structure Common (U : String → Prop) : Prop where
  h1 : U "loop does not end"
  h2 : U "unreachable"
  h3 : U "null point dereferenced"
  h4 : U "original_ids_[i] out of range"
  h5 : U "points[] out of range"
  h6 : U "eigen_values_ is empty"
  h7 : U "back() of an empty vector"
  h8 : U "particles_[i] out of range"
  h9 : U "particles_[0] of an empty vector"
  h10 : U "dereference of end iterator"
  h11 : U "negative double converted to size_t"
  h12 : U "keys_.front() on an empty vector"

theorem beamLoop_only {U : String → Prop} (hc : Common U) (b : Lidar.Beam)
    {c : Lidar.Caster C} (hs : ∀ x p q, (c.setRay x p q).Only U) (hn : ∀ x, (c.next x).Only U)
    {origins : List (Vec3 ℝ)} (s : State6 ℝ) (pts : List Point) (hl : ∀ q ∈ pts, q.attr < origins.length)
    (score : ℝ) (w : C) : (Lidar.beamLoop b c origins s pts score w).Only U := by
  induction pts generalizing score w with
  | nil => exact .ok _
  | cons p ps ih =>
    rw [Lidar.beamLoop]
    rw [List.getElem?_eq_getElem (hl p List.mem_cons_self)]
    exact .bind (getBeamStatus_only hc.h1 hc.h2 hc.h3 b hs hn _ _ _) fun r _ =>
      ih (fun q hq => hl q (List.mem_cons_of_mem _ hq)) _ _

theorem transform_attr {s : State6 ℝ} {pts : List Point} {k : ℕ} (h : ∀ q ∈ pts, q.attr < k) :
    ∀ q ∈ s.transform pts, q.attr < k := by
  intro q hq
  unfold State6.transform at hq
  obtain ⟨r, hr, rfl⟩ := List.mem_map.1 hq
  exact h r hr

theorem rayMarkers_only {U : String → Prop} (hc : Common U) (b : Lidar.Beam)
    {c : Lidar.Caster C} (hs : ∀ x p q, (c.setRay x p q).Only U) (hn : ∀ x, (c.next x).Only U)
    {origins : List (Vec3 ℝ)} (e : State6 ℝ) (pts : List Point) (hl : ∀ q ∈ pts, q.attr < origins.length)
    (id : ℕ) (w : C) : (rayMarkers b c origins e pts id w).Only U := by
  induction pts generalizing id w with
  | nil => exact .ok _
  | cons p ps ih =>
    rw [rayMarkers]
    rw [List.getElem?_eq_getElem (hl p List.mem_cons_self)]
    refine .bind (getBeamStatus_only hc.h1 hc.h2 hc.h3 b hs hn _ _ _) fun r _ => ?_
    exact .bind (ih (fun q hq => hl q (List.mem_cons_of_mem _ hq)) _ _) fun _ _ => .ok _

theorem likeLoop_only {U : String → Prop} {q : Lidar.LikeParams} {search : Vec3 ℝ → ℝ → Outcome (List (ℕ × ℝ))}
    (h : ∀ p r, (search p r).Only U) (pts : List Point) (score : ℝ) (num : ℕ) :
    (Lidar.likeLoop q search pts score num).Only U := by
  induction pts generalizing score num with
  | nil => exact .ok _
  | cons p ps ih =>
    rw [Lidar.likeLoop]
    refine .bind (h _ _) fun r _ => ?_
    split
    · exact ih _ _
    · simp only
      split_ifs <;> exact ih _ _

theorem particleLikelihood_only {U : String → Prop} (hc : Common U) {P : Params} {lib : Lib C} (hlib : LibOnly U lib)
    {m : MapSt} {p : Prep} (hl : ∀ q ∈ p.beamPc, q.attr < p.origins.length) (s : State6 ℝ) (w : WeighSt C) :
    (particleLikelihood P lib m p s w).Only U := by
  obtain ⟨hs, hn⟩ := hlib m.input (search P lib m) (search_only hc.h4 P lib m)
  unfold particleLikelihood
  refine .bind ?_ fun rb _ => .bind ?_ fun rl _ => .ok _
  · unfold Lidar.Beam.measure
    simp only
    split_ifs
    · exact .ok _
    · exact .bind (beamLoop_only hc _ hs hn _ _ (transform_attr hl) _ _) fun _ _ => .ok _
  · unfold Lidar.Like.measure
    simp only
    split_ifs
    · exact .ok _
    · exact .bind (likeLoop_only (search_only hc.h4 P lib m) _ _ _) fun _ _ => .ok _

theorem weighLoop_only {U : String → Prop} (hc : Common U) {P : Params} {lib : Lib C} (hlib : LibOnly U lib)
    {m : MapSt} {p : Prep} (hl : ∀ q ∈ p.beamPc, q.attr < p.origins.length) (qs : List Particle) (w : WeighSt C) :
    (weighLoop P lib m p qs w).Only U := by
  induction qs generalizing w with
  | nil => exact .ok _
  | cons q qs ih =>
    rw [weighLoop]
    exact .bind (particleLikelihood_only hc hlib hl _ _) fun _ _ => .bind (ih _) fun _ _ => .ok _

theorem covarianceOf_only {U : String → Prop} (hc : Common U) (P : Params) (env : Env) (call : ℕ) (f : Filter) :
    (covarianceOf P env call f).Only U := by
  unfold covarianceOf
  simp only
  refine .bind ?_ fun _ _ => .ok _
  unfold PF.Filter.covariance
  simp only
  split_ifs
  · exact .ok _
  · exact .ub hc.h8

theorem sample_only {U : String → Prop} (hc : Common U) (P : Params) (env : Env) (call : ℕ)
    (stats : Option (Sampler.Stats ℝ)) (pts : List Point) (num : ℕ) : (sample P env call stats pts num).Only U := by
  have hu : ∀ (ud : ℕ → ℕ) (l : List Point) (n k : ℕ), (Sampler.uniformLoop ud l n k).Only U := by
    intro ud l n
    induction n with
    | zero => intro k; exact .ok _
    | succ n ih =>
      intro k
      rw [Sampler.uniformLoop]
      split
      · exact .ub hc.h5
      · exact .bind (ih _) fun _ _ => .ok _
  have hp : ∀ (l : List Point) (is : List ℕ), (Sampler.pick l is).Only U := by
    intro l is
    induction is with
    | nil => exact .ok _
    | cons i is ih =>
      rw [Sampler.pick]
      split
      · exact .ub hc.h5
      · exact .bind ih fun _ _ => .ok _
  unfold sample
  split_ifs
  · refine .bind ?_ fun _ _ => .ok _
    unfold Sampler.sampleWithNormal
    split_ifs
    · exact .ok _
    · exact .ok _
    · split
      · exact .ub hc.h6
      · simp only
        split
        · exact .ub hc.h7
        · refine .bind (.loopO (fun s => ?_) hc.h1 hc.h2 _) fun _ _ => .bind (hp _ _) fun _ _ => .ok _
          unfold Sampler.selectRound
          simp only
          generalize (if _ ∈ s.2 then s.2 else _ :: s.2) = l
          split_ifs <;> exact .ok _
  · refine .bind ?_ fun _ _ => .ok _
    unfold Sampler.uniform
    split_ifs
    · exact .ok _
    · exact .bind (hu _ _ _ _) fun _ _ => .ok _

theorem deref_only {U : String → Prop} (hc : Common U) (d : List Particle) (i : ℕ) : (PF.deref d i).Only U := by
  unfold PF.deref
  split
  · exact .ok _
  · exact .ub hc.h10

theorem resampleFilter_only {U : String → Prop} (env : Env) (hv : env.Valid) (call : ℕ)
    (sigma : State6 ℝ) (f : Filter) : (resampleFilter env call sigma f).Only U :=
  .of_ok (resampleFilter_total hv call sigma f)

theorem resizeFilter_only {U : String → Prop} (hc : Common U) (env : Env) (f : Filter) (n : ℤ) :
    (resizeFilter env f n).Only U := by
  unfold resizeFilter
  split_ifs
  · exact .throws _
  · unfold PF.Filter.resize
    refine .bind ?_ fun _ _ => .ok _
    have : ∀ (dup l : List Particle) (ps pr a : ℝ) (i j : ℕ), (PF.resizeLoop dup ps pr l a i j).Only U := by
      intro dup l ps pr
      induction l with
      | nil => intro a i j; exact .ok _
      | cons p l ih =>
        intro a i j
        rw [PF.resizeLoop]
        split_ifs
        · exact .bind (deref_only hc _ _) fun _ _ => .bind (ih _ _ _) fun _ _ => .ok _
        · exact .bind (deref_only hc _ _) fun _ _ => .bind (ih _ _ _) fun _ _ => .ok _
    exact this _ _ _ _ _ _ _

theorem splitMatch_only {U : String → Prop} (hc : Common U) (P : Params) (lib : Lib C) (m : MapSt)
    (pts : List Point) : (splitMatch P lib m pts).Only U := by
  induction pts with
  | nil => exact .ok _
  | cons p ps ih =>
    rw [splitMatch]
    refine .bind (search_only hc.h4 P lib m _ _) fun r _ => .bind ih fun rest _ => ?_
    split
    · exact .ok _
    · split_ifs <;> exact .ok _

theorem localize_only {U : String → Prop} (hc : Common U) {P : Params} {lib : Lib C} (hlib : LibOnly U lib)
    {env : Env} (hv : env.Valid) {m : MapSt} {odo : OdoSt} {warn : Vec3 ℝ} {loc : LocSt C} {header : Header}
    {p : Prep} (hl : ∀ q ∈ p.beamPc, q.attr < p.origins.length) (ha : loc.allAccum ≠ none) :
    (localize P lib env m odo warn loc header p).Only U := by
  obtain ⟨hs, hn⟩ := hlib m.input (search P lib m) (search_only hc.h4 P lib m)
  unfold localize
  refine .bind (weighLoop_only hc hlib hl _ _) fun w _ => ?_
  refine .bind ?_ fun _ _ => ?_
  · unfold PF.Filter.max
    split
    · exact .ub hc.h9
    · exact .ok _
  refine .bind ?_ fun mk _ => ?_
  · unfold markersOf
    exact .bind (rayMarkers_only hc _ hs hn _ _ (transform_attr hl) _ _) fun _ _ => .ok _
  refine .bind (covarianceOf_only hc _ _ _ _) fun cov _ => ?_
  refine .bind ?_ fun al _ => ?_
  · unfold accumAll
    split_ifs
    · cases h : loc.allAccum with
      | none => exact absurd h ha
      | some a => exact .ok _
    · exact .ok _
  refine .bind ?_ fun mo _ => ?_
  · unfold matchOutput
    exact .ite (.bind (splitMatch_only hc _ _ _ _) fun _ _ => .ok _) (.ok _)
  refine .bind (resampleFilter_only env hv _ _ _) fun pf3 _ => ?_
  refine .bind (.of_ok (expandFilter_total _ _ _ _)) fun pf5 _ => ?_
  refine .bind ?_ fun pf6 _ => ?_
  · unfold reduceFilter
    exact .ite (resizeFilter_only hc _ _ _) (.ok _)
  refine .bind ?_ fun fix _ => .ok _
  unfold newFixCount fixCount
  split_ifs
  · exact .ub hc.h11
  · exact .ok _
  · exact .ok _

theorem prepare_only {U : String → Prop} (hc : Common U) {P : Params} {lib : Lib C}
    {env : Env} {acc : AccSt} {loc : LocSt C} {header : Header} (ha : acc.cloud ≠ none) :
    (prepare P lib env acc loc header).Only U := by
  unfold prepare
  cases h : acc.cloud with
  | none => exact absurd h ha
  | some pts =>
    simp only
    split
    · exact .ok _
    · split
      · exact .ok _
      · refine .bind ?_ fun _ _ => .bind (sample_only hc _ _ _ _ _ _) fun _ _ =>
          .bind (sample_only hc _ _ _ _ _ _) fun _ _ => .ok _
        unfold particleStats
        split_ifs
        · exact .bind (covarianceOf_only hc _ _ _ _) fun _ _ => .ok _
        · exact .ok _

theorem measure_only {U : String → Prop} (hc : Common U) {P : Params}
    (h0 : Params.toSize P.skipMeasure ≠ 0 ∨ U "integer division by zero") {lib : Lib C} (hlib : LibOnly U lib)
    {env : Env} (hv : env.Valid) {n : Node C} (hl : n.acc.Labelled) (ha : n.acc.cloud ≠ none)
    (hall : n.loc.allAccum ≠ none) : (measure P lib env n).Only U := by
  unfold measure
  refine .bind ?_ fun _ _ => .ok _
  unfold measureCore
  simp only
  by_cases h1 : Params.toSize P.skipMeasure = 0
  · rw [if_pos h1]; exact .ub (h0.resolve_left (fun h => h h1))
  rw [if_neg h1]
  split_ifs
  · exact .ok _
  · split
    · exact .ok _
    · refine .bind (prepare_only hc ha) fun r hr => ?_
      split
      · exact .ok _
      · exact .ok _
      · rename_i p
        split_ifs
        · exact .ok _
        · exact .bind (localize_only hc hlib hv (prepare_labels hv hl hr).2.1 hall) fun _ _ => .ok _

theorem accumCloud_only {U : String → Prop} {P : Params} {env : Env} {header : Header} {msg : Conv.Msg}
    {a : AccSt} (ha : a.cloud ≠ none) : (accumCloud P env header msg a).Only U := by
  unfold accumCloud
  split
  · exact .ok _
  · refine .bind ?_ fun m _ => ?_
    · unfold transformMsg
      split
      · exact .ok _
      · exact .throws _
    · split
      · exact .ok _
      · split
        · rename_i h; exact absurd h ha
        · exact .ok _

theorem cbCloud_only {U : String → Prop} (hc : Common U) {P : Params}
    (h0 : Params.toSize P.skipMeasure ≠ 0 ∨ U "integer division by zero") {lib : Lib C} (hlib : LibOnly U lib)
    {env : Env} (hv : env.Valid) {n : Node C} (hi : AccInv n) {header : Header} {msg : Conv.Msg} :
    (cbCloud P lib env n header msg).Only U := by
  cases hm : n.map.hasMap with
  | false => rw [cbCloud_noMap hm]; exact .ok _
  | true =>
    have hcl := hi.cloud hm
    have hall := hi.all hm
    -- the steps of the callbacks
    have hacc : ∀ (n1 : Node C) (o : List Out), n1.acc.cloud ≠ none →
        ((callbacks P lib env header).accumulate msg (.ok (n1, o))).2.Only U := by
      intro n1 o ha
      have := accumCloud_only (U := U) (P := P) (env := env) (header := header) (msg := msg) ha
      simp only [callbacks]
      cases h : accumCloud P env header msg n1.acc with
      | ok r => exact .ok _
      | throws e => exact .throws _
      | ub w => exact .ub (this w h)
    have hclr : ∀ w : World C, w.Only U → ((callbacks P lib env header).clear w).Only U :=
      fun w hw => .bind hw fun _ _ => .ok _
    have hproc : ((callbacks P lib env header).process (.ok (freshen env n, []))).Only U := by
      simp only [callbacks, Outcome.bind_ok]
      exact .bind (measure_only hc h0 hlib hv hi.labelled hcl hall) fun _ _ => .ok _
    have hrestart : (CloudAccum.processAndRestart n.acc.logic header.frame msg (callbacks P lib env header)
        (.ok (freshen env n, []))).2.Only U := by
      unfold CloudAccum.processAndRestart
      simp only
      have h1 : ∀ w : World C, w.Only U →
          ((callbacks P lib env header).accumulate msg ((callbacks P lib env header).clear w)).2.Only U := by
        intro w hw
        cases w with
        | ok r =>
          simp only [callbacks, Outcome.bind_ok]
          exact hacc { r.1 with acc := accumClear r.1.acc } r.2 (by simp [accumClear])
        | throws e => simp only [callbacks, Outcome.bind_throws]; exact .throws _
        | ub w => simp only [callbacks, Outcome.bind_ub]; exact .ub (hw w rfl)
      have h2 := h1 _ hproc
      rcases h3 : (callbacks P lib env header).accumulate msg
        ((callbacks P lib env header).clear ((callbacks P lib env header).process (.ok (freshen env n, [])))) with ⟨b, w⟩
      rw [h3] at h2
      cases b <;> exact h2
    rw [cbCloud_eq hm]
    split_ifs with hP
    · unfold CloudAccum.pushPassThrough
      have h1 : (callbacks P lib env header).clear (.ok (freshen env n, [])) =
          .ok ({ freshen env n with acc := accumClear n.acc }, []) := rfl
      rw [h1]
      have h2 := hacc { freshen env n with acc := accumClear n.acc } [] (by simp [accumClear])
      have h3 : (callbacks P lib env header).accumulate msg (.ok ({ freshen env n with acc := accumClear n.acc }, [])) =
          match accumCloud P env header msg (accumClear n.acc) with
          | .ok (b, a) => (b, .ok ({ freshen env n with acc := a }, []))
          | .throws e => (false, .throws e)
          | .ub e => (false, .ub e) := rfl
      cases h4 : accumCloud P env header msg (accumClear n.acc) with
      | ok r =>
        obtain ⟨b, a⟩ := r
        rw [h4] at h3
        rw [h3]
        obtain ⟨_, _, h5, h6⟩ := accumCloud_spec h4
        cases b with
        | false => exact .ok _
        | true =>
          simp only [callbacks, Outcome.bind_ok]
          exact .bind (measure_only hc h0 hlib hv (h5 (accumClear_labelled _)) (h6 (by simp [accumClear])) hall)
            fun _ _ => .ok _
      | throws e => rw [h4] at h3; rw [h3]; exact .throws _
      | ub w => rw [h4] at h3; rw [h3] at h2 ⊢; exact .ub (h2 w rfl)
    · have hafter : ∀ r : CloudAccum.St String × World C, r.2.Only U →
          (r.2.bind fun w => .ok (({ w.1 with acc := { w.1.acc with logic := r.1 } } : Node C), w.2)).Only U :=
        fun r hr => .bind hr fun _ _ => .ok _
      have h1 := hacc (freshen env n) [] hcl
      unfold CloudAccum.push
      rcases h2 : (callbacks P lib env header).accumulate msg (.ok (freshen env n, [])) with ⟨b, w⟩
      rw [h2] at h1
      simp only at h1
      by_cases hk : n.acc.logic.keys.length < (accCfg P).accumMax
      · rw [if_pos hk]
        by_cases hk2 : n.acc.logic.keys.length = 0 ∨ n.acc.logic.keys.head? ≠ some header.frame
        · rw [if_pos hk2]
          cases b with
          | true => exact .bind (.ok _) fun r hr => hafter _ (by cases hr; exact h1)
          | false => exact .bind (.ok _) fun r hr => hafter _ (by cases hr; exact hclr _ h1)
        · rw [if_neg hk2]
          by_cases hk3 : n.acc.logic.cnt < (accCfg P).accum
          · rw [if_pos hk3]
            cases b with
            | true => exact .bind (.ok _) fun r hr => hafter _ (by cases hr; exact h1)
            | false => exact .bind (.ok _) fun r hr => hafter _ (by cases hr; exact hclr _ h1)
          · rw [if_neg hk3]
            exact .bind (.ok _) fun r hr => hafter _ (by cases hr; exact hrestart)
      · rw [if_neg hk]
        cases hke : n.acc.logic.keys with
        | nil => exact .bind (.ub hc.h12) fun _ _ => hafter _ (by rename_i h; cases h)
        | cons k ks => exact .bind (.ok _) fun r hr => hafter _ (by cases hr; exact hrestart)

theorem mapTimer_only {U : String → Prop} {P : Params} {env : Env} {m : MapSt} {v : MapView} (h : MapInv P m v) :
    (mapTimer P env m).Only U := by
  obtain ⟨m', o, h', _⟩ := mapTimer_spec (env := env) h
  exact .of_ok ⟨_, h'⟩

theorem mapInv_base {P : Params} {m : MapSt} {v : MapView} (h : MapInv P m v) (hm : m.hasMap = true) :
    ∃ c, (m.base.bind fun b => m.heap[b]?) = some c ∧ c.points = v.active := by
  obtain ⟨ha, _, _, hd⟩ := h
  rcases hd with ⟨_, _, _, h4, _⟩ | ⟨b, c, hb, _, _, hh, hc⟩
  · rw [← ha, hm] at h4; cases h4
  · exact ⟨c, by rw [hb]; exact hh, hc⟩

/-- Every callback, in a state reached from the start, can only be undefined for the reasons of the
library, of the filter and of `place`. -/
theorem step_only {U : String → Prop} (hc : Common U) (hp : U "pit past the end") {P : Params}
    (h0 : Params.toSize P.skipMeasure ≠ 0 ∨ U "integer division by zero") {lib : Lib C} (hlib : LibOnly U lib)
    {env : Env} (hv : env.Valid) {n : Node C} (hi : AccInv n) {v : MapView} (hmap : MapInv P n.map v) (ev : Event) :
    (step P lib env n ev).Only U := by
  cases ev with
  | mapcloud stamp msg =>
    show (cbMapcloud P env n stamp msg).Only U
    unfold cbMapcloud
    split
    · exact .ok _
    · obtain ⟨n', o, h, _⟩ := loadMapCloud_spec (P := P) (env := env) n
        (pclStamp (if stamp ≠ 0 then stamp else env.now 1)) (pointsOf ‹_›)
      exact .of_ok ⟨_, h⟩
  | mapcloudUpdate msg => exact .ok _
  | loadPcd file =>
    show (cbLoadPcd P env n file).Only U
    unfold cbLoadPcd
    split
    · exact .ok _
    · obtain ⟨n', o, h, _⟩ := loadMapCloud_spec (P := P) (env := env) n (pclStamp (env.now 1)) ‹_›
      exact .bind (.of_ok ⟨_, h⟩) fun _ _ => .ok _
  | timer => exact .bind (mapTimer_only hmap) fun _ _ => .ok _
  | cloud header msg => exact cbCloud_only hc h0 hlib hv hi
  | odom msg =>
    obtain ⟨n', o, h⟩ := C88_terminates P lib env n (.odom msg) (.inl ⟨_, rfl⟩)
    exact .of_ok ⟨_, h⟩
  | imu msg =>
    obtain ⟨n', o, h⟩ := C88_terminates P lib env n (.imu msg) (.inr ⟨_, rfl⟩)
    exact .of_ok ⟨_, h⟩
  | initialpose msg =>
    obtain ⟨n', o, h⟩ := cbPosition_total P lib env n msg
    exact .of_ok ⟨_, h⟩
  | landmark msg => exact .bind (resampleFilter_only env hv _ _ _) fun _ _ => .ok _
  | resize size => exact .bind (resizeFilter_only hc _ _ _) fun _ _ => .ok _
  | expansionReset => exact .bind (.of_ok (addNoise_total _ _ _ _)) fun _ _ => .ok _
  | globalLocalization =>
    show (cbGlobalLocalization P lib env n).Only U
    unfold cbGlobalLocalization
    by_cases hm : n.map.hasMap = true
    · rw [if_pos hm]
      obtain ⟨c, hc', _⟩ := mapInv_base hmap hm
      rw [hc']
      refine .bind (resizeFilter_only hc _ _ _) fun pf _ => .bind ?_ fun _ _ => .ok _
      have : ∀ (ps : List Particle) (k : ℤ) (pts : List Point) (pr : ℝ) (q : Quat ℝ),
          (place P.divYaw pr q ps k pts).Only U := by
        intro ps
        induction ps with
        | nil => intro k pts pr q; unfold place; exact .ok _
        | cons p ps ih =>
          intro k pts pr q
          cases pts with
          | nil => unfold place; exact .ub hp
          | cons t ts =>
            unfold place
            refine .bind (.ite (ih _ _ _ _) (ih _ _ _ _)) fun _ _ => .ok _
      exact this _ _ _ _ _
    · rw [if_neg hm]; exact .ok _
  | reconfigure w => exact .ok _

end Node
end Mcl3dl
