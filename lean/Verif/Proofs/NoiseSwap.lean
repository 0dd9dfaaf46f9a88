import Verif.Proofs.NodeOut

/-! # A callback with other normally distributed random numbers -/

namespace Mcl3dl
namespace Node

variable {C : Type}

/-- The environment with other normally distributed random numbers. -/
def Env.reseed (env : Env) (ν : ℕ → ℕ → ℝ) (δ : ℕ → ℝ × ℝ × ℝ × ℝ) : Env := { env with normal := ν, driftNoise := δ }

theorem cbCloud_swap {P : Params} {lib : Lib C} {env : Env} {n n0 : Node C} {header : Header} {msg : Conv.Msg} {o : List Out}
    (h : cbCloud P lib env n header msg = .ok (n0, o)) (ho : o ≠ []) :
    ∃ acc c, measureCore P lib env n.map n.odo n.stdWarn acc (freshen env n).loc n.cnt = .ok (n0.cnt, c, n0.loc, o) ∧
      ∀ ν δ loc' o', measureCore P lib (env.reseed ν δ) n.map n.odo n.stdWarn acc (freshen env n).loc n.cnt =
          .ok (n0.cnt, c, loc', o') →
        cbCloud P lib (env.reseed ν δ) n header msg = .ok ({ n0 with loc := loc' }, o') := by
  have hacc : ∀ ν δ a, accumCloud P (env.reseed ν δ) header msg a = accumCloud P env header msg a := fun _ _ _ => rfl
  have hfr : ∀ ν δ, freshen (env.reseed ν δ) n = freshen env n := fun _ _ => rfl
  cases hm : n.map.hasMap with
  | false =>
    rw [cbCloud_noMap hm] at h
    simp only [Outcome.ok.injEq, Prod.mk.injEq] at h
    exact absurd h.2.symm ho
  | true =>
    have hm' : (freshen env n).map.hasMap = true := hm
    by_cases hP : P.accumCloud = 0
    · have e : ∀ env1, freshen env1 n = freshen env n → (∀ a, accumCloud P env1 header msg a = accumCloud P env header msg a) →
          cbCloud P lib env1 n header msg =
          match accumCloud P env header msg (accumClear n.acc) with
          | .ok (true, a) => measure P lib env1 { freshen env n with acc := a }
          | .ok (false, a) => .ok ({ freshen env n with acc := a }, [])
          | .throws e => .throws e
          | .ub e => .ub e := by
        intro env1 h1 h2
        unfold cbCloud
        change (if (freshen env1 n).map.hasMap then (if P.accumCloud = 0 then
          CloudAccum.pushPassThrough msg (callbacks P lib env1 header) (.ok (freshen env1 n, [])) else _) else _) = _
        rw [h1, if_pos hm', if_pos hP]
        simp only [CloudAccum.pushPassThrough, callbacks, Outcome.bind_ok]
        have h3 := h2 (accumClear (freshen env n).acc)
        rw [h3]
        have h4 : (freshen env n).acc = n.acc := rfl
        rw [h4]
        cases accumCloud P env header msg (accumClear n.acc) with
        | throws e => rfl
        | ub e => rfl
        | ok r =>
          obtain ⟨b, a⟩ := r
          cases b with
          | false => rfl
          | true =>
            simp only [Outcome.bind_ok]
            cases measure P lib env1 { freshen env n with acc := a } <;> simp
      rw [e env rfl fun _ => rfl] at h
      cases ha : accumCloud P env header msg (accumClear n.acc) with
      | throws e => rw [ha] at h; simp at h
      | ub e => rw [ha] at h; simp at h
      | ok r =>
        obtain ⟨b, a⟩ := r
        rw [ha] at h
        cases b with
        | false =>
          simp only [Outcome.ok.injEq, Prod.mk.injEq] at h
          exact absurd h.2.symm ho
        | true =>
          simp only at h
          obtain ⟨c, hc, hn⟩ := measure_ok h
          refine ⟨a, c, hc, fun ν δ loc' o' h' => ?_⟩
          rw [e _ (hfr ν δ) (hacc ν δ), ha]
          simp only
          rw [measure]
          have h'' : measureCore P lib (env.reseed ν δ) n.map n.odo n.stdWarn a (freshen env n).loc n.cnt =
            .ok (n0.cnt, c, loc', o') := h'
          change (measureCore P lib (env.reseed ν δ) n.map n.odo n.stdWarn a (freshen env n).loc n.cnt).bind _ = _
          rw [h'', Outcome.bind_ok]
          rw [hn]
    · have hproc : ∀ env1, freshen env1 n = freshen env n → (∀ a, accumCloud P env1 header msg a = accumCloud P env header msg a) →
          CloudAccum.processAndRestart n.acc.logic header.frame msg (callbacks P lib env1 header) (.ok (freshen env n, [])) =
          match measure P lib env1 (freshen env n) with
          | .ok (n1, o1) =>
            (match accumCloud P env header msg (accumClear n1.acc) with
            | .ok (true, a) => (⟨1, [header.frame]⟩, .ok ({ n1 with acc := a }, o1))
            | .ok (false, a) => (CloudAccum.St.init, .ok ({ n1 with acc := a }, o1))
            | .throws e => (CloudAccum.St.init, .throws e)
            | .ub e => (CloudAccum.St.init, .ub e))
          | .throws e => (CloudAccum.St.init, .throws e)
          | .ub e => (CloudAccum.St.init, .ub e) := by
        intro env1 h1 h2
        simp only [CloudAccum.processAndRestart, callbacks, Outcome.bind_ok, List.nil_append]
        cases measure P lib env1 (freshen env n) with
        | throws e => rfl
        | ub e => rfl
        | ok r =>
          obtain ⟨n1, o1⟩ := r
          simp only [Outcome.bind_ok, h2]
          have h3 : accumClear { n1 with acc := accumClear n1.acc }.acc = accumClear n1.acc := rfl
          cases accumCloud P env header msg (accumClear n1.acc) with
          | throws e => rfl
          | ub e => rfl
          | ok r =>
            obtain ⟨b, a⟩ := r
            cases b <;> rfl
      have fin : CloudAccum.push (accCfg P) n.acc.logic header.frame msg (callbacks P lib env header) (.ok (freshen env n, [])) =
            .ok (CloudAccum.processAndRestart n.acc.logic header.frame msg (callbacks P lib env header) (.ok (freshen env n, []))) ∧
          (∀ ν δ, CloudAccum.push (accCfg P) n.acc.logic header.frame msg (callbacks P lib (env.reseed ν δ) header)
              (.ok (freshen env n, [])) =
            .ok (CloudAccum.processAndRestart n.acc.logic header.frame msg (callbacks P lib (env.reseed ν δ) header)
              (.ok (freshen env n, [])))) := by
        rcases hacc1 : (callbacks P lib env header).accumulate msg (.ok (freshen env n, [])) with ⟨b, w1⟩
        have hw1 : ∀ x, w1 = .ok x → x.2 = [] := by
          intro x hx
          subst hx
          simp only [callbacks] at hacc1
          cases ha : accumCloud P env header msg (freshen env n).acc with
          | throws e => rw [ha] at hacc1; simp at hacc1
          | ub e => rw [ha] at hacc1; simp at hacc1
          | ok r =>
            obtain ⟨b', a⟩ := r
            rw [ha] at hacc1
            simp only [Prod.mk.injEq, Outcome.ok.injEq] at hacc1
            rw [← hacc1.2]
        have plain : ∀ l1 : CloudAccum.St String, b = true → (Outcome.bind (Outcome.ok (l1, w1)) fun r : CloudAccum.St String × World C =>
              r.2.bind fun w => .ok ({ w.1 with acc := { w.1.acc with logic := r.1 } }, w.2)) = .ok (n0, o) → False := by
          intro l1 _ h1
          cases w1 with
          | throws e => simp at h1
          | ub e => simp at h1
          | ok x =>
            simp only [Outcome.bind_ok, Outcome.ok.injEq, Prod.mk.injEq] at h1
            exact ho (by rw [← h1.2, hw1 x rfl])
        have plain' : ∀ l1 : CloudAccum.St String, b = false →
            (Outcome.bind (Outcome.ok (l1, (callbacks P lib env header).clear w1)) fun r : CloudAccum.St String × World C =>
              r.2.bind fun w => .ok ({ w.1 with acc := { w.1.acc with logic := r.1 } }, w.2)) = .ok (n0, o) → False := by
          intro l1 _ h1
          cases w1 with
          | throws e => simp [callbacks] at h1
          | ub e => simp [callbacks] at h1
          | ok x =>
            simp only [callbacks, Outcome.bind_ok, Outcome.ok.injEq, Prod.mk.injEq] at h1
            exact ho (by rw [← h1.2, hw1 x rfl])
        rw [cbCloud_eq hm, if_neg hP] at h
        unfold CloudAccum.push at h ⊢
        by_cases h1 : n.acc.logic.keys.length < (accCfg P).accumMax
        · rw [if_pos h1] at h
          by_cases h2 : n.acc.logic.keys.length = 0 ∨ n.acc.logic.keys.head? ≠ some header.frame
          · rw [if_pos h2] at h
            rw [hacc1] at h
            cases b with
            | true => exact absurd h fun h => plain _ rfl h
            | false => exact absurd h fun h => plain' _ rfl h
          · rw [if_neg h2] at h
            by_cases h3 : n.acc.logic.cnt < (accCfg P).accum
            · rw [if_pos h3] at h
              rw [hacc1] at h
              cases b with
              | true => exact absurd h fun h => plain _ rfl h
              | false => exact absurd h fun h => plain' _ rfl h
            · simp only [if_pos h1, if_neg h2, if_neg h3, implies_true, and_self]
        · cases hk : n.acc.logic.keys with
          | nil => rw [if_neg h1, hk] at h; simp at h
          | cons k ks =>
            rw [hk] at h1
            simp only [if_neg h1, implies_true, and_self]
      rw [cbCloud_eq hm, if_neg hP, fin.1, Outcome.bind_ok, hproc env rfl fun _ => rfl] at h
      cases hme : measure P lib env (freshen env n) with
      | throws e => rw [hme] at h; simp at h
      | ub e => rw [hme] at h; simp at h
      | ok r =>
        obtain ⟨n1, o1⟩ := r
        rw [hme] at h
        simp only at h
        obtain ⟨c, hc, hn⟩ := measure_ok hme
        have hacc1 : accumClear n1.acc = accumClear n.acc := by rw [hn]; rfl
        cases ha : accumCloud P env header msg (accumClear n1.acc) with
        | throws e => rw [ha] at h; simp at h
        | ub e => rw [ha] at h; simp at h
        | ok r =>
          obtain ⟨b, a⟩ := r
          rw [ha] at h
          have ho1 : o1 = o ∧ n0 = { n1 with acc := { a with logic := if b then ⟨1, [header.frame]⟩ else CloudAccum.St.init } } := by
            cases b <;> simp only [Outcome.bind_ok, Outcome.ok.injEq, Prod.mk.injEq] at h <;> exact ⟨h.2, h.1.symm⟩
          obtain ⟨rfl, rfl⟩ := ho1
          refine ⟨n.acc, c, hc, fun ν δ loc' o' h' => ?_⟩
          have hme' : measure P lib (env.reseed ν δ) (freshen env n) = .ok ({ n1 with loc := loc' }, o') := by
            rw [measure]
            change (measureCore P lib (env.reseed ν δ) n.map n.odo n.stdWarn n.acc (freshen env n).loc n.cnt).bind _ = _
            rw [h', Outcome.bind_ok]
            rw [hn]
          rw [cbCloud_eq hm, if_neg hP, hfr, fin.2, Outcome.bind_ok, hproc _ (hfr ν δ) (hacc ν δ), hme']
          simp only [ha]
          cases b <;> rfl
theorem originsOf_reseed (P : Params) (env : Env) (ν : ℕ → ℕ → ℝ) (δ : ℕ → ℝ × ℝ × ℝ × ℝ) (stamp : ℝ) (hs : List Header) :
    originsOf P (env.reseed ν δ) stamp hs = originsOf P env stamp hs := by
  induction hs with
  | nil => rfl
  | cons h hs ih => rw [originsOf, originsOf, ih]; rfl

theorem prepare_reseed (P : Params) (lib : Lib C) (env : Env) (ν : ℕ → ℕ → ℝ) (δ : ℕ → ℝ × ℝ × ℝ × ℝ) (acc : AccSt)
    (loc : LocSt C) (hd : Header) : prepare P lib (env.reseed ν δ) acc loc hd = prepare P lib env acc loc hd := by
  unfold prepare
  simp only [originsOf_reseed]
  rfl

theorem weighLoop_ratio {P : Params} {lib : Lib C} {m : MapSt} {p : Prep} {ps : List Particle} {w : WeighSt C}
    {r : List ℝ × WeighSt C} (h : weighLoop P lib m p ps w = .ok r) : w.ratioMax ≤ r.2.ratioMax := by
  induction ps generalizing w r with
  | nil =>
    simp only [weighLoop, Outcome.ok.injEq] at h
    rw [← h]
  | cons q qs ih =>
    rw [weighLoop] at h
    obtain ⟨a, ha, h⟩ := Outcome.bind_eq_ok_iff.1 h
    obtain ⟨b, hb, h⟩ := Outcome.bind_eq_ok_iff.1 h
    simp only [Outcome.ok.injEq] at h
    rw [← h]
    have hab : a.2.ratioMax ≤ b.2.ratioMax := ih hb
    refine le_trans ?_ hab
    rw [particleLikelihood] at ha
    obtain ⟨rb, _, ha⟩ := Outcome.bind_eq_ok_iff.1 ha
    obtain ⟨rl, _, ha⟩ := Outcome.bind_eq_ok_iff.1 ha
    simp only [Outcome.ok.injEq] at ha
    rw [← ha]
    show w.ratioMax ≤ if w.ratioMax < rl.quality then rl.quality else w.ratioMax
    split_ifs with hc
    · exact hc.le
    · exact le_rfl

/-- A localization whose resampling draws other numbers. -/
theorem cloud_swap {P : Params} {lib : Lib C} {env : Env} {n n0 : Node C} {ev : Event} {o : List Out}
    (h : step P lib env n ev = .ok (n0, o)) {stamp : ℝ} {frame : String} {pos : Vec3 ℝ} {rot : Quat ℝ} {cov : ℕ → ℕ → ℝ}
    (hp : .pose stamp frame pos rot cov ∈ o) :
    ∃ r : LocRun C, r.w.1.length = n.loc.pf.particles.length ∧ 0 ≤ r.w.2.ratioMax ∧
      (∃ acc hd p, prepare P lib env acc (freshen env n).loc hd = .ok (.ready p) ∧
        weighLoop P lib n.map p n.loc.pf.particles ⟨n.loc.caster, 1, 0⟩ = .ok r.w) ∧ (r.pf1 P (freshen env n).loc).max = .ok r.eMax ∧
      resampleFilter env 0 P.resampleVar (r.pf2 P (freshen env n).loc) = .ok r.pf3 ∧
      expandFilter P env r.w.2.ratioMax (driftFilter P env r.pf3) = .ok r.pf5 ∧
      reduceFilter P env r.pf5 = .ok r.pf6 ∧ n0.loc.pf = r.pf6 ∧
      (∃ st en lv, .status st en lv ∈ o ∧ st.matchRatio = r.w.2.ratioMax) ∧
      ∀ ν δ f3 f5 f6, resampleFilter (env.reseed ν δ) 0 P.resampleVar (r.pf2 P (freshen env n).loc) = .ok f3 →
        expandFilter P (env.reseed ν δ) r.w.2.ratioMax (driftFilter P (env.reseed ν δ) f3) = .ok f5 →
        reduceFilter P (env.reseed ν δ) f5 = .ok f6 → f5.particles.length = r.pf5.particles.length →
        f6.particles.length = r.pf6.particles.length →
        ∃ o', step P lib (env.reseed ν δ) n ev = .ok ({ n0 with loc := { n0.loc with pf := f6 } }, o') := by
  have hev : ∃ header msg, ev = .cloud header msg := by
    by_contra hc
    push Not at hc
    have := step_minor h hc _ hp
    exact this
  obtain ⟨header, msg, rfl⟩ := hev
  have ho : o ≠ [] := by rintro rfl; simp at hp
  obtain ⟨acc, c, hcore, hsw⟩ := cbCloud_swap (show cbCloud P lib env n header msg = .ok (n0, o) from h) ho
  obtain ⟨hskip, hcnt, hk⟩ := measureCore_ok hcore
  rcases hk with ⟨_, _, _, rfl⟩ | ⟨hk, hme⟩
  · simp at hp
  generalize hloc : n0.loc = loc0 at hme
  cases hme with
  | noHeader _ => simp at hp
  | noTf _ _ _ => simp at hp
  | noOrigin _ _ _ _ => simp at hp
  | noPoints _ p _ _ _ => simp [publishStatus] at hp
  | localized hd p _ outs h1 h2 h3 hl =>
    subst hloc
    obtain ⟨r, l1, l2, l3, l4, l5, l6, l7, l8, l9, l10, l11, l12⟩ := localize_ok hl
    have hpf : n0.loc.pf = r.pf6 := by rw [l11]
    refine ⟨r, weighLoop_length l1, weighLoop_ratio l1, ⟨acc, hd, p, h2, l1⟩, l2, l7, l8, l9, hpf, ?_, ?_⟩
    · rw [l12]
      exact ⟨r.status P n.stdWarn (freshen env n).loc, _, _, List.mem_cons_of_mem _ (List.mem_append_right _ (by
        rw [publishStatus]
        exact List.mem_cons_of_mem _ List.mem_cons_self)), rfl⟩
    · intro ν δ f3 f5 f6 g3 g5 g6 g7 g8
      have hprep : prepare P lib (env.reseed ν δ) acc (freshen env n).loc hd = .ok (.ready p) := by
        rw [prepare_reseed]; exact h2
      have hcov : covarianceOf P (env.reseed ν δ) 1 (r.pf2 P (freshen env n).loc) = .ok r.cov := l4
      have hmo : matchOutput P lib (env.reseed ν δ) n.map hd.stamp (freshen env n).loc.matchLast
        ((r.final P n.odo (freshen env n).loc).transform p.full) = .ok r.mo := l6
      have hloc' : ∃ l' o', localize P lib (env.reseed ν δ) n.map n.odo n.stdWarn (freshen env n).loc hd p =
          .ok (l', o') ∧ l' = { n0.loc with pf := f6 } := by
        rw [localize, l1, Outcome.bind_ok]
        change ∃ l' o', ((r.pf1 P (freshen env n).loc).max.bind _) = _ ∧ _
        rw [l2, Outcome.bind_ok]
        change ∃ l' o', ((markersOf P lib n.map p (r.est P (freshen env n).loc) r.w.2.caster).bind _) = _ ∧ _
        rw [l3, Outcome.bind_ok]
        change ∃ l' o', ((covarianceOf P (env.reseed ν δ) 1 (r.pf2 P (freshen env n).loc)).bind _) = _ ∧ _
        rw [hcov, Outcome.bind_ok]
        change ∃ l' o', ((accumAll P (freshen env n).loc.allAccum ((r.final P n.odo (freshen env n).loc).transform p.likePc)).bind _) = _ ∧ _
        rw [l5, Outcome.bind_ok]
        change ∃ l' o', ((matchOutput P lib (env.reseed ν δ) n.map hd.stamp (freshen env n).loc.matchLast
          ((r.final P n.odo (freshen env n).loc).transform p.full)).bind _) = _ ∧ _
        rw [hmo, Outcome.bind_ok]
        change ∃ l' o', ((resampleFilter (env.reseed ν δ) 0 P.resampleVar (r.pf2 P (freshen env n).loc)).bind _) = _ ∧ _
        rw [g3, Outcome.bind_ok]
        change ∃ l' o', ((expandFilter P (env.reseed ν δ) r.w.2.ratioMax (driftFilter P (env.reseed ν δ) f3)).bind _) = _ ∧ _
        rw [g5, Outcome.bind_ok]
        change ∃ l' o', ((reduceFilter P (env.reseed ν δ) f5).bind _) = _ ∧ _
        rw [g6, Outcome.bind_ok, g7, l10, Outcome.bind_ok, g8]
        refine ⟨_, _, rfl, ?_⟩
        rw [l11]
        rfl
      obtain ⟨_, o', hloc', rfl⟩ := hloc'
      refine ⟨.batch true :: o', hsw ν δ _ _ ?_⟩
      rw [measureCore]
      simp only
      rw [if_neg hskip, if_neg (by rw [← hcnt]; simpa using hk), h1]
      simp only
      rw [hprep, Outcome.bind_ok]
      simp only
      rw [if_neg (fun e => h3 (List.length_eq_zero_iff.1 e)), hloc', Outcome.bind_ok, hcnt]

end Node
end Mcl3dl
