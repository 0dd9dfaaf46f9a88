import Verif.Proofs.NodeSafe
import Verif.Proofs.NodeDemo

/-! # C110: with sensible parameters and inputs the node never crashes -/

set_option linter.unusedSectionVars false

namespace Mcl3dl
namespace Node

variable {C : Type}

/-- C110: with sane parameters and working libraries, the node starts, and after any history of sensible
events it is still running: no callback throws or runs into undefined behaviour. -/
theorem C110_no_crash {P : Params} (hP : Sane P) {lib : Lib C} {I : C → Prop} (hL : Works P lib I) (env0 : Env)
    (motion0 : Motion ℝ) (h : History) (hv : ∀ e ∈ h, e.2.Valid ∧ KeepsPoints e.2 ∧ SafeEvent e.1) :
    ∃ n0, start P lib env0 motion0 = .ok n0 ∧ ∃ n outs, run P lib n0 h = .ok (n, outs) ∧
      outs.length = h.length := by
  obtain ⟨n0, h0, hs⟩ := start_safe hP.toSensible hL env0 motion0
  obtain ⟨n, outs, hr, hs'⟩ := run_safe hP hL hv hs
  refine ⟨n0, h0, n, outs, hr, ?_⟩
  clear hs h0 hv hs'
  induction h generalizing n0 outs with
  | nil =>
    simp only [run, Outcome.ok.injEq, Prod.mk.injEq] at hr
    simp [← hr.2]
  | cons e h ih =>
    obtain ⟨ev, env⟩ := e
    obtain ⟨n1, o, os, _, h2, rfl⟩ := run_cons_ok hr
    simp [ih n1 os h2]

/-- The particle filter is never emptied on such a history. -/
theorem C110_particles {P : Params} (hP : Sane P) {lib : Lib C} {I : C → Prop} (hL : Works P lib I) (env0 : Env)
    (motion0 : Motion ℝ) (h : History) (hv : ∀ e ∈ h, e.2.Valid ∧ KeepsPoints e.2 ∧ SafeEvent e.1)
    {n0 n : Node C} {outs : List (List Out)} (h0 : start P lib env0 motion0 = .ok n0)
    (hr : run P lib n0 h = .ok (n, outs)) : n.loc.pf.particles ≠ [] := by
  obtain ⟨n0', h0', hs⟩ := start_safe hP.toSensible hL env0 motion0
  rw [h0, Outcome.ok.injEq] at h0'
  subst h0'
  obtain ⟨n', outs', hr', hs'⟩ := run_safe hP hL hv hs
  rw [hr, Outcome.ok.injEq, Prod.mk.injEq] at hr'
  obtain ⟨rfl, _⟩ := hr'
  exact hs'.loc.pf

/-- Why `SafeEvent`: no cloud message without coordinates is survived once there is a map and the
transform of its frame is known. -/
theorem C110_needs_xyz {P : Params} {lib : Lib C} {env : Env} {n : Node C} (hm : n.map.hasMap = true)
    {header : Header} {msg : Conv.Msg} (hx : ∀ f ∈ msg.fields, f.name ≠ "x")
    (ht : env.tf P.odomFrame header.frame header.stamp ≠ none) (r : Node C × List Out) :
    step P lib env n (.cloud header msg) ≠ .ok r := by
  obtain ⟨t, ht⟩ := Option.ne_none_iff_exists'.1 ht
  have h1 : ∀ a, accumCloud P env header msg a = .throws "std::runtime_error: Field does not exist" := by
    intro a
    have hf : msg.fields.findIdx? (fun f => f.name == "x") = none := by
      simpa [List.findIdx?_eq_none_iff] using hx
    simp [accumCloud, ht, transformMsg, hf]
  have h2 : ∀ w, ∃ w', (callbacks P lib env header).accumulate msg w = (false, w') ∧ ∀ r, w' ≠ .ok r := by
    intro w
    cases w <;> simp [callbacks, h1]
  have h3 : ∀ w : World C, (∀ r, w ≠ .ok r) → ∀ r, (callbacks P lib env header).clear w ≠ .ok r := by
    intro w hw r
    cases w with
    | ok a => exact absurd rfl (hw a)
    | throws e => simp [callbacks]
    | ub e => simp [callbacks]
  have h4 : ∀ (w : World C) (g : Node C × List Out → Node C × List Out), (∀ r, w ≠ .ok r) →
      ∀ r, (w.bind fun a => .ok (g a)) ≠ .ok r := by
    intro w g hw r
    cases w with
    | ok a => exact absurd rfl (hw a)
    | throws e => simp
    | ub e => simp
  show cbCloud P lib env n header msg ≠ _
  unfold cbCloud
  simp only [hm, if_true]
  split_ifs with ha
  · unfold CloudAccum.pushPassThrough
    obtain ⟨w', e, hw⟩ := h2 ((callbacks P lib env header).clear
      (.ok ({ n with loc := { n.loc with status := Status.fresh (env.now 0) } }, [])))
    rw [e]
    exact hw r
  · unfold CloudAccum.push
    have h5 : ∀ w : World C, ∀ r, (Outcome.bind (CloudAccum.processAndRestart n.acc.logic header.frame msg
        (callbacks P lib env header) w).2 fun a => .ok ({ a.1 with acc := { a.1.acc with logic :=
          (CloudAccum.processAndRestart n.acc.logic header.frame msg (callbacks P lib env header) w).1 } }, a.2))
          ≠ .ok r := by
      intro w r
      unfold CloudAccum.processAndRestart
      obtain ⟨w', e, hw⟩ := h2 ((callbacks P lib env header).clear ((callbacks P lib env header).process w))
      simp only [e]
      exact h4 _ (fun w => ({ w.1 with acc := { w.1.acc with logic := CloudAccum.reset n.acc.logic } }, w.2)) hw r
    obtain ⟨w', e, hw⟩ := h2 (.ok ({ n with loc := { n.loc with status := Status.fresh (env.now 0) } }, []))
    rw [e]
    have h6 := h4 _ (fun w => ({ w.1 with acc := { w.1.acc with logic := CloudAccum.reset n.acc.logic } }, w.2))
      (h3 _ hw) r
    split_ifs
    · exact h6
    · exact h6
    · exact h6
    · exact h5 _ r
    · cases n.acc.logic.keys with
      | nil => simp
      | cons k ks => exact h5 _ r

/-! ## A concrete case -/

namespace Demo

theorem P0_divYaw : P0.divYaw = 12 := by
  have h : P0.divYaw = Params.lround (2 * Real.pi / (131 / 250)) := by
    norm_num [P0, Params.loadFrom, Server.dblD, Server.getDouble]
  have h1 := Real.pi_gt_d2
  have h2 := Real.pi_lt_d2
  rw [h, Params.lround, if_pos (by positivity), Int.floor_eq_iff]
  constructor
  · have : (12 : ℝ) ≤ 2 * Real.pi / (131 / 250) + 1 / 2 := by linarith
    exact_mod_cast this
  · have : 2 * Real.pi / (131 / 250) + 1 / 2 < (12 : ℝ) + 1 := by linarith
    exact_mod_cast this

theorem sane_P0 : Sane P0 := by
  refine ⟨⟨by simp, by simp [Params.toSize], by simp, ?_, ?_, ?_, by simp [P0_divYaw], ?_⟩, ?_⟩
  all_goals simp [P0, Params.loadFrom, Server.intD, Server.getInt, Server.dblD, Server.getDouble, Server.boolD,
    Server.getBool, Params.toSize, Params.loadLike]
  all_goals norm_num

theorem works : Works P0 lib fun _ => True where
  sound := ⟨⟨1, 1, 1⟩, le_rfl, by intro pts q r k e he; simp [lib] at he⟩
  rays := by
    intro m b _ l s w _ _
    refine ⟨.long, (), ?_, trivial⟩
    unfold Lidar.getBeamStatus
    rw [show (caster P0 lib m).setRay w l s = .ok w from rfl, Outcome.bind_ok, loopO_eq]
    simp [caster, lib, Lidar.beamRound]
  init := trivial

theorem keeps (t : ℝ) : KeepsPoints (env t) := fun _ _ h => h

/-- A map, three clouds, global localization and two more clouds. -/
noncomputable def history : History :=
  [(.mapcloud 1 (msg 10), env 1), (.cloud ⟨"laser", 2⟩ (msg 10), env 2), (.cloud ⟨"laser", 3⟩ (msg 10), env 3),
   (.cloud ⟨"laser", 4⟩ (msg 10), env 4), (.globalLocalization, env 5), (.cloud ⟨"laser", 6⟩ (msg 10), env 6),
   (.cloud ⟨"laser", 7⟩ (msg 10), env 7)]

theorem history_ok : ∀ e ∈ history, e.2.Valid ∧ KeepsPoints e.2 ∧ SafeEvent e.1 := by
  have hx : ∀ x, HasXYZ (msg x) := by simp [HasXYZ, msg]
  simp [history, SafeEvent, hx, env_valid, keeps]

end Demo

example : ∃ n0, start Demo.P0 Demo.lib (Demo.env 0) Demo.motion0 = .ok n0 ∧
    ∃ n outs, run Demo.P0 Demo.lib n0 Demo.history = .ok (n, outs) ∧ outs.length = 7 :=
  C110_no_crash Demo.sane_P0 Demo.works _ _ _ Demo.history_ok

end Node
end Mcl3dl
