import Verif.Props.NodeServices
import Verif.Props.NodeStatus
import Verif.Props.NodeResample

/-! # C187: the number of particles is one that was asked for, or on its way down from one -/

set_option linter.unusedSectionVars false

namespace Mcl3dl
namespace Node

variable {C : Type}

/-- The numbers of particles asked for in a history: by the parameter, by a request to resize, or by a request for global
localization while there is a map. -/
inductive AskedFor (P : Params) (w : Vec3 ℝ) (h : History) : ℕ → Prop
  | param : AskedFor P w h P.numParticles.toNat
  | resize {h1 h2 : History} {env : Env} {size : ℤ} : h = h1 ++ (.resize size, env) :: h2 → AskedFor P w h size.toNat
  | localize {h1 h2 : History} {env : Env} : h = h1 ++ (.globalLocalization, env) :: h2 →
      (mapView P h1).available = true →
      AskedFor P w h ((places P env w (mapView P h1).active).length * P.divYaw.toNat)

theorem AskedFor.snoc {P : Params} {w : Vec3 ℝ} {h : History} {N : ℕ} (ha : AskedFor P w h N) (e : Event × Env) :
    AskedFor P w (h ++ [e]) N := by
  cases ha with
  | param => exact .param
  | @resize h1 h2 env size hh => exact .resize (h1 := h1) (h2 := h2 ++ [e]) (env := env) (by rw [hh]; simp)
  | @localize h1 h2 env hh hav => exact .localize (h1 := h1) (h2 := h2 ++ [e]) (env := env) (by rw [hh]; simp) hav

/-- Global localization makes `div_yaw` particles for each place, whatever the IMU says. -/
theorem localize_count {P : Params} (hd : 0 < P.divYaw) {lib : Lib C} {w : Vec3 ℝ}
    (hfl : ∀ pts q r, ExactSearch pts (weightedDist w q) r 1 (lib.flann pts q r 1)) {env0 env : Env}
    {motion0 : Motion ℝ} {n0 n n' : Node C} {h : History} {outs : List (List Out)} {o : List Out} (hv : env.Valid)
    (hs : start P lib env0 motion0 = .ok n0) (hr : run P lib n0 h = .ok (n, outs))
    (hav : (mapView P h).available = true) (hst : step P lib env n .globalLocalization = .ok (n', o)) :
    n'.loc.pf.particles.length = (places P env w (mapView P h).active).length * P.divYaw.toNat := by
  obtain ⟨d, hdd⟩ : ∃ d : ℕ, P.divYaw = d := ⟨P.divYaw.toNat, by omega⟩
  obtain ⟨hm, _, _, hb⟩ := mapInv_of_run hs hr
  rcases cbGlobalLocalization_ok hst with ⟨hno, _⟩ | ⟨_, c, pf, ps, hc, hpf, hps, hn', ho⟩
  · rw [hm, hav] at hno; cases hno
  have hcp : c.points = (mapView P h).active := by
    rcases hb with ⟨_, _, _, ha, _⟩ | ⟨b, c', hb1, _, _, hb2, hb3⟩
    · rw [hav] at ha; cases ha
    · rw [hb1] at hc
      simp only [Option.bind_some] at hc
      rw [hb2] at hc
      simp only [Option.some.injEq] at hc
      rw [← hc]; exact hb3
  rw [hcp, standing_places hfl] at hpf hps
  rw [hdd] at hps
  obtain ⟨hl1, -⟩ := place_spec (d := d) pf.particles 0 (by omega) _ hps
  rw [hn']
  show ps.length = _
  rw [hl1, (resizeFilter_spec hv hpf).2.1, hdd]
  generalize (places P env w (mapView P h).active).length = a
  rw [show ((a : ℤ) * (d : ℤ)) = ((a * d : ℕ) : ℤ) by push_cast; ring, Int.toNat_natCast, Int.toNat_natCast]

/-- **C187**: after any history the number of particles is one that was asked for, or lies between `num_particles` and one
that was asked for. -/
theorem C187_number {P : Params} (hd : 0 < P.divYaw) {lib : Lib C} {w : Vec3 ℝ}
    (hfl : ∀ pts q r, ExactSearch pts (weightedDist w q) r 1 (lib.flann pts q r 1)) {env0 : Env}
    {motion0 : Motion ℝ} {n0 : Node C} (hs : start P lib env0 motion0 = .ok n0) (h : History) (hv : HistValid h) :
    ∀ {n : Node C} {outs : List (List Out)}, run P lib n0 h = .ok (n, outs) →
      ∃ N, AskedFor P w h N ∧ (n.loc.pf.particles.length = N ∨
        (P.numParticles ≤ n.loc.pf.particles.length ∧ n.loc.pf.particles.length < N)) := by
  have h0 : 0 ≤ P.numParticles := (start_ok hs).1
  induction h using List.reverseRecOn with
  | nil =>
    intro n outs hr
    simp only [run, Outcome.ok.injEq, Prod.mk.injEq] at hr
    obtain ⟨_, ns, _, e⟩ := start_ok hs
    refine ⟨_, .param, .inl ?_⟩
    rw [← hr.1, e]
    simp [PF.Filter.init, PF.Filter.new]
  | append_singleton h e ih =>
    intro n outs hr
    obtain ⟨n1, os, o, hr1, hst, rfl⟩ := run_snoc_ok hr
    obtain ⟨N, hN, hc⟩ := ih (fun x hx => hv x (List.mem_append_left _ hx)) hr1
    obtain ⟨ev, env⟩ := e
    have hve : env.Valid := hv (ev, env) (by simp)
    by_cases hrs : ∃ size, ev = .resize size
    · obtain ⟨size, rfl⟩ := hrs
      change cbResize P env n1 size = _ at hst
      rw [cbResize] at hst
      obtain ⟨pf, hpf, hst⟩ := Outcome.bind_eq_ok_iff.1 hst
      simp only [Outcome.ok.injEq, Prod.mk.injEq] at hst
      obtain ⟨rfl, -⟩ := hst
      exact ⟨_, .resize (h1 := h) (h2 := []) rfl, .inl (resizeFilter_spec hve hpf).2.1⟩
    by_cases hgl : ev = .globalLocalization
    · subst hgl
      cases hav : (mapView P h).available with
      | true =>
        exact ⟨_, .localize (h1 := h) (h2 := []) rfl hav, .inl (localize_count hd hfl hve hs hr1 hav hst)⟩
      | false =>
        have := (C95_no_map hs hr1 hav env).symm.trans hst
        simp only [Outcome.ok.injEq, Prod.mk.injEq] at this
        obtain ⟨rfl, -⟩ := this
        exact ⟨N, hN.snoc _, hc⟩
    push _root_.Not at hrs
    have hsv := step_view h0 hve hst
    rcases hsv.shown with ⟨_, _, hl⟩ | ⟨s', _, _, _, hcnt, _, hl, _⟩
    · rw [hl hrs hgl]
      exact ⟨N, hN.snoc _, hc⟩
    · rw [hl, hcnt]
      refine ⟨N, hN.snoc _, ?_⟩
      by_cases hlt : P.numParticles.toNat < n1.loc.pf.particles.length
      · have := shrink_bounds hlt
        right
        omega
      · rw [shrink, if_neg hlt]
        exact hc

/-- So it never exceeds all that was asked for, nor falls below all of it. -/
theorem C187_bounds {P : Params} (hd : 0 < P.divYaw) {lib : Lib C} {w : Vec3 ℝ}
    (hfl : ∀ pts q r, ExactSearch pts (weightedDist w q) r 1 (lib.flann pts q r 1)) {env0 : Env}
    {motion0 : Motion ℝ} {n0 n : Node C} {h : History} {outs : List (List Out)} (hv : HistValid h)
    (hs : start P lib env0 motion0 = .ok n0) (hr : run P lib n0 h = .ok (n, outs)) {m M : ℕ}
    (hb : ∀ N, AskedFor P w h N → m ≤ N ∧ N ≤ M) :
    m ≤ n.loc.pf.particles.length ∧ n.loc.pf.particles.length ≤ M := by
  obtain ⟨N, hN, hc⟩ := C187_number hd hfl hs h hv hr
  have h1 := hb N hN
  have h2 := hb _ .param
  omega

/-- The hypotheses of C187 are met: a run in which 64 particles are asked for. -/
example : ∃ n0 n1 outs, start Demo.P0 Demo.exactLib (Demo.env 0) Demo.motion0 = .ok n0 ∧
    run Demo.P0 Demo.exactLib n0 Demo.evenHistory = .ok (n1, outs) ∧ n1.loc.pf.particles.length = 64 ∧
    ∃ N, AskedFor Demo.P0 ⟨1, 1, 5⟩ Demo.evenHistory N ∧ (64 = N ∨ (Demo.P0.numParticles ≤ (64 : ℕ) ∧ 64 < N)) := by
  obtain ⟨n0, n1, n, outs, o, pos, rot, cov, hs, hr, hr', hp, hn⟩ := Demo.even_runs
  have hd : 0 < Demo.P0.divYaw := by rw [Demo.P0_divYaw]; norm_num
  have := C187_number hd
    (fun pts q r => Demo.exactFlann_spec pts q r 1) hs Demo.evenHistory
    (by simp [HistValid, Demo.evenHistory, Demo.env_valid]) hr
  rw [hn] at this
  exact ⟨n0, n1, outs, hs, hr, hn, this⟩

end Node
end Mcl3dl
