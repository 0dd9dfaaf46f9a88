import Verif.Props.NodeSafe
import Verif.Props.ChunkedKdtree

/-! # The concrete node of `NodeDemo` with an exact kd-tree -/

namespace Mcl3dl
namespace Node
namespace Demo

/-- An exact kd-tree. -/
noncomputable def exactFlann (pts : List (Vec3 ℝ)) (q : Vec3 ℝ) (r : ℝ) (k : ℕ) : List (ℕ × ℝ) :=
  (ChunkedKdtree.exactSearch_exists pts (weightedDist ⟨1, 1, 5⟩ q) r k).choose

theorem exactFlann_spec (pts : List (Vec3 ℝ)) (q : Vec3 ℝ) (r : ℝ) (k : ℕ) :
    ExactSearch pts (weightedDist ⟨1, 1, 5⟩ q) r k (exactFlann pts q r k) :=
  (ChunkedKdtree.exactSearch_exists pts (weightedDist ⟨1, 1, 5⟩ q) r k).choose_spec

/-- The library with an exact kd-tree. -/
noncomputable def exactLib : Lib Unit := { lib with flann := exactFlann }

theorem exactWorks : Works P0 exactLib fun _ => True where
  sound := ⟨⟨1, 1, 5⟩, by norm_num, by
    intro pts q r k e he
    obtain ⟨p, h1, _, h3⟩ := (exactFlann_spec pts q r k).sound e he
    exact ⟨p, h1, h3⟩⟩
  rays := by
    intro m b _ l s w _ _
    refine ⟨.long, (), ?_, trivial⟩
    unfold Lidar.getBeamStatus
    rw [show (caster P0 exactLib m).setRay w l s = .ok w from rfl, Outcome.bind_ok, loopO_eq]
    simp [caster, exactLib, lib, Lidar.beamRound]
  init := trivial

/-- Any history of sensible events runs. -/
theorem exact_runs (h : History) (hv : ∀ e ∈ h, e.2.Valid ∧ KeepsPoints e.2 ∧ SafeEvent e.1) :
    ∃ n0, start P0 exactLib (env 0) motion0 = .ok n0 ∧ ∃ n outs, run P0 exactLib n0 h = .ok (n, outs) ∧
      outs.length = h.length ∧ n.loc.pf.particles ≠ [] := by
  obtain ⟨n0, h0, n, outs, hr, hl⟩ := C110_no_crash sane_P0 exactWorks (env 0) motion0 h hv
  exact ⟨n0, h0, n, outs, hr, hl, C110_particles sane_P0 exactWorks (env 0) motion0 h hv h0 hr⟩

end Demo
end Node
end Mcl3dl
