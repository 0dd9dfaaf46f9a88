import Verif.Model.State6DOF
import Verif.Model.XR
import Verif.Model.PF

/-!
# Finite values among the extended reals

Real data read as extended reals (every component finite).
-/

namespace Mcl3dl

/-- A finite vector. -/
def Vec3.fin (v : Vec3 ℝ) : Vec3 XR := ⟨.fin v.x, .fin v.y, .fin v.z⟩

/-- A finite quaternion. -/
def Quat.fin (q : Quat ℝ) : Quat XR := ⟨.fin q.x, .fin q.y, .fin q.z, .fin q.w⟩

/-- A finite state. -/
def State6.fin (s : State6 ℝ) : State6 XR :=
  { pos := s.pos.fin, rot := s.rot.fin, diff := s.diff, noiseLL := .fin s.noiseLL, noiseLA := .fin s.noiseLA,
    noiseAL := .fin s.noiseAL, noiseAA := .fin s.noiseAA, integLin := s.integLin.fin, integAng := s.integAng.fin,
    rpy := s.rpy.fin }

/-- A particle with a finite state, weight and bias. -/
def PF.Particle.fin (p : PF.Particle (State6 ℝ) ℝ) : PF.Particle (State6 XR) XR :=
  { state := p.state.fin, prob := .fin p.prob, bias := .fin p.bias, accum := .fin p.accum }

/-- A filter of finite particles. -/
def PF.Filter.fin (f : PF.Filter (State6 ℝ) ℝ) : PF.Filter (State6 XR) XR :=
  { particles := f.particles.map PF.Particle.fin, entropy := f.entropy.map XR.fin }

/-- The vector `v`, carried by the particles and summed with their votes (weight times bias). -/
noncomputable def voteAxis (f : PF.Filter (State6 ℝ) ℝ) (v : Vec3 ℝ) : Vec3 ℝ :=
  ⟨(f.particles.map fun p => p.prob * p.bias * (p.state.rot.rotate v).x).sum,
   (f.particles.map fun p => p.prob * p.bias * (p.state.rot.rotate v).y).sum,
   (f.particles.map fun p => p.prob * p.bias * (p.state.rot.rotate v).z).sum⟩

/-- The votes leave no direction: the summed forward axes and the summed up axes are parallel (one of them may be
zero). -/
def Opposed (f : PF.Filter (State6 ℝ) ℝ) : Prop := (voteAxis f ⟨1, 0, 0⟩).cross (voteAxis f ⟨0, 0, 1⟩) = ⟨0, 0, 0⟩

/-- Not a number in any component. -/
def Vec3.nans : Vec3 XR := ⟨.nan, .nan, .nan⟩

/-- Not a number in any component. -/
def Quat.nans : Quat XR := ⟨.nan, .nan, .nan, .nan⟩

end Mcl3dl
