import Verif.Proofs.FarMap
import Verif.Props.NodePosterior

/-! # C180: changes of the map elsewhere do not change the measurement -/

set_option linter.unusedSectionVars false

namespace Mcl3dl
namespace Node
open Lidar (getBeamStatus)

section
variable {P : Params} {flann : List (Vec3 ℝ) → Vec3 ℝ → ℝ → ℕ → List (ℕ × ℝ)}
  {solve3 : Matrix (Fin 3) (Fin 3) ℝ → (Fin 3 → ℝ) × Matrix (Fin 3) (Fin 3) ℝ}
  {solve6 : (Fin 6 → Fin 6 → ℝ) → (Fin 6 → ℝ) × (Fin 6 → Fin 6 → ℝ)}

theorem search_exactOver (hM : Measures P) {w : Vec3 ℝ} (hw : 1 ≤ w.x ∧ 1 ≤ w.y ∧ 1 ≤ w.z)
    (hfl : ∀ pts q r num, ExactSearch pts (weightedDist w q) r num (flann pts q r num))
    (hg : 0 < P.mapDownsample.x ∧ 0 < P.mapDownsample.y ∧ 0 < P.mapDownsample.z) {m : MapSt} {v : MapView} (hm : MapInv P m v) :
    KDRay.ExactOver (rayCfg P) ((labelledPoints v.active).map Prod.fst) w (search P (realLib P flann solve3 solve6) m) := by
  have hmin : 0 < min (min P.mapDownsample.x P.mapDownsample.y) P.mapDownsample.z := lt_min (lt_min hg.1 hg.2.1) hg.2.2
  have := KDRay.exactOver_chunked (cfg := rayCfg P) (by rw [KDRay.stepOf_eq]; exact hmin) (kdCfg P)
    (by rw [KDRay.largest_eq]; exact kdCfg_range P) hM.chunk (v.active.map Pt.pos) hw hfl
  have e1 : (labelledPoints v.active).map Prod.fst = v.active.map Pt.pos := by simp [labelledPoints]
  rw [e1]
  unfold search
  rw [hm.2.2.1]
  exact this

theorem search_exactAt (hM : Measures P) {w : Vec3 ℝ} (hw : 1 ≤ w.x ∧ 1 ≤ w.y ∧ 1 ≤ w.z)
    (hfl : ∀ pts q r num, ExactSearch pts (weightedDist w q) r num (flann pts q r num)) {m : MapSt} {v : MapView} (hm : MapInv P m v) :
    Lidar.ExactAt (v.active.map Pt.pos) w (search P (realLib P flann solve3 solve6) m) P.like.matchDistMin := by
  have hmax : P.like.matchDistMin ≤ (kdCfg P).maxSearchRadius := by
    simp only [kdCfg, cmax_eq]; exact le_max_right _ _
  intro x
  obtain ⟨res, hres, hx⟩ := ChunkedKdtree.C52_equals_whole_cloud_search (kdCfg P) hM.radius hM.chunk
    (v.active.map Pt.pos) w hw flann hfl x P.like.matchDistMin hM.dist hmax 1
  exact ⟨res, by unfold search; rw [hm.2.2.1]; exact hres, hx⟩

/-- A beam over two maps that are the same along it. -/
theorem beam_same (hM : Measures P) {w : Vec3 ℝ} (hw : 1 ≤ w.x ∧ 1 ≤ w.y ∧ 1 ≤ w.z)
    (hfl : ∀ pts q r num, ExactSearch pts (weightedDist w q) r num (flann pts q r num))
    (hg : 0 < P.mapDownsample.x ∧ 0 < P.mapDownsample.y ∧ 0 < P.mapDownsample.z) {m m' : MapSt} {v v' : MapView}
    (hm : MapInv P m v) (hm' : MapInv P m' v') (ha : v.available = true) (ha' : v'.available = true) (b : Lidar.Beam)
    {l e : Vec3 ℝ} (h1 : KDRay.SameAlong (rayCfg P) w (labelledPoints v.active) (labelledPoints v'.active) l e)
    (h2 : KDRay.NoTies (rayCfg P) w (labelledPoints v.active) l e) {c : CastSt} (hc : IsKd c) :
    getBeamStatus b (caster P (realLib P flann solve3 solve6) m') l e c =
      getBeamStatus b (caster P (realLib P flann solve3 solve6) m) l e c := by
  have hmin : 0 < KDRay.stepOf (rayCfg P) := by
    rw [KDRay.stepOf_eq]; exact lt_min (lt_min hg.1 hg.2.1) hg.2.2
  obtain ⟨x, rfl⟩ := hc
  have form : ∀ {m : MapSt} {v : MapView}, MapInv P m v → v.available = true →
      getBeamStatus b (caster P (realLib P flann solve3 solve6) m) l e (.inr x) =
      (getBeamStatus b (Lidar.kdCaster (rayCfg P) (search P (realLib P flann solve3 solve6) m) (labelledPoints v.active)) l e x).bind
        fun r => .ok (r.1, .inr r.2) := by
    intro m v hm ha
    obtain ⟨version, stamp, hin⟩ := input_of_inv hm ha
    have hc : caster P (realLib P flann solve3 solve6) m =
        realCaster P (some ⟨version, stamp, v.active.map fun p => (p.pos, p.attr)⟩) (search P (realLib P flann solve3 solve6) m) := by
      unfold caster; rw [hin]; rfl
    rw [hc]
    exact getBeamStatus_map (C := Option KDRay.St) Sum.inr (fun _ _ _ => rfl) (fun _ => rfl) l e x
  rw [form hm ha, form hm' ha', Lidar.C179_beam hmin (search_exactOver hM hw hfl hg hm) (search_exactOver hM hw hfl hg hm') b h1 h2 x]

/-- **C180**: take two nodes that differ only in the map, for example because one of them got an update.  If their maps look
the same in the measurement that the next cloud completes — near the points and along the beams as seen from each
particle and from the new estimate — then both do the same with the cloud: they publish the same, and afterwards they still
differ only in the map.  (kd-tree caster, no subscriber to the matched and unmatched clouds.) -/
theorem C180_cloud (hM : Measures P) (hdda : P.useDda = false) {w : Vec3 ℝ} (hw : 1 ≤ w.x ∧ 1 ≤ w.y ∧ 1 ≤ w.z)
    (hfl : ∀ pts q r num, ExactSearch pts (weightedDist w q) r num (flann pts q r num))
    (hg : 0 < P.mapDownsample.x ∧ 0 < P.mapDownsample.y ∧ 0 < P.mapDownsample.z)
    {env0 env0' : Env} (hv0 : env0.Valid) {motion0 motion0' : Motion ℝ} {h h' : History} {n0 n0' n n' : Node CastSt}
    {outs outs' : List (List Out)} (hv : HistValid h) (hs : start P (realLib P flann solve3 solve6) env0 motion0 = .ok n0)
    (hr : run P (realLib P flann solve3 solve6) n0 h = .ok (n, outs))
    (hs' : start P (realLib P flann solve3 solve6) env0' motion0' = .ok n0')
    (hr' : run P (realLib P flann solve3 solve6) n0' h' = .ok (n', outs'))
    (hn : n' = { n with map := n'.map }) (ha : (mapView P h).available = true) (ha' : (mapView P h').available = true)
    {env : Env} (hve : env.Valid) (hsub : env.subMatched = false ∧ env.subUnmatched = false) {header : Header} {msg : Conv.Msg}
    (hreg : RegularClouds (h ++ [(.cloud header msg, env)])) {n1 : Node CastSt} {o : List Out}
    (h1 : step P (realLib P flann solve3 solve6) env n (.cloud header msg) = .ok (n1, o))
    (hsame : ∀ b s t, Measuring P h (.cloud header msg, env) b s → env.tf P.baseFrame P.odomFrame s.header.stamp = some t →
      (∀ q ∈ n.loc.pf.particles, LooksAlike P w (mapView P h).active (mapView P h').active env (b ++ [s]) s.header.stamp t q.state) ∧
      LooksAlike P w (mapView P h).active (mapView P h').active env (b ++ [s]) s.header.stamp t n1.loc.statePrev) :
    step P (realLib P flann solve3 solve6) env n' (.cloud header msg) = .ok ({ n1 with map := n'.map }, o) := by
  have hmi := mapInv_of_run hs hr
  have hmi' := mapInv_of_run hs' hr'
  have hreach : Reachable P (realLib P flann solve3 solve6) n := ⟨env0, motion0, n0, h, outs, hv0, hv, hs, hr⟩
  obtain ⟨hlike, hbeam⟩ := reachable_models hreach
  have hkd := reachable_kd hdda hreach
  have hb := run_batchView (fun e he => hreg e (List.mem_append_left _ he)) hr (start_batch hs)
  have hregm : Regular msg := hreg (.cloud header msg, env) (by simp) header msg rfl
  have hm : n.map.hasMap = true := by rw [hmi.1]; exact ha
  have hm' : n'.map.hasMap = true := by rw [hmi'.1]; exact ha'
  rw [hn]
  refine cbCloud_same hm hm' h1 fun a header' p loc' outs hprov hlast hpr hne hst hloc => ?_
  obtain ⟨bb, hbb, hhead, hcloud⟩ := hmeas_batch hb hm hregm hprov
  rw [hhead, List.getLast?_map, Option.map_eq_some_iff] at hlast
  obtain ⟨s, hsl, rfl⟩ := hlast
  obtain ⟨b, rfl⟩ : ∃ b, bb = b ++ [s] := by
    obtain ⟨b, hb⟩ := List.getLast?_eq_some_iff.1 hsl
    exact ⟨b, hb⟩
  have hmsr : Measuring P h (.cloud header msg, env) b s := hbb
  obtain ⟨_, t, _, ht, _⟩ := prepare_ready hpr
  obtain ⟨hpb, hpl, _, hsel⟩ := prepare_selection hM hve (loc1 := (freshen env n).loc) hlike hbeam hhead hcloud ht hpr hne
  obtain ⟨hall, hest⟩ := hsame b s t hmsr ht
  have beams : ∀ st, LooksAlike P w (mapView P h).active (mapView P h').active env (b ++ [s]) s.header.stamp t st →
      BeamsSame P (realLib P flann solve3 solve6) n.map n'.map p.beam p.origins p.beamPc st := by
    intro st hlk q hq og hog c hc
    obtain ⟨q1, q2⟩ := hsel.beam q hq
    obtain ⟨scan, hscan, t', ht', rfl⟩ : ∃ scan, (b ++ [s])[q.attr]? = some scan ∧ ∃ t',
        env.tfFull P.baseFrame s.header.stamp scan.header.frame scan.header.stamp P.odomFrame = some t' ∧ og = t'.trans := by
      obtain ⟨hlen, hget⟩ := List.forall₂_iff_get.1 hsel.origin
      obtain ⟨hi, hio⟩ := List.getElem?_eq_some_iff.1 hog
      obtain ⟨t', k1, k2⟩ := hget q.attr (by omega) hi
      exact ⟨_, List.getElem?_eq_getElem (by omega), t', k1, by rw [← k2]; exact hio.symm⟩
    obtain ⟨k1, k2⟩ := hlk.rays q q1 q2 scan hscan t' ht'
    exact beam_same hM hw hfl hg hmi hmi' ha ha' p.beam k1 k2 hc
  refine localize_same hsub hkd hloc (fun q hq => beams _ (hall q hq)) (beams _ (hst ▸ hest)) fun q hq => ?_
  refine Lidar.C178_local hpl hpl hM.dist (search_exactAt hM hw hfl hmi) (search_exactAt hM hw hfl hmi') q.state ?_
  intro x hx
  obtain ⟨y, hy, rfl⟩ := List.mem_map.1 hx
  obtain ⟨k1, k2⟩ := hsel.like y hy
  exact (hall q hq).field y k1 k2

end
end Node
end Mcl3dl
