import Verif.Geometry.Sample2

/-!
# Concrete cells for which the computed quantities are wrong
-/

namespace Verif.Geometry
open Verif.Topology Verif.EdgeLoop Verif.Search

section
variable {K : Type} [Field K] [LinearOrder K] [IsStrictOrderedRing K]
variable {G : Geo K} {c : El} {corner : El → List El} {out : El → Bool} {cut : El → List (Tri K)} {ts : List (Tet K)}

/-- The computed volume for any orientation. -/
theorem cellVolume_signs (hs : IsSqrt G.sq) (S : Solid G.T G.coord c corner out cut ts) {rev : List El}
    (ho : facesOrientation G (facesOf G.T c) = some rev) {v : K}
    (hv : ((facesOf G.T c).map fun f => sign rev f * fanSum volFlux (ptsOf G corner f)).sum = v) (hpos : 0 < v) :
    cellVolume G c = some v := by
  obtain ⟨cen, hcen⟩ := cellCentroid_some S.exists_node
  have hp : ∀ f ∈ facesOf G.T c, (facePoints G f).bind (facePart G.sq cen) =
      some (fanSum volFlux (ptsOf G corner f)) := by
    intro f hf
    obtain ⟨n, d, hn, hpl⟩ := (S.cut.face f hf).inPlane
    rw [facePoints_of (S.loop f hf) (S.nodup f hf), Option.bind_some]
    have hnf := S.ne hf
    unfold ptsOf at hnf
    match hm : (corner f).map G.coord, hnf, hpl with
    | v0 :: vs, _, hpl => rw [ptsOf, hm]; exact facePart_flat hs cen hn hpl
  unfold cellVolume
  simp only [vis_faces, ho, hcen]
  rw [volumeLoop_eq 0 hp]
  simp only [zero_add, hv, if_neg (not_lt.2 hpos.le)]
  rw [if_pos hpos]

end

theorem tiny_faces {f : El} (hf : f ∈ facesOf dent (cl 0)) :
    faceCentroid tinyG f = some (centre3 tinyCo (dentCorner f)) ∧
      faceNormal tinyG f = some (normal3 tinyCo (dentCorner f)) ∧
      unitNormal tinyG f = some (normal3 tinyCo (dentCorner f)) := by
  obtain ⟨h, a, b, d, h3⟩ := loop3_spec (dent_loop3 f hf)
  obtain ⟨h1, h2⟩ := points3 (G := tinyG) h (dent_solid0.nodup f hf) h3
  refine ⟨h1, h2, ?_⟩
  have hsmall : dot (normal3 tinyCo (dentCorner f)) (normal3 tinyCo (dentCorner f)) ≤ (1 / 10 ^ 8) ^ 2 := by
    revert f
    rw [dent_faces]
    simp only [List.forall_mem_cons, List.not_mem_nil, false_implies, implies_true, and_true]
    simp [normal3, dentCorner, tinyCo, coords, nd, fc, Tri.area, smul, cross, sub, dot]
    norm_num
  have : |tinyG.sq (dot (normal3 tinyCo (dentCorner f)) (normal3 tinyCo (dentCorner f)))| ≤ tinyG.eps := by
    change |Real.sqrt _| ≤ 1 / 10 ^ 8
    rw [abs_of_nonneg (Real.sqrt_nonneg _)]
    exact Real.sqrt_le_iff.2 ⟨by norm_num, hsmall⟩
  have h2' : faceNormal tinyG f = some (normal3 tinyCo (dentCorner f)) := h2
  unfold unitNormal
  rw [h2']
  simp only
  rw [if_neg (not_lt.2 this)]

/-- Centres and normals. -/
noncomputable def tinyXn (f : El) : V ℝ × V ℝ := (centre3 tinyCo (dentCorner f), normal3 tinyCo (dentCorner f))

theorem tiny_centreNormal : ∀ f ∈ facesOf dent (cl 0), centreNormal tinyG f = some (tinyXn f) := by
  intro f hf
  obtain ⟨h1, -, h3⟩ := tiny_faces hf
  unfold centreNormal
  rw [h1, h3]
  rfl

theorem tiny_check : checkConvexity tinyG (facesOf dent (cl 0)) = some true := by
  refine check_true tiny_centreNormal ?_
  rw [dent_faces]
  simp only [List.forall_mem_cons, List.not_mem_nil, false_implies, implies_true, and_true, List.map_cons, List.map_nil,
    List.sum_cons, List.sum_nil]
  simp [tinyXn, centre3, normal3, dentCorner, tinyG, tinyCo, coords, nd, fc, Tri.area, smul, cross, sub, dot]
  norm_num [abs_of_neg, abs_of_pos]

theorem tiny_orientation : ∃ rev, facesOrientation tinyG (facesOf dent (cl 0)) = some rev ∧
    ∀ f, f ∈ rev ↔ f ∈ facesOf dent (cl 0) ∧ (f = fc 0 ∨ f = fc 1) := by
  have h1 := tiny_check
  have hm := mean_some (ps := (facesOf dent (cl 0)).map fun f => (tinyXn f).1) (by rw [dent_faces]; simp)
  obtain ⟨xc, hxc⟩ := hm
  have hx : xc = ⟨0, 0, -5 / 6 / 10 ^ 5⟩ := by
    rw [dent_faces] at hxc
    simp [mean, sumPoints, tinyXn, centre3, dentCorner, tinyCo, coords, nd, fc, add, zero] at hxc
    rw [← hxc]
    norm_num
  have ho : facesOrientation tinyG (facesOf dent (cl 0)) = orientConvex tinyG (facesOf dent (cl 0)) := by
    rw [dent_faces] at h1 ⊢
    unfold facesOrientation
    simp only [h1]
  have hc := allSome_eq tiny_centreNormal
  rw [ho]
  unfold orientConvex
  rw [hc]
  have hmap : ((facesOf dent (cl 0)).map tinyXn).map (·.1) = (facesOf dent (cl 0)).map fun f => (tinyXn f).1 := by
    rw [List.map_map]; rfl
  simp only [hmap, hxc]
  refine ⟨_, rfl, fun f => ?_⟩
  rw [mem_orientConvex]
  refine and_congr_right fun hf => ?_
  subst hx
  clear hxc hmap
  revert f
  rw [dent_faces]
  simp only [List.forall_mem_cons, List.not_mem_nil, false_implies, implies_true, and_true]
  simp [tinyXn, centre3, normal3, dentCorner, tinyCo, coords, nd, fc, Tri.area, smul, cross, sub, dot]
  norm_num

theorem tiny_volume : cellVolume tinyG (cl 0) = some (10 / 10 ^ 15) ∧ volume (dentTets0.map (mkTet tinyCo)) = 2 / 10 ^ 15 := by
  constructor
  · obtain ⟨rev, h1, h2⟩ := tiny_orientation
    refine cellVolume_signs (G := tinyG) sqrt_isSqrt tiny_solid0 h1 ?_ (by norm_num)
    have hsg : ∀ f ∈ facesOf dent (cl 0), sign (K := ℝ) rev f = if f = fc 0 ∨ f = fc 1 then -1 else 1 := by
      intro f hf
      unfold sign
      have := h2 f
      by_cases h : f = fc 0 ∨ f = fc 1
      · rw [if_pos (this.2 ⟨hf, h⟩), if_pos h]
      · rw [if_neg (by tauto), if_neg h]
    have hf : facesOf tinyG.T (cl 0) = facesOf dent (cl 0) := rfl
    rw [hf, sum_congr (g := fun f => (if f = fc 0 ∨ f = fc 1 then -1 else 1) * fanSum volFlux (ptsOf tinyG dentCorner f))
      (fun f hf => by rw [hsg f hf]), dent_faces]
    simp [fanSum, steps, volFlux, ptsOf, dentCorner, tinyG, tinyCo, coords, nd, fc, Tri.area, smul, cross, sub, dot]
    norm_num
  · simp [volume, dentTets0, mkTet, Tet.vol, tinyCo, coords, nd, cross, sub, dot]
    norm_num

/-- The test of the normal of face 0, whose normal points out of the cell, gives the wrong answer. -/
theorem tiny_normal : checkNormal tinyG (fc 0) = some false ∧ dentOut0 (fc 0) = true := by
  refine ⟨?_, by decide⟩
  have hb : backCell tinyG.T (fc 0) = some (cl 0) := by
    change backCell dent (fc 0) = _; decide +kernel
  obtain ⟨h1, -, h3⟩ := tiny_faces (f := fc 0) (by decide +kernel)
  have hv : vis tinyG.T (tinyG.T.high (cl 0)) = [nd 0, nd 1, nd 2, nd 3, nd 4] := by
    change vis dent (dent.high (cl 0)) = _; decide +kernel
  have hc : cellCentroid tinyG (cl 0) = some ⟨0, 0, -1 / 10 ^ 5⟩ := by
    unfold cellCentroid
    rw [hv]
    simp [mean, sumPoints, tinyG, tinyCo, coords, nd, add, zero]
    norm_num
  unfold checkNormal
  have hcheck : checkConvexity tinyG (vis tinyG.T (tinyG.T.low (cl 0))) = some true := tiny_check
  simp only [hb, hcheck, hc, h1, h3]
  rw [if_pos]
  simp [centre3, normal3, dentCorner, tinyCo, coords, nd, fc, Tri.area, smul, cross, sub, dot]
  norm_num

theorem cavity_volume : cellVolume cavityG (cl 0) = some (1001 / 6) ∧
    volume (cavityTets0.map (mkTet cavityCo)) = 999 / 6 := by
  constructor
  · have hup : ∀ e g, g ∈ facesOf cavity (cl 0) → (g ∈ cavity.high e ↔ e ∈ cavity.low g) := fun e g _ =>
      ((reach_inv reach_cavity).1.mem (fun h => h)).symm
    obtain ⟨rev, h1, h2⟩ := orientFrom_component cavity_surface hup (f0 := fc 0) (by decide +kernel)
    have ho : facesOrientation cavityG (facesOf cavity (cl 0)) = some rev := by
      have hck := cavity_check
      rw [cavity_faces] at hck h1 ⊢
      unfold facesOrientation
      simp only [hck]
      exact h1
    have hnone : ∀ g, g ∉ rev := by
      intro g hg
      obtain ⟨hgf, hr, hne⟩ := (h2 g).1 hg
      have hin : g ∈ [fc 0, fc 1, fc 2, fc 3] := by
        have step : ∀ x ∈ [fc 0, fc 1, fc 2, fc 3], ∀ y ∈ facesOf cavity (cl 0),
            (∃ e ∈ cavity.low x, e ∈ cavity.low y) → y ∈ [fc 0, fc 1, fc 2, fc 3] := by decide +kernel
        clear hg hne hgf
        induction hr with
        | refl => decide
        | tail _ hadj ih =>
          obtain ⟨-, hz, e, he1, he2⟩ := hadj
          exact step _ ih _ hz ⟨e, he1, he2⟩
      have : ∀ x ∈ [fc 0, fc 1, fc 2, fc 3], cavityOut0 x = cavityOut0 (fc 0) := by decide
      exact hne (this g hin)
    refine cellVolume_signs (G := cavityG) sqrt_isSqrt cavity_solid0 ho ?_ (by norm_num)
    have hf : facesOf cavityG.T (cl 0) = facesOf cavity (cl 0) := rfl
    have hsg : ∀ f, sign (K := ℝ) rev f = 1 := fun f => by unfold sign; rw [if_neg (hnone f)]
    simp only [hsg, one_mul]
    rw [hf, cavity_faces]
    simp [fanSum, steps, volFlux, ptsOf, cavityCorner, cavityG, cavityCo, coords, nd, fc, Tri.area, smul, cross, sub, dot]
    norm_num
  · simp [volume, cavityTets0, mkTet, Tet.vol, cavityCo, coords, nd, cross, sub, dot]
    norm_num

end Verif.Geometry
