import Verif.Geometry.Sample
import Verif.Geometry.Fix

/-!
# Concrete cells: convexity and orientation
-/

namespace Verif.Geometry
open Verif.Topology Verif.EdgeLoop Verif.Search

theorem pair_faces0 : facesOf pair2 (cl 0) = [fc 0, fc 1, fc 2, fc 3] := by decide +kernel
theorem pair_faces1 : facesOf pair2 (cl 1) = [fc 0, fc 4, fc 5, fc 6] := by decide +kernel
theorem dent_faces : facesOf dent (cl 0) = [fc 0, fc 1, fc 2, fc 3, fc 4, fc 5] := by decide +kernel
theorem cavity_faces : facesOf cavity (cl 0) = [fc 0, fc 1, fc 2, fc 3, fc 4, fc 5, fc 6, fc 7] := by decide +kernel

theorem pair_convex0 : Convex (facesOf pair2 (cl 0)) (ptsOf pairG pair2Corner) pair2Out0 (cutOf pairCo pair2Corner) := by
  rw [pair_faces0]
  unfold Convex
  simp only [List.forall_mem_cons, List.exists_mem_cons, List.not_mem_nil, false_implies, implies_true, and_true]
  simp [pairG, pairCo, ptsOf, pair2Corner, pair2Out0, cutOf, corner3, mkTri, areaVector, Tri.area, smul, coords, nd, fc, cross,
    sub, dot]
  try norm_num

theorem pair_convex1 : Convex (facesOf pair2 (cl 1)) (ptsOf pairG pair2Corner) pair2Out1 (cutOf pairCo pair2Corner) := by
  rw [pair_faces1]
  unfold Convex
  simp only [List.forall_mem_cons, List.exists_mem_cons, List.not_mem_nil, false_implies, implies_true, and_true]
  simp [pairG, pairCo, ptsOf, pair2Corner, pair2Out1, cutOf, corner3, mkTri, areaVector, Tri.area, smul, coords, nd, fc, cross,
    sub, dot]
  try norm_num

theorem dent_surface : Surface dent (facesOf dent (cl 0)) dentCorner dentOut0 :=
  surface_of (by decide +kernel) (by decide +kernel) (by decide +kernel)

theorem dent_connected : Connected dent (facesOf dent (cl 0)) :=
  connected_of (f0 := fc 0) (by decide +kernel) (by decide +kernel)

theorem cavity_surface : Surface cavity (facesOf cavity (cl 0)) cavityCorner cavityOut0 :=
  surface_of (by decide +kernel) (by decide +kernel) (by decide +kernel)

/-! ## The test of convexity on cells with triangular faces -/

section
variable {K : Type} [Field K] [LinearOrder K] [IsStrictOrderedRing K]
variable {G : Geo K} {c : El} {corner : El → List El} {out : El → Bool} {ts : List (Tet K)}

/-- The centre of a triangular face. -/
def centre3 (co : El → V K) : List El → V K
  | [a, b, d] => ⟨((co a).x + ((co b).x + (co d).x)) / 3, ((co a).y + ((co b).y + (co d).y)) / 3,
      ((co a).z + ((co b).z + (co d).z)) / 3⟩
  | _ => zero

/-- The area vector of a triangular face. -/
def normal3 (co : El → V K) : List El → V K
  | [a, b, d] => (⟨co a, co b, co d⟩ : Tri K).area
  | _ => zero

theorem mean3 (co : El → V K) (a b d : El) : mean ([a, b, d].map co) = some (centre3 co [a, b, d]) := by
  simp only [mean, List.map_cons, List.map_nil, reduceCtorEq, if_false, sumPoints, zero, add, centre3, List.length_cons,
    List.length_nil, add_zero, Nat.cast_ofNat, Nat.zero_add]
  norm_num

theorem points3 {f a b d : El} (h : Loop G.T (edgesOf G.T f) (corner f)) (hn : (corner f).Nodup)
    (h3 : corner f = [a, b, d]) : faceCentroid G f = some (centre3 G.coord (corner f)) ∧
      faceNormal G f = some (normal3 G.coord (corner f)) := by
  have hp := facePoints_of h hn
  unfold faceCentroid faceNormal
  rw [hp, h3]
  refine ⟨mean3 _ _ _ _, ?_⟩
  simp [normalOf, steps, normalLoop, normal3, triNormal_area, add, zero]

theorem centreNormal3 {f a b d : El} (h : Loop G.T (edgesOf G.T f) (corner f)) (hn : (corner f).Nodup)
    (h3 : corner f = [a, b, d]) :
    centreNormal G f = some (centre3 G.coord (corner f), (unitNormal G f).getD zero) := by
  obtain ⟨h1, h2⟩ := points3 h hn h3
  unfold centreNormal unitNormal
  rw [h1, h2]
  simp only
  by_cases h : |G.sq (dot (normal3 G.coord (corner f)) (normal3 G.coord (corner f)))| > G.eps
  · simp only [if_pos h, Option.getD_some]
  · simp only [if_neg h, Option.getD_some]

theorem convexLoop_false {eps : K} {xs : List (V K)} : ∀ {l : List (V K × V K)} {p : V K × V K}, p ∈ l →
    |(|(dotSums p.2 p.1 xs (0, 0)).1| - (dotSums p.2 p.1 xs (0, 0)).2)| > eps → convexLoop eps xs l = false := by
  intro l
  induction l with
  | nil => intro p hp; cases hp
  | cons q l ih =>
    intro p hp h
    unfold convexLoop
    rcases List.mem_cons.1 hp with rfl | hp
    · simp only [if_pos h]
    · simp only
      split
      · rfl
      · exact ih hp h

theorem check_false {fs : List El} {xn : El → V K × V K} (h1 : ∀ f ∈ fs, centreNormal G f = some (xn f)) {f : El}
    (hf : f ∈ fs) (h : |(|((fs.map xn).map fun p => dot (xn f).2 (sub p.1 (xn f).1)).sum| -
      ((fs.map xn).map fun p => |dot (xn f).2 (sub p.1 (xn f).1)|).sum)| > G.eps) :
    checkConvexity G fs = some false := by
  unfold checkConvexity
  rw [allSome_eq h1, Option.map_some, convexLoop_false (List.mem_map.2 ⟨f, hf, rfl⟩)]
  simp only [dotSums_eq, zero_add, List.map_map] at h ⊢
  exact h

theorem check_true {fs : List El} {xn : El → V K × V K} (h1 : ∀ f ∈ fs, centreNormal G f = some (xn f))
    (h : ∀ f ∈ fs, |(|((fs.map xn).map fun p => dot (xn f).2 (sub p.1 (xn f).1)).sum| -
      ((fs.map xn).map fun p => |dot (xn f).2 (sub p.1 (xn f).1)|).sum)| ≤ G.eps) :
    checkConvexity G fs = some true := by
  unfold checkConvexity
  rw [allSome_eq h1, Option.map_some, convexLoop_true]
  intro p hp
  obtain ⟨f, hf, rfl⟩ := List.mem_map.1 hp
  simp only [dotSums_eq, zero_add, List.map_map] at h ⊢
  exact h f hf

end

theorem unit_of {K : Type} [Field K] [LinearOrder K] [IsStrictOrderedRing K] {G : Geo K} {f : El} {n : V K}
    (h : faceNormal G f = some n) (he : |G.sq (dot n n)| > G.eps) :
    (unitNormal G f).getD zero = ⟨n.x / G.sq (dot n n), n.y / G.sq (dot n n), n.z / G.sq (dot n n)⟩ := by
  unfold unitNormal; rw [h]; simp only [if_pos he, Option.getD_some]

theorem unit_small {K : Type} [Field K] [LinearOrder K] [IsStrictOrderedRing K] {G : Geo K} {f : El} {n : V K}
    (h : faceNormal G f = some n) (he : |G.sq (dot n n)| ≤ G.eps) : (unitNormal G f).getD zero = n := by
  unfold unitNormal; rw [h]; simp only [if_neg (not_lt.2 he), Option.getD_some]

theorem dent_loop3 : ∀ f ∈ facesOf dent (cl 0), loop3 dent (edgesOf dent f) (dentCorner f) = true := by
  decide +kernel

theorem dent_check : checkConvexity dentG (facesOf dent (cl 0)) = some false := by
  have hc : ∀ f ∈ facesOf dent (cl 0), centreNormal dentG f =
      some (centre3 dentCo (dentCorner f), (unitNormal dentG f).getD zero) := by
    intro f hf
    obtain ⟨h, a, b, d, h3⟩ := loop3_spec (dent_loop3 f hf)
    exact centreNormal3 h (dent_solid0.nodup f hf) h3
  have hu : (unitNormal dentG (fc 0)).getD zero = ⟨0, 0, 1⟩ := by
    have h0 : fc 0 ∈ facesOf dent (cl 0) := by decide +kernel
    have hn := (points3 (G := dentG) (dent_solid0.loop _ h0) (dent_solid0.nodup _ h0) (a := nd 0) (b := nd 1) (d := nd 2) rfl).2
    have hv : normal3 dentG.coord (dentCorner (fc 0)) = ⟨0, 0, 2⟩ := by
      simp [normal3, dentCorner, dentG, dentCo, coords, nd, Tri.area, smul, cross, sub]
    rw [hv] at hn
    have hsq : dentG.sq (dot ⟨0, 0, 2⟩ ⟨0, 0, 2⟩) = 2 := by
      have : dot (⟨0, 0, 2⟩ : V ℝ) ⟨0, 0, 2⟩ = 2 * 2 := by simp [dot]
      rw [this]; exact Real.sqrt_mul_self (by norm_num)
    rw [unit_of hn (by rw [hsq]; norm_num [dentG]), hsq]; norm_num
  refine check_false hc (f := fc 0) (by decide +kernel) ?_
  rw [dent_faces]
  simp only [List.map_cons, List.map_nil, List.sum_cons, List.sum_nil, hu]
  simp [centre3, dentCorner, dentG, dentCo, coords, nd, fc, dot, sub]
  norm_num [abs_of_neg, abs_of_pos]

theorem cavity_loop3 : ∀ f ∈ facesOf cavity (cl 0), loop3 cavity (edgesOf cavity f) (cavityCorner f) = true := by
  decide +kernel

theorem cavity_check : checkConvexity cavityG (facesOf cavity (cl 0)) = some false := by
  have hc : ∀ f ∈ facesOf cavity (cl 0), centreNormal cavityG f =
      some (centre3 cavityCo (cavityCorner f), (unitNormal cavityG f).getD zero) := by
    intro f hf
    obtain ⟨h, a, b, d, h3⟩ := loop3_spec (cavity_loop3 f hf)
    exact centreNormal3 h (cavity_solid0.nodup f hf) h3
  have hu : (unitNormal cavityG (fc 4)).getD zero = ⟨0, 0, -1⟩ := by
    have h0 : fc 4 ∈ facesOf cavity (cl 0) := by decide +kernel
    have hn := (points3 (G := cavityG) (cavity_solid0.loop _ h0) (cavity_solid0.nodup _ h0) (a := nd 4) (b := nd 6) (d := nd 5) rfl).2
    have hv : normal3 cavityG.coord (cavityCorner (fc 4)) = ⟨0, 0, -(1 / 2)⟩ := by
      simp [normal3, cavityCorner, cavityG, cavityCo, coords, nd, fc, Tri.area, smul, cross, sub]; norm_num
    rw [hv] at hn
    have hsq : cavityG.sq (dot ⟨0, 0, -(1 / 2)⟩ ⟨0, 0, -(1 / 2)⟩) = 1 / 2 := by
      have : dot (⟨0, 0, -(1 / 2)⟩ : V ℝ) ⟨0, 0, -(1 / 2)⟩ = 1 / 2 * (1 / 2) := by simp [dot]
      rw [this]; exact Real.sqrt_mul_self (by norm_num)
    rw [unit_of hn (by rw [hsq]; norm_num [cavityG]), hsq]; norm_num
  refine check_false hc (f := fc 4) (by decide +kernel) ?_
  rw [cavity_faces]
  simp only [List.map_cons, List.map_nil, List.sum_cons, List.sum_nil, hu]
  simp [centre3, cavityCorner, cavityG, cavityCo, coords, nd, fc, dot, sub]
  norm_num [abs_of_neg, abs_of_pos]

end Verif.Geometry
