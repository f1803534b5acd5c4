import Verif.CellNodes.Kinds
import Verif.EdgeLoop.Props

/-! Concrete cells. -/

namespace Verif.CellNodes
open Verif.Topology Verif.EdgeLoop

/-- Decidable form of `Polygons`. -/
def allPoly (T : Topo) : List El → List (List El) → Bool
  | [], [] => true
  | f :: fs, P :: F => decide (3 ≤ (edgesOf T f).length) && decide (P.length = (edgesOf T f).length) &&
      (List.range (edgesOf T f).length).all (fun i =>
        match (edgesOf T f)[i]?, P[i]?, P[(i + 1) % (edgesOf T f).length]? with
        | some e, some a, some b => decide ((T.low e).filter (fun x => !T.hid x) = [a, b]) || decide ((T.low e).filter (fun x => !T.hid x) = [b, a])
        | _, _, _ => false) && decide P.Nodup && allPoly T fs F
  | _, _ => false

theorem allPoly_of {T : Topo} : ∀ {fs : List El} {F : List (List El)}, allPoly T fs F = true →
    List.Forall₂ (fun f ns => Loop T (edgesOf T f) ns ∧ ns.Nodup) fs F
  | [], [], _ => .nil
  | [], _ :: _, h => by cases h
  | _ :: _, [], h => by cases h
  | f :: fs, P :: F, h => by
    unfold allPoly at h
    simp only [Bool.and_eq_true, decide_eq_true_eq, List.all_eq_true, List.mem_range] at h
    obtain ⟨⟨⟨⟨h1, h2⟩, h3⟩, h4⟩, h5⟩ := h
    refine .cons ⟨⟨h1, h2, fun i e a b he ha hb => ?_⟩, h4⟩ (allPoly_of h5)
    have := h3 i (List.getElem?_eq_some_iff.1 he).1
    rw [he, ha, hb] at this
    simpa [Joins] using this

theorem polys_of {T : Topo} {c : El} {F : List (List El)} (h : allPoly T ((T.low c).filter fun f => !T.hid f) F = true) : Polygons T c F :=
  allPoly_of h

/-- The faces of the cube. -/
def cube0 : Topo := (build (Topo.init true) [
  (0, 0, [], []), (0, 1, [], []), (0, 2, [], []), (0, 3, [], []), (0, 4, [], []), (0, 5, [], []), (0, 6, [], []), (0, 7, [], []),
  (1, 0, [nd 0, nd 1], []), (1, 1, [nd 1, nd 2], []), (1, 2, [nd 2, nd 3], []), (1, 3, [nd 3, nd 0], []),
  (1, 4, [nd 1, nd 5], []), (1, 5, [nd 5, nd 4], []), (1, 6, [nd 4, nd 0], []), (1, 7, [nd 5, nd 6], []),
  (1, 8, [nd 6, nd 7], []), (1, 9, [nd 7, nd 4], []), (1, 10, [nd 2, nd 6], []), (1, 11, [nd 7, nd 3], []),
  (2, 0, [ed 0, ed 1, ed 2, ed 3], []), (2, 1, [ed 0, ed 4, ed 5, ed 6], []), (2, 2, [ed 5, ed 7, ed 8, ed 9], []),
  (2, 3, [ed 1, ed 10, ed 7, ed 4], []), (2, 4, [ed 2, ed 10, ed 8, ed 11], []), (2, 5, [ed 3, ed 11, ed 9, ed 6], [])]).get (by decide +kernel)
/-- With its cell. -/
def cube : Topo := (build cube0 [(3, 0, [fc 0, fc 1, fc 2, fc 3, fc 4, fc 5], [nd 0, nd 1, nd 2, nd 3, nd 4, nd 5, nd 6, nd 7])]).get (by decide +kernel)
theorem reach_cube0 : Reach true cube0 := build_reach _ _ _ .init (getEq _)
theorem reach_cube : Reach true cube := build_reach _ _ _ reach_cube0 (getEq _)
theorem cube_polygons : Polygons cube (cl 0) [[nd 0, nd 1, nd 2, nd 3], [nd 0, nd 1, nd 5, nd 4], [nd 4, nd 5, nd 6, nd 7], [nd 1, nd 2, nd 6, nd 5], [nd 3, nd 2, nd 6, nd 7], [nd 0, nd 3, nd 7, nd 4]] :=
  polys_of (by decide +kernel)
theorem cube_numbered : Numbered [[nd 0, nd 1, nd 2, nd 3], [nd 0, nd 1, nd 5, nd 4], [nd 4, nd 5, nd 6, nd 7], [nd 1, nd 2, nd 6, nd 5], [nd 3, nd 2, nd 6, nd 7], [nd 0, nd 3, nd 7, nd 4]] hexFaces 8 [nd 0, nd 1, nd 2, nd 3, nd 4, nd 5, nd 6, nd 7] :=
  ⟨rfl, by decide +kernel, shape_auto (by decide +kernel) (by decide +kernel)⟩

/-- The faces of the wedge. -/
def wedge0 : Topo := (build (Topo.init true) [
  (0, 0, [], []), (0, 1, [], []), (0, 2, [], []), (0, 3, [], []), (0, 4, [], []), (0, 5, [], []), (1, 0, [nd 0, nd 1], []),
  (1, 1, [nd 1, nd 4], []), (1, 2, [nd 4, nd 3], []), (1, 3, [nd 3, nd 0], []), (1, 4, [nd 1, nd 2], []),
  (1, 5, [nd 2, nd 0], []), (1, 6, [nd 2, nd 5], []), (1, 7, [nd 5, nd 4], []), (1, 8, [nd 5, nd 3], []),
  (2, 0, [ed 0, ed 1, ed 2, ed 3], []), (2, 1, [ed 0, ed 4, ed 5], []), (2, 2, [ed 4, ed 6, ed 7, ed 1], []),
  (2, 3, [ed 2, ed 7, ed 8], []), (2, 4, [ed 5, ed 3, ed 8, ed 6], [])]).get (by decide +kernel)
/-- With its cell. -/
def wedge : Topo := (build wedge0 [(3, 0, [fc 0, fc 1, fc 2, fc 3, fc 4], [nd 0, nd 1, nd 2, nd 3, nd 4, nd 5])]).get (by decide +kernel)
theorem reach_wedge0 : Reach true wedge0 := build_reach _ _ _ .init (getEq _)
theorem reach_wedge : Reach true wedge := build_reach _ _ _ reach_wedge0 (getEq _)
theorem wedge_polygons : Polygons wedge (cl 0) [[nd 0, nd 1, nd 4, nd 3], [nd 0, nd 1, nd 2], [nd 1, nd 2, nd 5, nd 4], [nd 3, nd 4, nd 5], [nd 2, nd 0, nd 3, nd 5]] :=
  polys_of (by decide +kernel)
theorem wedge_numbered : Numbered [[nd 0, nd 1, nd 4, nd 3], [nd 0, nd 1, nd 2], [nd 1, nd 2, nd 5, nd 4], [nd 3, nd 4, nd 5], [nd 2, nd 0, nd 3, nd 5]] prismFaces 6 [nd 0, nd 1, nd 2, nd 3, nd 4, nd 5] :=
  ⟨rfl, by decide +kernel, shape_auto (by decide +kernel) (by decide +kernel)⟩

/-- The faces of the pyr. -/
def pyr0 : Topo := (build (Topo.init true) [
  (0, 0, [], []), (0, 1, [], []), (0, 2, [], []), (0, 3, [], []), (0, 4, [], []), (1, 0, [nd 0, nd 1], []),
  (1, 1, [nd 1, nd 4], []), (1, 2, [nd 4, nd 0], []), (1, 3, [nd 1, nd 2], []), (1, 4, [nd 2, nd 3], []),
  (1, 5, [nd 3, nd 0], []), (1, 6, [nd 2, nd 4], []), (1, 7, [nd 3, nd 4], []), (2, 0, [ed 0, ed 1, ed 2], []),
  (2, 1, [ed 0, ed 3, ed 4, ed 5], []), (2, 2, [ed 3, ed 6, ed 1], []), (2, 3, [ed 4, ed 7, ed 6], []),
  (2, 4, [ed 5, ed 2, ed 7], [])]).get (by decide +kernel)
/-- With its cell. -/
def pyr : Topo := (build pyr0 [(3, 0, [fc 0, fc 1, fc 2, fc 3, fc 4], [nd 0, nd 1, nd 2, nd 3, nd 4])]).get (by decide +kernel)
theorem reach_pyr0 : Reach true pyr0 := build_reach _ _ _ .init (getEq _)
theorem reach_pyr : Reach true pyr := build_reach _ _ _ reach_pyr0 (getEq _)
theorem pyr_polygons : Polygons pyr (cl 0) [[nd 0, nd 1, nd 4], [nd 0, nd 1, nd 2, nd 3], [nd 1, nd 2, nd 4], [nd 2, nd 3, nd 4], [nd 3, nd 0, nd 4]] :=
  polys_of (by decide +kernel)
theorem pyr_numbered : Numbered [[nd 0, nd 1, nd 4], [nd 0, nd 1, nd 2, nd 3], [nd 1, nd 2, nd 4], [nd 2, nd 3, nd 4], [nd 3, nd 0, nd 4]] pyramidFaces 5 [nd 0, nd 1, nd 2, nd 3, nd 4] :=
  ⟨rfl, by decide +kernel, shape_auto (by decide +kernel) (by decide +kernel)⟩

/-- The faces of the tetra. -/
def tetra0 : Topo := (build (Topo.init true) [
  (0, 0, [], []), (0, 1, [], []), (0, 2, [], []), (0, 3, [], []), (1, 0, [nd 0, nd 1], []), (1, 1, [nd 1, nd 2], []),
  (1, 2, [nd 2, nd 0], []), (1, 3, [nd 1, nd 3], []), (1, 4, [nd 3, nd 0], []), (1, 5, [nd 2, nd 3], []),
  (2, 0, [ed 0, ed 1, ed 2], []), (2, 1, [ed 0, ed 3, ed 4], []), (2, 2, [ed 1, ed 5, ed 3], []), (2, 3, [ed 2, ed 4, ed 5], [])]).get (by decide +kernel)
/-- With its cell. -/
def tetra : Topo := (build tetra0 [(3, 0, [fc 0, fc 1, fc 2, fc 3], [nd 0, nd 1, nd 2, nd 3])]).get (by decide +kernel)
theorem reach_tetra0 : Reach true tetra0 := build_reach _ _ _ .init (getEq _)
theorem reach_tetra : Reach true tetra := build_reach _ _ _ reach_tetra0 (getEq _)
theorem tetra_polygons : Polygons tetra (cl 0) [[nd 0, nd 1, nd 2], [nd 0, nd 1, nd 3], [nd 1, nd 2, nd 3], [nd 2, nd 0, nd 3]] :=
  polys_of (by decide +kernel)
theorem tetra_numbered : Numbered [[nd 0, nd 1, nd 2], [nd 0, nd 1, nd 3], [nd 1, nd 2, nd 3], [nd 2, nd 0, nd 3]] tetFaces 4 [nd 0, nd 1, nd 2, nd 3] :=
  ⟨rfl, by decide +kernel, shape_auto (by decide +kernel) (by decide +kernel)⟩


/-- The tetrahedron after two edges have been united: the parts 6 and 7 of edge 0 and the node between them are hidden. -/
def halves0 : Topo := (build (Topo.init true) [
  (0, 0, [], []), (0, 1, [], []), (0, 2, [], []), (0, 3, [], []), (0, 4, [], []), (1, 0, [nd 0, nd 1], []), (1, 1, [nd 1, nd 2], []),
  (1, 2, [nd 2, nd 0], []), (1, 3, [nd 1, nd 3], []), (1, 4, [nd 3, nd 0], []), (1, 5, [nd 2, nd 3], []),
  (1, 6, [nd 0, nd 4], []), (1, 7, [nd 4, nd 1], []),
  (2, 0, [ed 6, ed 7, ed 0, ed 1, ed 2], []), (2, 1, [ed 6, ed 7, ed 0, ed 3, ed 4], []), (2, 2, [ed 1, ed 5, ed 3], []),
  (2, 3, [ed 2, ed 4, ed 5], []), (3, 0, [fc 0, fc 1, fc 2, fc 3], [nd 0, nd 1, nd 2, nd 3])]).get (by decide +kernel)
def halves1 : Topo := (halves0.beginMod).get (by decide +kernel)
def halves2 : Topo := (halves1.hideOp (fun _ _ => false) (ed 6)).get (by decide +kernel)
def halves3 : Topo := (halves2.hideOp (fun _ _ => false) (ed 7)).get (by decide +kernel)
def halves : Topo := (halves3.hideOp (fun _ _ => false) (nd 4)).get (by decide +kernel)
theorem reach_halves : Reach true halves :=
  .hideOp _ _ (.hideOp _ _ (.hideOp _ _ (.beginMod (build_reach _ _ _ .init (getEq _)) (getEq _)) (getEq _)) (getEq _)) (getEq _)
theorem halves_polygons : Polygons halves (cl 0) [[nd 0, nd 1, nd 2], [nd 0, nd 1, nd 3], [nd 1, nd 2, nd 3], [nd 2, nd 0, nd 3]] :=
  polys_of (by decide +kernel)

/-- A square in a mesh of dimension two. -/
def plate : Topo := (build (Topo.init true) [(0, 0, [], []), (0, 1, [], []), (0, 2, [], []), (0, 3, [], []),
  (1, 0, [nd 0], []), (1, 1, [nd 1], []), (1, 2, [nd 2], []), (1, 3, [nd 3], []),
  (2, 0, [ed 0, ed 1], []), (2, 1, [ed 2, ed 1], []), (2, 2, [ed 2, ed 3], []), (2, 3, [ed 0, ed 3], []),
  (3, 0, [fc 0, fc 1, fc 2, fc 3], [nd 0, nd 1, nd 2, nd 3])]).get (by decide +kernel)
theorem reach_plate : Reach true plate := build_reach _ _ _ .init (getEq _)

end Verif.CellNodes
