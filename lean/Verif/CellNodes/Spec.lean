import Verif.CellNodes.Model
import Verif.EdgeLoop.Spec
import Mathlib.Data.List.Rotate
import Mathlib.Data.List.Perm.Basic
import Mathlib.Data.List.Forall2

/-!
# Specification vocabulary for the nodes of a cell

* `SameCycle l m` : the closed polygons with corners `l` and `m` are the same, run through in any direction from any corner.
* `Polygons T c F` : the faces of the cell `c` are, in their order, simple polygons with the corners `F`.
* `Shape F G` : up to order, the polygons `F` are the polygons `G`.
* `hexFaces`, `prismFaces`, `pyramidFaces`, `tetFaces` : the faces of the cells of VTK as lists of corners, given the list of their
  nodes.
* `Numbered F faces n ns` : `ns` are `n` different nodes that number the corners of the polygons `F` in the way of VTK.
* `Inward T c f l m` : the list `m` are the corners `l` of the face `f`, in the order seen from the cell `c`: the stored order if the
  normal of the face points into the cell, otherwise the opposite one.
* `OpenEnds`, `OneEdge`, `FaceTypes` : conditions on the edges and faces of a cell.
-/

namespace Verif.CellNodes
open Verif.Topology Verif.EdgeLoop

/-- The same polygon. -/
def SameCycle {A : Type} (l m : List A) : Prop := l ~r m ∨ l.reverse ~r m

/-- The faces of a cell as polygons. -/
def Polygons (T : Topo) (c : El) (F : List (List El)) : Prop :=
  List.Forall₂ (fun f ns => Loop T (edgesOf T f) ns ∧ ns.Nodup) ((T.low c).filter fun f => !T.hid f) F

/-- The same polygons. -/
def Shape {A : Type} (F G : List (List A)) : Prop := ∃ F', List.Forall₂ SameCycle F F' ∧ F'.Perm G

/-- The faces of VTK_HEXAHEDRON. -/
def hexFaces {A : Type} : List A → List (List A)
  | [a, b, c, d, e, f, g, h] => [[a, b, c, d], [e, f, g, h], [a, b, f, e], [b, c, g, f], [c, d, h, g], [d, a, e, h]]
  | _ => []

/-- The faces of VTK_WEDGE. -/
def prismFaces {A : Type} : List A → List (List A)
  | [a, b, c, d, e, f] => [[a, b, c], [d, e, f], [a, b, e, d], [b, c, f, e], [c, a, d, f]]
  | _ => []

/-- The faces of VTK_PYRAMID. -/
def pyramidFaces {A : Type} : List A → List (List A)
  | [a, b, c, d, e] => [[a, b, c, d], [a, b, e], [b, c, e], [c, d, e], [d, a, e]]
  | _ => []

/-- The faces of VTK_TETRA. -/
def tetFaces {A : Type} : List A → List (List A)
  | [a, b, c, d] => [[a, b, c], [a, b, d], [b, c, d], [c, a, d]]
  | _ => []

/-- A numbering of the corners. -/
structure Numbered (F : List (List El)) (faces : List El → List (List El)) (n : Nat) (ns : List El) : Prop where
  length : ns.length = n
  nodup : ns.Nodup
  shape : Shape F (faces ns)

/-- The corners of a face seen from a cell; the normal of a face points out of its first visible cell. -/
def Inward (T : Topo) (c f : El) (l m : List El) : Prop :=
  if ((T.high f).filter fun x => !T.hid x).head? = some c then m = l.reverse else m = l

/-- The first and the last stored edge of every visible face of the cell are visible. -/
def OpenEnds (T : Topo) (c : El) : Prop := ∀ f ∈ T.low c, T.hid f = false → ∀ e,
  (T.low f)[0]? = some e ∨ (T.low f)[(T.low f).length - 1]? = some e → T.hid e = false

/-- Edges of faces of the cell with the same nodes are equal. -/
def OneEdge (T : Topo) (c : El) : Prop := ∀ f g e e' a b, f ∈ (T.low c).filter (fun f => !T.hid f) →
  g ∈ (T.low c).filter (fun f => !T.hid f) → e ∈ edgesOf T f → e' ∈ edgesOf T g → Joins T e a b → Joins T e' a b → e = e'

/-- The types of the faces that are triangles and quadrilaterals are 4 (Tri) and 5 (Quad). -/
def FaceTypes (T : Topo) (gt : El → Nat) (c : El) : Prop := ∀ f ∈ T.low c,
  ((edgesOf T f).length = 3 → gt f = 4) ∧ ((edgesOf T f).length = 4 → gt f = 5)

end Verif.CellNodes
