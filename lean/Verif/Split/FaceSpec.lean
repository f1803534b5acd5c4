import Verif.Split.FaceModel
import Verif.EdgeLoop.Spec

/-!
# Specification vocabulary for splitting faces

* `FaceArgs T dup f edges` : what the caller of `SplitFace` has to provide: a polygon `f` and straight
  edges that do not coincide with each other.  `dup` is the topology check `DUPLICATE_FACE`.
* `facesAt T c e` : the number of faces of the cell `c` that have the edge `e`; a cell is closed if this number is 0
  or 2 for every edge.
-/

namespace Verif.Split
open Verif.Topology Verif.EdgeLoop

structure FaceArgs (T : Topo) (dup : Bool) (f : El) (edges : List El) : Prop where
  face : f.ty = 2
  shown : T.hid f = false
  once : (T.cellsOf f).Nodup
  edge : ∀ e ∈ edges, e.ty = 1 ∧ T.hid e = false
  nodup : edges.Nodup
  /-- the face is a polygon -/
  polygon : ∃ ns, Loop T (edgesOf T f) ns ∧ ns.Nodup
  /-- every edge has two nodes -/
  ends : ∀ e, e ∈ edges ∨ e ∈ edgesOf T f → ∃ a b, a ≠ b ∧ T.low e = [a, b] ∧ T.hid a = false ∧ T.hid b = false
  /-- no two edges have the same nodes -/
  apart : ∀ e e', (e ∈ edges ∨ e ∈ edgesOf T f) → (e' ∈ edges ∨ e' ∈ edgesOf T f) → (∀ n, n ∈ T.low e ↔ n ∈ T.low e') →
    e = e'
  /-- the new nodes are not nodes of the cells yet -/
  inside : T.cn = true → ∀ e ∈ edges, ∀ n ∈ T.low e, (∀ e' ∈ edgesOf T f, n ∉ T.low e') →
    ∀ c ∈ T.cellsOf f, n ∉ T.high c
  /-- if existing faces may be found: they are polygons -/
  polygons : dup = true → ∀ g, T.alive g = true → g.ty = 2 → T.hid g = false → ∃ ns, Loop T (edgesOf T g) ns ∧ ns.Nodup
  /-- ... and no other face of the cells consists of the given edges and the edges of the face -/
  others : dup = true → ∀ c ∈ T.cellsOf f, ∀ g ∈ T.low c, g ≠ f → T.hid g = false →
    ∃ e ∈ edgesOf T g, e ∉ edges ∧ e ∉ edgesOf T f

/-- The number of faces of `c` with the edge `e`. -/
def facesAt (T : Topo) (c e : El) : Nat :=
  ((T.low c).filter fun g => !T.hid g).countP fun g => decide (e ∈ T.low g)

end Verif.Split
