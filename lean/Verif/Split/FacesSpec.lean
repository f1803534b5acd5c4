import Verif.Split.FacesModel
import Verif.Split.CellsSpec
import Verif.Split.FaceSpec

/-!
# Specification vocabulary for uniting faces

`visits T unite e` (`CellsSpec.lean`) : how many of the faces have the edge `e`.
`Absorbed` : what has to disappear when faces are united: the faces, the edges between two of them, and the nodes that have
  only such edges.
`Joined` : the faces are one piece, connected by common edges.
`FacesArgs` : what the caller has to provide: different visible polygons without coinciding edges.
-/

namespace Verif.Split
open Verif.Topology Verif.EdgeLoop

/-- A node that is left without edges. -/
def Enclosed (T : Topo) (unite : List El) (n : El) : Prop :=
  (∃ e, visits T unite e = 2 ∧ n ∈ T.low e ∧ T.hid n = false) ∧ ∀ e ∈ T.high n, T.hid e = false → visits T unite e = 2

def Absorbed (T : Topo) (unite : List El) (x : El) : Prop :=
  x ∈ unite ∨ visits T unite x = 2 ∨ Enclosed T unite x

structure FacesArgs (T : Topo) (unite : List El) : Prop where
  face : ∀ f ∈ unite, f.ty = 2 ∧ Visible T f
  nodup : unite.Nodup
  polygon : ∀ f ∈ unite, ∃ ns, Loop T (edgesOf T f) ns ∧ ns.Nodup
  apart : ∀ f ∈ unite, ∀ g ∈ unite, ∀ e ∈ edgesOf T f, ∀ e' ∈ edgesOf T g, ∀ a b, Joins T e a b → Joins T e' a b → e = e'

/-- One face is reached from the other through common edges of faces of the list. -/
inductive Chained (T : Topo) (unite : List El) (f : El) : El → Prop
  | refl : Chained T unite f f
  | step {g h e : El} : Chained T unite f g → g ∈ unite → h ∈ unite → e ∈ edgesOf T g → e ∈ edgesOf T h → Chained T unite f h

/-- The faces are one piece. -/
def Joined (T : Topo) (unite : List El) : Prop := ∀ f ∈ unite, ∀ g ∈ unite, Chained T unite f g

theorem Chained.trans {T : Topo} {unite : List El} {f g h : El} (a : Chained T unite f g) (b : Chained T unite g h) :
    Chained T unite f h := by
  induction b with
  | refl => exact a
  | step _ h1 h2 h3 h4 ih => exact ih.step h1 h2 h3 h4

theorem Chained.symm {T : Topo} {unite : List El} {f g : El} (a : Chained T unite f g) : Chained T unite g f := by
  induction a with
  | refl => exact .refl
  | step _ h1 h2 h3 h4 ih => exact (Chained.refl.step h2 h1 h4 h3).trans ih

end Verif.Split
