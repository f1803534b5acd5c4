import Verif.Split.CellsModel
import Verif.Split.CellSpec

/-!
# Specification vocabulary for uniting cells

`visits` : how many of the cells have a face.
`Vanish` : what has to disappear when cells are united: the cells, the faces between them, the edges that have only such faces,
  and the nodes that have only such edges.
`UniteArgs` : what the caller has to provide: different visible cells without repeated faces, and no face has more than two cells.
-/

namespace Verif.Split
open Verif.Topology Verif.EdgeLoop

/-- An element that exists and is not hidden. -/
def Visible (T : Topo) (x : El) : Prop := T.alive x = true ∧ T.hid x = false

/-- The number of the cells that have the face. -/
def visits (T : Topo) (unite : List El) (f : El) : Nat := unite.countP fun c => decide (f ∈ facesOf T c)

/-- A face between the cells. -/
def FaceVanish (T : Topo) (unite : List El) (f : El) : Prop := 2 ≤ visits T unite f

/-- An edge that is left without faces. -/
def EdgeVanish (T : Topo) (unite : List El) (e : El) : Prop :=
  (∃ f, FaceVanish T unite f ∧ e ∈ edgesOf T f) ∧ ∀ f ∈ T.high e, T.hid f = false → FaceVanish T unite f

/-- A node that is left without edges. -/
def NodeVanish (T : Topo) (unite : List El) (n : El) : Prop :=
  (∃ f e, FaceVanish T unite f ∧ e ∈ edgesOf T f ∧ n ∈ T.low e ∧ T.hid n = false) ∧
    ∀ e ∈ T.high n, T.hid e = false → EdgeVanish T unite e

def Vanish (T : Topo) (unite : List El) (x : El) : Prop :=
  x ∈ unite ∨ FaceVanish T unite x ∨ EdgeVanish T unite x ∨ NodeVanish T unite x

structure UniteArgs (T : Topo) (unite : List El) : Prop where
  cell : ∀ c ∈ unite, c.ty = 3 ∧ Visible T c
  nodup : unite.Nodup
  once : ∀ c ∈ unite, (facesOf T c).Nodup
  two : ∀ c ∈ unite, ∀ f ∈ facesOf T c, (T.cellsOf f).length ≤ 2

/-- The nodes stored for cells are nodes of the faces of the cells. -/
def NodesOfFaces (T : Topo) : Prop :=
  ∀ c n, c.ty = 3 → Visible T c → n ∈ T.high c → ∃ f ∈ facesOf T c, ∃ e ∈ edgesOf T f, n ∈ T.low e

end Verif.Split
