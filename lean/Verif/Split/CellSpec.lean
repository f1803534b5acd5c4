import Verif.Split.FaceSpec

/-!
# Specification vocabulary for splitting cells

`CellArgs T c faces` : what the caller of `SplitCell` has to provide: a cell without repeated faces and different faces.
-/

namespace Verif.Split
open Verif.Topology Verif.EdgeLoop

/-- The visible faces of a cell. -/
def facesOf (T : Topo) (c : El) : List El := (T.low c).filter fun y => !T.hid y

structure CellArgs (T : Topo) (c : El) (faces : List El) : Prop where
  cell : c.ty = 3
  face : ∀ g ∈ faces, g.ty = 2 ∧ T.hid g = false
  nodup : faces.Nodup
  once : (facesOf T c).Nodup

end Verif.Split
