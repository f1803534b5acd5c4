import Verif.Topology.SplitFace
import Verif.EdgeLoop.Model
import Verif.Incident.Model

/-!
# Model of splitting faces and cells

Source: `Source/Mesh/modify.cpp` (`Face::SplitFace` L1423-1666, `Cell::SplitCell` L1673-1744).

Parts: the connections (`Verif/Topology/SplitFace.lean`), the loops (`Verif/Incident/Model.lean`), the nodes of a
face (`getNodes`, `Verif/EdgeLoop/Model.lean`).  `W` is the arithmetic of the measures of edges or faces.
The planarity test (L1439) only selects which geometric data are recomputed and is left out.
-/

namespace Verif.Split
open Verif.Topology Verif.EdgeLoop

/-- The nodes that are to be connected with the cells, modify.cpp L1448-1462: `marked` are the nodes with the
marker at the start. -/
def unmarked (T : Topo) (marked : List El) : (acc : List El) → List El → List El
  | acc, [] => acc
  | acc, n :: ns =>
    if T.hid n = true ∨ n ∈ marked ∨ n ∈ acc then unmarked T marked acc ns
    else unmarked T marked (acc ++ [n]) ns

/-- L1441-1466.  Both tags are defined if `cell_node_conn` is set. -/
def innerNodes (T : Topo) (f : El) (edges : List El) : Option (List El) :=
  if T.cn then match getNodes T f with
    | none => none
    | some fnodes => some (unmarked T fnodes [] (edges.flatMap T.low))
  else some []

/-- The given elements that are not in the boundary, L1497-1503 and L1690-1695. -/
def innerOf (T : Topo) (x : El) (given : List El) : List El :=
  given.filter fun e => decide (e ∉ (T.low x).filter fun y => !T.hid y)

section
variable {K : Type} (W : Incident.Meas El K) (flip : Topo → El → Bool)

/-- `Face::SplitFace`, modify.cpp L1423-1666.  `prot`: the face has the marker `del_protect`. -/
def splitFace (T : Topo) (dup prot : Bool) (f : El) (edges : List El) (ids : List Nat) :
    Option (Topo × List El) :=
  if T.alive f = false ∨ edges.any (fun e => !T.alive e) = true then none else
  if edges = [] ∨ prot = true then some (T, []) else
  match innerNodes T f edges with
  | none => none
  | some cnodes =>
    if innerOf T f edges = [] then some (T, [f]) else
    match Incident.loops W T.low (innerOf T f edges) ((T.low f).filter fun y => !T.hid y) with
    | none => none
    | some ls => T.splitFaceRun flip dup f cnodes ls ids

/-- The loop of `SplitCell` that creates the cells, modify.cpp L1716-1727.  `news` are the local numbers that
`TieElement` returns together with the nodes that `CreateCell` finds (`RestoreCellNodes`). -/
def makeCells (dup : Bool) : (loops : List (List El)) → (news : List (Nat × List El)) → Topo →
    Option (Topo × List El)
  | [], _, T => some (T, [])
  | l :: ls, news, T =>
    if l.length ≤ 3 then makeCells dup ls news T else
    match news with
    | [] => none
    | (id, nodes) :: news => match T.create dup 3 id l nodes with
      | some (T1, some c, _) => match makeCells dup ls news T1 with
        | none => none
        | some (T2, cs) => some (T2, c :: cs)
      | _ => none

/-- `Cell::SplitCell`, modify.cpp L1673-1744. -/
def splitCell (T : Topo) (dup prot : Bool) (c : El) (faces : List El) (news : List (Nat × List El)) :
    Option (Topo × List El) :=
  if T.alive c = false ∨ faces.any (fun e => !T.alive e) = true then none else
  if faces = [] ∨ prot = true then some (T, []) else
  if innerOf T c faces = [] then some (T, [c]) else
  match Incident.loops W T.low (innerOf T c faces) ((T.low c).filter fun y => !T.hid y) with
  | none => none
  | some ls => match T.delete flip c with
    | none => none
    | some T1 => makeCells dup ls news T1

end
end Verif.Split
