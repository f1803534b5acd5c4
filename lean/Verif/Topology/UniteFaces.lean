import Verif.Topology.SplitFace

/-!
# Model of uniting faces: the changes of connections

Source: `Source/Mesh/modify.cpp` (`Face::UniteFaces` L352-641, from L517 on).

The lists of cells, inner edges, inner nodes and the ordered boundary are arguments here; they are computed in
`Verif/Split/FacesModel.lean`.

Simplifications, in addition to those of `Topology/Model.lean`.
* Messages, `ComputeGeometricType` with the assertions on the type of the result, `RecomputeGeometricData` and
  `EndTopologyCheck` are left out.  The effect of `RecomputeGeometricData` on connections, `FixNormalOrientation`, is a
  separate operation of the model.
* `id` is the local number that `TieElement` returns for the new face, `dup` the topology check `DUPLICATE_FACE` of
  `CreateFace`.
-/

namespace Verif.Topology

section
variable (flip : Topo → El → Bool)

/-- Removal of one of the faces, modify.cpp L538-553. -/
def Topo.remFace (T : Topo) (f : El) : Option Topo :=
  if T.hide then T.hideEl flip f else
  match T.modHigh f fun _ => [] with
  | none => none
  | some T1 => T1.delete flip f

/-- Removal of an inner edge, modify.cpp L556-566: the assertion is that no visible face has the edge. -/
def Topo.remInner (T : Topo) (e : El) : Option Topo :=
  if (T.high e).any (fun u => !T.hid u) = true then none else
  if T.hide then T.hideEl flip e else T.delete flip e

/-- Removal of an inner node, modify.cpp L572-601: the assertion is that no visible edge has the node. -/
def Topo.remCorner (T : Topo) (n : El) : Option Topo :=
  if (T.high n).any (fun u => !T.hid u) = true then none else
  if T.hide then T.hideEl flip n else
  match (if T.cn then match T.lcOf n with
      | none => none
      | some lc => match forEach (fun T c => T.modHigh c (eraseAll n)) lc T with
        | none => none
        | some T1 => T1.modLow n fun _ => []
    else some T) with
  | none => none
  | some T1 => T1.destroy flip n

/-- The old faces, the inner edges and the inner nodes are removed, modify.cpp L517-602. -/
def Topo.remParts (T : Topo) (faces cells inner nodes : List El) : Option Topo :=
  match (if T.hide then some T
    else forEach (fun T c => T.modLow c (·.filter (· ∉ faces))) cells T) with
  | none => none
  | some T1 => match forEach (Topo.remFace flip) faces T1 with
    | none => none
    | some T2 => match forEach (Topo.remInner flip) inner T2 with
      | none => none
      | some T3 => forEach (Topo.remCorner flip) nodes T3

/-- One cell is connected with the new face, modify.cpp L613-618. -/
def Topo.tieCell (r : El) (T : Topo) (c : El) : Option Topo :=
  match T.modHigh r (· ++ [c]) with
  | none => none
  | some T1 => T1.modLow c (· ++ [r])

/-- `Face::UniteFaces` from L517 on.  The last test is the assertion of L625. -/
def Topo.uniteFacesRun (T : Topo) (dup : Bool) (faces cells inner nodes edges : List El) (id : Nat) :
    Option (Topo × El) :=
  match T.remParts flip faces cells inner nodes with
  | none => none
  | some T1 => match T1.create dup 2 id edges [] with
    | some (T2, some r, _) => match forEach (Topo.tieCell r) cells T2 with
      | none => none
      | some T3 =>
        if cells.any (fun c => decide (((T3.low c).filter fun y => !T3.hid y).length < 4)) = true then none else some (T3, r)
    | _ => none

end
end Verif.Topology
