import Verif.Topology.Split

/-!
# Model of splitting a face: the changes of connections

Source: `Source/Mesh/modify.cpp` (`Face::SplitFace` L1423-1666, from L1557 on).

The selection of the loops is a separate model (`Verif/Incident/Model.lean`), and so are the
nodes to be connected; both are arguments here and are computed in `Verif/Split/FaceModel.lean`.

Simplifications, in addition to those of `Topology/Model.lean`.
* `RecomputeGeometricData`, `ComputeGeometricType` and `EndTopologyCheck` are left out.  The effect of the former on
  connections, `FixNormalOrientation`, is a separate operation of the model.
* `ids` are the local numbers that `TieElement` returns for new faces.
* `dup` is the topology check `DUPLICATE_FACE` of `CreateFace`.
* The loops are computed before the first face is created: the search reads an own copy of the connections.
-/

namespace Verif.Topology

/-- Elements are appended unless present, modify.cpp L1606-1616 and L1645-1649. -/
def addNew : List El → List El → List El
  | [], l => l
  | c :: cs, l => addNew cs (if c ∈ l then l else l ++ [c])

/-- The loop that creates faces, modify.cpp L1581-1621. -/
def Topo.makeFaces (dup : Bool) (cells : List El) : (loops : List (List El)) → (ids : List Nat) → Topo →
    Option (Topo × List El)
  | [], _, T => some (T, [])
  | l :: ls, ids, T =>
    if l.length ≤ 2 then makeFaces dup cells ls ids T else
    match ids with
    | [] => none
    | id :: ids => match T.create dup 2 id l [] with
      | some (T1, some r, new) =>
        match T1.modHigh r (if new then fun _ => cells else addNew cells) with
        | none => none
        | some T2 => match makeFaces dup cells ls ids T2 with
          | none => none
          | some (T3, rs) => some (T3, r :: rs)
      | _ => none

/-- New faces and nodes of one cell, modify.cpp L1625-1652. -/
def Topo.cellLinks (ret cnodes : List El) (T : Topo) (c : El) : Option Topo :=
  match T.modLow c (· ++ ret) with
  | none => none
  | some T1 =>
    if T.cn then match T1.modHigh c (· ++ cnodes) with
      | none => none
      | some T2 => forEach (fun T n => T.modLow n (addNew [c])) cnodes T2
    else some T1

section
variable (flip : Topo → El → Bool)

/-- `if( !face->Hide() ) { ... }`, modify.cpp L1557-1573; `cells` are the cells of the face that are not hidden.
`erase` takes away the first occurrence. -/
def Topo.dropFace (T : Topo) (f : El) (cells : List El) : Option Topo :=
  if T.hide then T.hideEl flip f else
  match forEach (fun T c => T.modLow c (·.erase f)) cells T with
  | none => none
  | some T1 => match T1.modHigh f fun _ => [] with
    | none => none
    | some T2 => T2.destroy flip f

/-- The cells of the face that are not hidden, modify.cpp L1470-1477. -/
def Topo.cellsOf (T : Topo) (f : El) : List El := (T.high f).filter fun x => !T.hid x

/-- `Face::SplitFace` from L1557 on, for the given loops of edges and nodes `cnodes`. -/
def Topo.splitFaceRun (T : Topo) (dup : Bool) (f : El) (cnodes : List El) (loops : List (List El))
    (ids : List Nat) : Option (Topo × List El) :=
  match T.dropFace flip f (T.cellsOf f) with
  | none => none
  | some T1 => match Topo.makeFaces dup (T.cellsOf f) loops ids T1 with
    | none => none
    | some (T2, ret) => match forEach (Topo.cellLinks ret cnodes) (T.cellsOf f) T2 with
      | none => none
      | some T3 => some (T3, ret)

end
end Verif.Topology
