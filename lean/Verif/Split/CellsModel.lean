import Verif.Topology.Split

/-!
# Model of uniting cells

Source: `Source/Mesh/modify.cpp` (`Cell::UniteCells` L111-273, `Cell::TestUniteCells` L276-349).

`T.hid x` is the test of the hide marker.  The private markers `visited` and `rem` are the lists they select.
Messages printed to the console are left out.
-/

namespace Verif.Split
open Verif.Topology

/-- All visible entries of the arrays of faces of the cells, modify.cpp L122-129: the map `face_visit` has these keys, and
the value of a key is the number of its occurrences. -/
def visited (T : Topo) (unite : List El) : List El := unite.flatMap fun c => (T.low c).filter fun f => !T.hid f

/-- The faces of the new cell, L139-140. -/
def outerFaces (T : Topo) (unite : List El) : List El :=
  (keys (visited T unite)).filter fun f => (visited T unite).count f = 1

/-- The array `inner_faces`, L141-156. -/
def innerFaces (T : Topo) (unite : List El) : List El :=
  (keys (visited T unite)).filter fun f => (visited T unite).count f ≠ 1

/-- The visible entries of the arrays of a list of elements, each once: the array `edges` (L146-153), and the array
`nodes` (L164-173). -/
def gather (T : Topo) (xs : List El) : List El := xs.foldl (fun acc x => T.collect acc (T.low x)) []

/-- The elements all whose visible upper elements are marked, L174-185 and L192-203. -/
def unused (T : Topo) (rem xs : List El) : List El :=
  xs.filter fun x => (T.high x).all fun u => T.hid u || decide (u ∈ rem)

/-- The edges to be removed. -/
def remEdges (T : Topo) (unite : List El) : List El :=
  unused T (innerFaces T unite) (gather T (innerFaces T unite))

/-- The nodes to be removed. -/
def remNodes (T : Topo) (unite : List El) : List El :=
  unused T (remEdges T unite) (gather T (gather T (innerFaces T unite)))

section
variable (flip : Topo → El → Bool)

/-- `if( HideMarker() ) Hide(x); else Delete(x);`, L219-222, L233-236, L247-250 and L264-267. -/
def remove (T : Topo) (x : El) : Option Topo := if T.hide then T.hideEl flip x else T.delete flip x

/-- Removal of a node, L257-268: the assertion is that no visible cell uses the node. -/
def removeNode (T : Topo) (n : El) : Option Topo :=
  if T.cn = true ∧ (T.low n).any (fun c => !T.hid c) = true then none else remove flip T n

/-- The removals, L214-269. -/
def removeAll (T : Topo) (cells faces edges nodes : List El) : Option Topo :=
  match forEach (remove flip) cells T with
  | none => none
  | some T1 => match forEach (remove flip) faces T1 with
    | none => none
    | some T2 => match forEach (remove flip) edges T2 with
      | none => none
      | some T3 => forEach (removeNode flip) nodes T3

/-- `Cell::UniteCells`, L111-273.  `prot`: the elements with the marker `del_protect`; `id` is the local number of the new
cell, and `nodes` are the nodes that `CreateCell` finds for it (`RestoreCellNodes`).  The second component of the
result is the new cell, `none` for an invalid handle. -/
def uniteCells (T : Topo) (dup : Bool) (prot : El → Bool) (unite : List El) (id : Nat) (nodes : List El) :
    Option (Topo × Option El) :=
  if unite.any (fun c => !T.alive c) = true then none else
  if unite = [] then some (T, none) else
  if unite.any prot = true then some (T, none) else
  if (innerFaces T unite ++ remEdges T unite ++ remNodes T unite).any prot = true then some (T, none) else
  match removeAll flip T unite (innerFaces T unite) (remEdges T unite) (remNodes T unite) with
  | none => none
  | some T4 => match T4.create dup 3 id (outerFaces T unite) nodes with
    | none => none
    | some (T5, c, _) => some (T5, c)

end

/-- The loop over the nodes of `TestUniteCells`, L331-342.  All edges have lost the marker `rem` in the loop before
(L311, `rem` is also used to visit edges), so a node passes the test `nonzero == 0` only if it has no visible edge; the
protection of `edges[i]`, the edge with the same index, is tested then.  An index out of range is undefined. -/
def testNodes (T : Topo) (prot : El → Bool) (edges : List El) : (i : Nat) → List El → Option Bool
  | _, [] => some true
  | i, n :: ns =>
    if (T.high n).all (fun u => T.hid u) = true then match edges[i]? with
      | none => none
      | some e => if prot e = true then (testNodes T prot edges (i + 1) ns).map fun _ => false
        else testNodes T prot edges (i + 1) ns
    else testNodes T prot edges (i + 1) ns

/-- `Cell::TestUniteCells`, L276-349.  The faces keep the marker `rem` during the loop over the edges. -/
def testUniteCells (T : Topo) (prot : El → Bool) (unite : List El) : Option Bool :=
  if unite = [] then some false else
  if unite.any (fun c => !T.alive c) = true then none else
  if unite.any prot = true then some false else
  match testNodes T prot (gather T (innerFaces T unite)) 0 (gather T (gather T (innerFaces T unite))) with
  | none => none
  | some ok => some (ok && !(innerFaces T unite).any prot && !(remEdges T unite).any prot)

end Verif.Split
