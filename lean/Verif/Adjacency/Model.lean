import Verif.EdgeLoop.Model

/-!
# Model of removing and restoring connections

Models `/repo/Source/Mesh/mesh.cpp`: `HaveUpperAdjacencies` L1672-1683, `HaveLowerAdjacencies` L1685-1696,
`RemoveUpperAdjacencies` L1699-1720, `RemoveLowerAdjacencies` L1723-1744, `RestoreUpperAdjacencies` L1746-1773,
`RestoreLowerAdjacencies` L1775-1803.

Simplifications.  A mask is a function on type numbers (0 node, 1 edge, 2 face, 3 cell); messages are left out.  The
tags of connections are the functions `low`, `high` of the model of connections; `up`, `lo` say on which types of elements
the tags are defined, and the arrays of other types are empty.  Whether the orientation of faces is
maintained is `orient`, and whether the normal of a face is wrong is an arbitrary function `flip`, as in the model of
connections; computing it reads the lower connections of cells, faces and edges.  Cells have dimension three, for which
`Cell::FixEdgeOrder` does nothing (cell.cpp L94).
-/

namespace Verif.Adjacency
open Verif.Topology Verif.EdgeLoop

/-- Connections of a mesh and the types on which they are kept. -/
structure Adj where
  T : Topo
  up : Nat → Bool
  lo : Nat → Bool

/-- All connections of a mesh are kept, mesh.cpp L207-208. -/
def Adj.full (T : Topo) : Adj := ⟨T, fun t => decide (t < 3) || T.cn, fun t => decide (0 < t) || T.cn⟩

/-- Some of the four types. -/
def anyTy (p : Nat → Bool) : Bool := p 0 || p 1 || p 2 || p 3

/-- All of the four types. -/
def allTy (p : Nat → Bool) : Bool := p 0 && p 1 && p 2 && p 3

/-- `RemoveUpperAdjacencies(mask)`. -/
def Adj.removeUpper (A : Adj) (m : Nat → Bool) : Option Adj :=
  if anyTy fun t => A.up t && m t then
    if allTy fun t => !m t || (decide (t < 3) && A.lo (t + 1)) then
      some { A with
        T := { A.T with high := fun x => if x.ty < 3 ∧ m x.ty = true then [] else A.T.high x }
        up := fun t => A.up t && !(decide (t < 3) && m t) }
    else none
  else some A

/-- `RemoveLowerAdjacencies(mask)`. -/
def Adj.removeLower (A : Adj) (m : Nat → Bool) : Option Adj :=
  if anyTy fun t => A.lo t && m t then
    if allTy fun t => !m t || (decide (0 < t) && A.up (t - 1)) then
      some { A with
        T := { A.T with low := fun x => if (0 < x.ty ∧ x.ty ≤ 3) ∧ m x.ty = true then [] else A.T.low x }
        lo := fun t => A.lo t && !(decide (0 < t ∧ t ≤ 3) && m t) }
    else none
  else some A

/-- A loop. -/
def each {α : Type} (f : Adj → α → Option Adj) : List α → Adj → Option Adj
  | [], A => some A
  | x :: xs, A => match f A x with
    | none => none
    | some A' => each f xs A'

/-- `HighConn(x).push_back(me)`. -/
def Adj.pushHigh (me : El) (A : Adj) (x : El) : Option Adj :=
  if A.T.alive x = true ∧ A.up x.ty = true then
    some { A with T := { A.T with high := set1 A.T.high x (A.T.high x ++ [me]) } }
  else none

/-- `LowConn(x).push_back(me)`. -/
def Adj.pushLow (me : El) (A : Adj) (x : El) : Option Adj :=
  if A.T.alive x = true ∧ A.lo x.ty = true then
    some { A with T := { A.T with low := set1 A.T.low x (A.T.low x ++ [me]) } }
  else none

/-- The body of the loops, L1762-1768. -/
def Adj.linkUp (ty : Nat) (A : Adj) (id : Nat) : Option Adj :=
  if A.T.alive ⟨ty, id⟩ then
    if A.lo ty then each (Adj.pushHigh ⟨ty, id⟩) (A.T.low ⟨ty, id⟩) A else none
  else some A

/-- The body of the loops, L1789-1795. -/
def Adj.linkLow (ty : Nat) (A : Adj) (id : Nat) : Option Adj :=
  if A.T.alive ⟨ty, id⟩ then
    if A.up ty then each (Adj.pushLow ⟨ty, id⟩) (A.T.high ⟨ty, id⟩) A else none
  else some A

/-- One type in the loop, L1761-1768; `had` is `HaveUpperAdjacencies()` before. -/
def Adj.upType (m had : Nat → Bool) (A : Adj) (ty : Nat) : Option Adj :=
  if m (ty - 1) && !had (ty - 1) then each (Adj.linkUp ty) (List.range (A.T.last ty)) A else some A

/-- One type in the loop, L1788-1795. -/
def Adj.lowType (m had : Nat → Bool) (A : Adj) (ty : Nat) : Option Adj :=
  if m (ty + 1) && !had (ty + 1) then each (Adj.linkLow ty) (List.range (A.T.last ty)) A else some A

/-- `FaceByLocalID(it).FixNormalOrientation(true)`, L1770-1771. -/
def Adj.orientFace (flip : Topo → El → Bool) (A : Adj) (id : Nat) : Option Adj :=
  if A.T.alive ⟨2, id⟩ then
    if A.lo 1 && A.lo 2 && A.lo 3 && A.up 2 then (A.T.fixNormal flip ⟨2, id⟩).map fun T => { A with T := T } else none
  else some A

/-- `FaceByLocalID(it).FixEdgeOrder()`, L1797-1798: returns at once if there are less than three edges, else reads
the nodes of edges. -/
def Adj.fixFace (A : Adj) (id : Nat) : Option Adj :=
  if A.T.alive ⟨2, id⟩ then
    if A.lo 2 then
      if A.T.countVis (A.T.low ⟨2, id⟩) < 3 then some A
      else if A.lo 1 then (fixEdgeOrder A.T ⟨2, id⟩).map fun p => { A with T := p.2 } else none
    else none
  else some A

/-- `RestoreUpperAdjacencies(mask)`. -/
def Adj.restoreUpper (orient : Bool) (flip : Topo → El → Bool) (A : Adj) (m : Nat → Bool) : Option Adj :=
  if allTy fun t => !m t || A.up t then some A
  else match each (Adj.upType m A.up) [3, 2, 1] { A with up := fun t => A.up t || (decide (t < 3) && m t) } with
    | none => none
    | some A1 =>
      if m 2 && !A.up 2 && orient then each (Adj.orientFace flip) (List.range (A1.T.last 2)) A1
      else some A1

/-- `RestoreLowerAdjacencies(mask)`. -/
def Adj.restoreLower (A : Adj) (m : Nat → Bool) : Option Adj :=
  if allTy fun t => !m t || A.lo t then some A
  else match each (Adj.lowType m A.lo) [0, 1, 2] { A with lo := fun t => A.lo t || (decide (0 < t) && m t) } with
    | none => none
    | some A1 =>
      if m 2 && !A.lo 2 then each Adj.fixFace (List.range (A1.T.last 2)) A1
      else some A1

end Verif.Adjacency
