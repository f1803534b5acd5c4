import Verif.Topology.UniteFaces
import Verif.Split.CellsModel

/-!
# Model of uniting faces

Source: `Source/Mesh/modify.cpp` (`Face::UniteFaces` L352-641, `Face::TestUniteFaces` L644-717).

The changes of connections are in `Verif/Topology/UniteFaces.lean`.  The list `visited T unite` (`CellsModel.lean`) is used for
the edges of faces here.  `SamePlane` (L367) only selects which geometric data are recomputed and is left out.
-/

namespace Verif.Split
open Verif.Topology

/-- The array `cells`, modify.cpp L370-381. -/
def unitedCells (T : Topo) (unite : List El) : List El := unite.foldl (fun acc f => T.collect acc (T.high f)) []

/-- The edges of the new face, L411-416: keys of the map `edge_visit` with the value 1. -/
def outerEdges (T : Topo) (unite : List El) : List El :=
  (keys (visited T unite)).filter fun e => (visited T unite).count e = 1

/-- The edges to be removed, L417-433: the value is 2. -/
def innerEdges (T : Topo) (unite : List El) : List El :=
  (keys (visited T unite)).filter fun e => (visited T unite).count e = 2

/-- The nodes to be removed, L441-455. -/
def innerCorners (T : Topo) (unite : List El) : List El := unused T (innerEdges T unite) (gather T (innerEdges T unite))

/-- The node at which the next edge is searched, L477-489. -/
def nextNode (T : Topo) (e : El) (prev : Option El) : Option El :=
  match (T.low e).filter fun x => !T.hid x with
  | [] => none
  | a :: rest => if some a ≠ prev then some a else rest.head?

/-- The outcome of the loop over the edges of a node. -/
inductive Found
  | closed
  | next (e : El)

/-- The loop over the edges of a node, L494-510: `marked` are the edges with the marker `edge_set`. -/
def searchEdge (T : Topo) (first : El) (q : Nat) (marked : List El) : List El → Option Found
  | [] => none
  | x :: xs =>
    if T.hid x then searchEdge T first q marked xs
    else if x = first ∧ q ≠ 1 then some .closed
    else if x ∈ marked then some (.next x)
    else searchEdge T first q marked xs

/-- The loop `while( !done )`, L475-513.  Each step takes away one marker, so that it ends; the first argument bounds the
number of steps.  The result are the edges that are appended. -/
def walk (T : Topo) (first : El) : Nat → (marked : List El) → (last : El) → (prev : Option El) → (q : Nat) → Option (List El)
  | 0, _, _, _, _ => none
  | fuel + 1, marked, last, prev, q =>
    match nextNode T last prev with
    | none => none
    | some n => match searchEdge T first q marked (T.high n) with
      | none => none
      | some .closed => some []
      | some (.next e) => match walk T first fuel (marked.erase e) e (some n) (q + 1) with
        | none => none
        | some es => some (e :: es)

/-- The edges of the new face in their order, L471-517. -/
def orderEdges (T : Topo) (unite : List El) : Option (List El) :=
  match outerEdges T unite with
  | [] => none
  | first :: rest => match walk T first (rest.length + 1) rest first none 1 with
    | none => none
    | some es => if es.length = rest.length then some (first :: es) else none

section
variable (flip : Topo → El → Bool)

/-- `Face::UniteFaces`, L352-641.  `prot`: the elements with the marker `del_protect`; `id` is the local number of the new
face.  The second component of the result is the new face, `none` for an invalid handle.  Failed assertions: more
than two cells (L383), an edge with more than two faces (L467), no loop (L511, L517), and those of `uniteFacesRun`. -/
def uniteFaces (T : Topo) (dup : Bool) (prot : El → Bool) (unite : List El) (id : Nat) : Option (Topo × Option El) :=
  if unite.any (fun f => !T.alive f) = true then none else
  if unite = [] then some (T, none) else
  if unite.any prot = true then some (T, none) else
  if 2 < (unitedCells T unite).length then none else
  if (keys (visited T unite)).any (fun e => decide (2 < (visited T unite).count e)) = true then none else
  if (innerEdges T unite ++ innerCorners T unite).any prot = true then some (T, none) else
  match orderEdges T unite with
  | none => none
  | some es =>
    match T.uniteFacesRun flip dup unite (unitedCells T unite) (innerEdges T unite) (innerCorners T unite) es id with
    | none => none
    | some (T', r) => some (T', some r)

end

/-- `Face::TestUniteFaces`, L644-717.  For an edge of two of the faces `SetMarker` is called with the private marker `rem`
(L680), and `SetMarker` asserts that a marker is not private (inmost_mesh.h L2014). -/
def testUniteFaces (T : Topo) (prot : El → Bool) (unite : List El) : Option Bool :=
  if unite = [] then some false else
  if unite.any (fun f => !T.alive f) = true then none else
  if unite.any prot = true then some false else
  if (keys (visited T unite)).any (fun e => decide ((visited T unite).count e ≠ 1)) = true then none else
  some true

end Verif.Split
