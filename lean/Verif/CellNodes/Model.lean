import Verif.EdgeLoop.Model

/-!
# Model of geometric types and of the order of nodes of a cell

Source: `Source/Mesh/mesh.cpp` (RestoreCellNodes L1437-1670, CreateCell L1805-1868), `Source/Mesh/geometry.cpp` (TestClosure
L863-892, ComputeGeometricType L894-1018), `Source/Mesh/element.cpp` (GetGeometricDimension L30-49, nbAdjElements with a
private mask L384-402), `Source/Mesh/cell.cpp` (getEdges L837-964 for cells of dimension two), `Source/Mesh/edge.cpp`
(getNodes L75-94), `Source/Mesh/face.cpp` (BackCell L8-31, FaceOrientedOutside L126-132).

The mesh is that of `Verif.Topology`; `gt` gives the stored geometric type of an element.  Types are the numbers of
inmost_mesh.h L293-305: 0 Unset, 1 Vertex, 2 Line, 3 MultiLine, 4 Tri, 5 Quad, 6 Polygon, 7 MultiPolygon, 8 Tet, 9 Hex,
10 Prism, 11 Pyramid, 12 Polyhedron.

Simplifications.
* As in `Verif.EdgeLoop` the branches with and without hide marker are one definition.
* Nodes marked by a private marker are a list; markers are released at the end, and that release of an invalid
  handle (mesh.cpp L1509, L1562) is undefined.
* `ElementArray::Unite` (earray.cpp L6-23) is its meaning of C15.

`none` is undefined behaviour or a failed assertion.
-/

namespace Verif.CellNodes
open Verif.Topology Verif.EdgeLoop

variable (T : Topo) (gt : El → Nat)

/-! ## Types -/

/-- GetGeometricDimension (element.cpp L30-49); `UINT_MAX` as an integer is -1. -/
def geomDim : Nat → Int
  | 1 => 0
  | 2 => 1
  | 3 | 4 | 5 | 6 => 2
  | 7 | 8 | 9 | 10 | 11 | 12 => 3
  | _ => -1

/-- TestClosure (geometry.cpp L863-892). -/
def testClosure (lc : List El) : Bool :=
  let es := (vis T lc).flatMap fun f => vis T (T.low f)
  es.all fun e => es.count e == 2

/-- The dimensions of the elements of the boundary (geometry.cpp L913-918, L942-947): `dmax`, `dmin`. -/
def dims (lc : List El) : Int × Int :=
  let ds := (vis T lc).map fun x => geomDim (gt x)
  (ds.foldl max (-1), ds.foldl min 4)

/-- No two of the first elements have two common elements in their boundaries (geometry.cpp L973-986); hidden elements
of boundaries count. -/
def shareOne : List El → Bool
  | [] => true
  | f :: fs => fs.all (fun g => decide (((T.low g).filter fun e => decide (e ∈ T.low f)).length ≤ 1)) && shareOne fs

/-- The type of a polygon with `s` sides (geometry.cpp L929-938, L954-963). -/
def polygonType (need : Bool) (lc : List El) (s : Nat) : Nat :=
  if !need || testClosure T lc then
    if s = 3 then 4 else if s = 4 then 5 else 6
  else 3

/-- The type of a solid with `s` faces (geometry.cpp L967-1012). -/
def solidType (need : Bool) (lc : List El) (s : Nat) : Nat :=
  if !need || testClosure T lc then
    if shareOne T (lc.take s) then
      let tris := ((vis T lc).filter fun x => gt x = 4).length
      let quads := ((vis T lc).filter fun x => gt x = 5).length
      if tris = 4 && s = 4 then 8
      else if quads = 6 && s = 6 then 9
      else if tris = 4 && quads = 1 && s = tris + quads then 11
      else if quads = 3 && tris = 2 && s = tris + quads then 10
      else 12
    else 12
  else 7

/-- ComputeGeometricType of an element of type `ty` with boundary `lc` (geometry.cpp L894-1018); `need` is
`GetTopologyCheck(NEED_TEST_CLOSURE)`. -/
def computeType (need : Bool) (ty : Nat) (lc : List El) : Nat :=
  let s := T.countVis lc
  if s = 0 && ty != 0 then 0 else
  match ty with
  | 0 => 1
  | 1 => if s = 1 then 1 else if s = 2 then 2 else 0
  | 2 => if (dims T gt lc).1 ≠ (dims T gt lc).2 then 3
         else if (dims T gt lc).1 = 0 then 2
         else polygonType T need lc s
  | 3 => if (dims T gt lc).1 ≠ (dims T gt lc).2 then 7
         else if (dims T gt lc).1 = 1 then polygonType T need lc s
         else solidType T gt need lc s
  | _ => 0

/-! ## Nodes -/

/-- FaceOrientedOutside (face.cpp L126-132): the first visible cell is `c`. -/
def outside (f c : El) : Bool := decide ((vis T (T.high f)).head? = some c)

/-- The elements of a list without repetitions, in the order of the first occurrences: a loop with a private marker
as in mesh.cpp L1625-1665. -/
def distinct (l : List El) : List El := l.foldl (fun acc x => if x ∈ acc then acc else acc ++ [x]) []

/-- `nbAdjElements(NODE,mask)` of a face (element.cpp L384-402): the nodes selected by `p`. -/
def nbNodes (p : El → Bool) (f : El) : Nat :=
  (distinct (((vis T (T.low f)).flatMap fun e => vis T (T.low e)).filter p)).length

/-- The nodes of a face that is seen from the cell: `getNodes`, reversed if the face is oriented outside (mesh.cpp L1475-1479, L1527-1531,
L1579-1583, L1609-1613). -/
def seen (f c : El) : Option (List El) :=
  match getNodes T f with
  | none => none
  | some l => some (if outside T f c then l.reverse else l)

/-- `ret.resize(k)` (mesh.cpp L1482, L1535): new entries are invalid handles. -/
def resize (k : Nat) (l : List El) : List (Option El) := (l.map some ++ List.replicate k none).take k

/-- The loop over the nodes of a side (mesh.cpp L1489-1506, L1542-1559) from position `q` on; `n` is the number of nodes of the base,
`base` the marked nodes, `r` the number of marked nodes met. -/
def sideLoop (n : Nat) (base verts : List El) : List Nat → Nat → List (Option El) → Option (List (Option El))
  | [], _, ret => some ret
  | q :: qs, r, ret => match verts[q]? with
    | none => none
    | some v =>
      if v ∈ base then
        let l := (ret.take n).idxOf (some v)
        if r < 2 ∧ l < n then
          match verts[(q + 1) % verts.length]?, verts[(q + verts.length - 1) % verts.length]? with
          | some nxt, some prv =>
            if nxt ∈ base then sideLoop n base verts qs (r + 1) (ret.set (l + n) (some prv))
            else if prv ∈ base then sideLoop n base verts qs (r + 1) (ret.set (l + n) (some nxt))
            else none
          | _, _ => none
        else none
      else sideLoop n base verts qs r ret

/-- The loop over the faces (mesh.cpp L1483-1508, L1536-1561). -/
def sides (n : Nat) (base : List El) : List El → List (Option El) → Option (List (Option El))
  | [], ret => some ret
  | f :: fs, ret =>
    if nbNodes T (fun x => decide (x ∈ base)) f = 2 then
      match getNodes T f with
      | none => none
      | some verts => match sideLoop n base verts (List.range verts.length) 0 ret with
        | none => none
        | some ret' => sides n base fs ret'
    else sides n base fs ret

/-- `ret.RemPrivateMarker(mrk)` (mesh.cpp L1509, L1562): all handles are valid. -/
def allValid : List (Option El) → Option (List El)
  | [] => some []
  | none :: _ => none
  | some x :: l => match allValid l with
    | none => none
    | some l' => some (x :: l')

/-- The faces of a cell (cell.cpp L1229-1248). -/
def facesOf (c : El) : List El := vis T (T.low c)

/-- A cell with the type of a hexahedron (mesh.cpp L1469-1512). -/
def restoreHex (c : El) : Option (List El) :=
  match facesOf T c with
  | [] => none
  | f :: fs => match seen T f c with
    | none => none
    | some base => match sides T 4 base fs (resize 8 base) with
      | none => none
      | some ret => allValid ret

/-- The nodes of the first face with `k` edges (mesh.cpp L1524-1533, L1576-1585). -/
def baseOf (k : Nat) (c : El) : Option (List El) :=
  match (facesOf T c).find? fun f => T.countVis (T.low f) = k with
  | none => some []
  | some f => seen T f c

/-- A cell with the type of a prism (mesh.cpp L1519-1565). -/
def restorePrism (c : El) : Option (List El) :=
  match baseOf T 3 c with
  | none => none
  | some base => match sides T 3 base (facesOf T c) (resize 6 base) with
    | none => none
    | some ret => allValid ret

/-- `ret.Unite(faces[i]->getNodes(mrk,true))` and the assertion on the size (mesh.cpp L1590-1591, L1616-1617). -/
def uniteRest (base : List El) (size : Nat) (f : El) : Option (List El) :=
  match getNodesMask T true (fun x => !decide (x ∈ base)) f with
  | none => none
  | some l => if (distinct (base ++ l)).length = size then some (distinct (base ++ l)) else none

/-- A cell with the type of a pyramid (mesh.cpp L1571-1597). -/
def restorePyramid (c : El) : Option (List El) :=
  match baseOf T 4 c with
  | none => none
  | some base => match (facesOf T c).find? fun f => nbNodes T (fun _ => true) f = 3 with
    | none => some base
    | some f => uniteRest T base 5 f

/-- A cell with the type of a tetrahedron (mesh.cpp L1603-1621). -/
def restoreTet (c : El) : Option (List El) :=
  match facesOf T c with
  | f :: g :: _ => match seen T f c with
    | none => none
    | some base => uniteRest T base 4 g
  | _ => none

/-- Nodes of edges that are points; `assert(nodes.size() == 1)` (mesh.cpp L1455-1460). -/
def pointsOf : List El → Option (List El)
  | [] => some []
  | e :: es => match vis T (T.low e), pointsOf es with
    | [x], some l => some (x :: l)
    | _, _ => none

/-- A cell of dimension two (mesh.cpp L1448-1462): `getEdges` (cell.cpp L845-876, L899-943) walks along the boundary like `getNodes`
with a mask that selects everything. -/
def restorePolygon (c : El) : Option (List El) :=
  match getNodesMask T true (fun _ => true) c with
  | none => none
  | some es => pointsOf T es

/-- All other types (mesh.cpp L1622-1668). -/
def restoreAny (c : El) : List El :=
  distinct ((facesOf T c).flatMap fun f => (vis T (T.low f)).flatMap fun e => vis T (T.low e))

/-- RestoreCellNodes (mesh.cpp L1437-1670). -/
def restoreCellNodes (c : El) : Option (List El) :=
  match gt c with
  | 1 | 2 => none
  | 3 | 4 | 5 | 6 => restorePolygon T c
  | 9 => restoreHex T c
  | 10 => restorePrism T c
  | 11 => restorePyramid T c
  | 8 => restoreTet T c
  | _ => some (restoreAny T c)

/-- CreateCell without suggested nodes (mesh.cpp L1805-1868): the type of the new cell is that of new data, Unset, while its nodes
are restored (L1839), and is computed later (L1859).  The restored nodes are those of the state in which the cell has its faces
(L1823-1832).  The result is the mesh, the cell (`none` without faces), and the types. -/
def createCell (need dup : Bool) (id : Nat) (elems : List El) : Option (Topo × Option El × (El → Nat)) :=
  match T.create dup 3 id elems [] with
  | none => none
  | some (T1, some c, true) => match restoreCellNodes T1 (set1 gt c 0) c with
    | none => none
    | some nodes => match T.create dup 3 id elems nodes with
      | none => none
      | some (T2, _) => some (T2, some c, set1 gt c (computeType T2 gt need 3 (T2.low c)))
  | some (T1, r, _) => some (T1, r, gt)

end Verif.CellNodes
