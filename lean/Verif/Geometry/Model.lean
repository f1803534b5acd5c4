import Verif.EdgeLoop.Model
import Verif.Search.Model

/-!
# Model of geometric data of faces and cells

Models `Mesh::GetGeometricData` for faces and cells of a mesh of dimension 3,
`/repo/Source/Mesh/geometry.cpp` L1622-2057 (`MEASURE` of faces L1662-1704 and of cells L1705-1784,
`CENTROID` L1797-1808, `BARYCENTER` of faces L1837-1889 and of cells L1890-1997, `NORMAL` of faces
L2010-2028), `Face::UnitNormal` L825-836, `Mesh::CheckConvexity` L1417-1451,
`Mesh::FacesOrientation` L1453-1620, `Face::CheckNormalOrientation` L2158-2336 and
`Face::FixNormalOrientation` L2338-2362.

Numbers are elements of an ordered field, rounding is not modelled; `sqrt` is a parameter.  Data stored
by `PrepareGeometricData` is not modelled: every quantity is computed.  Private markers that the functions
create, set, test and release are values of the functions here (justified by C02-C04).  `none` is undefined
behaviour or a failed assertion.
-/

namespace Verif.Geometry
open Verif.Topology Verif.EdgeLoop Verif.Search

variable {K : Type} [Field K] [LinearOrder K] [IsStrictOrderedRing K]

/-- What the functions ask of the mesh: the connections, `Coords()` of nodes, `GetEpsilon()`, `sqrt`. -/
structure Geo (K : Type) where
  T : Topo
  coord : El → V K
  eps : K
  sq : K → K

/-- `x[q] = 0`. -/
def zero : V K := ⟨0, 0, 0⟩

/-- `nt[q] * 0.5` for the triangle `v0`, `v1`, `v2`, e.g. geometry.cpp L1675-1679. -/
def triNormal (v0 v1 v2 : V K) : V K := smul (1 / 2) (cross (sub v1 v0) (sub v2 v0))

/-- The pairs `nodes[i]`, `nodes[i+1]` for `1 ≤ i < nodes.size()-1`, where the list starts at position 1. -/
def steps : List (V K) → List (V K × V K)
  | v1 :: v2 :: vs => (v1, v2) :: steps (v2 :: vs)
  | _ => []

/-- The loop that computes `n0`, e.g. geometry.cpp L1671-1680. -/
def normalLoop (v0 : V K) : List (V K × V K) → V K → V K
  | [], n => n
  | (v1, v2) :: ts, n => normalLoop v0 ts (add n (triNormal v0 v1 v2))

/-- `ElementArray<Node> nodes = getNodes()` and `Coords()` of them. -/
def facePoints (G : Geo K) (f : El) : Option (List (V K)) := (getNodes G.T f).map (·.map G.coord)

/-- `NORMAL` of a face, geometry.cpp L2010-2028; `nodes[0]` must exist. -/
def normalOf : List (V K) → Option (V K)
  | [] => none
  | v0 :: vs => some (normalLoop v0 (steps vs) zero)

/-- `Face::Normal`. -/
def faceNormal (G : Geo K) (f : El) : Option (V K) := (facePoints G f).bind normalOf

/-- `MEASURE` of a face, geometry.cpp L1662-1704. -/
def faceArea (G : Geo K) (f : El) : Option K :=
  match facePoints G f with
  | none => none
  | some ps =>
    if ps.length > 2 then (normalOf ps).map fun n => |G.sq (dot n n)| else some 0

/-- `Face::UnitNormal`, geometry.cpp L825-836. -/
def unitNormal (G : Geo K) (f : El) : Option (V K) :=
  match faceNormal G f with
  | none => none
  | some n =>
    let l := G.sq (dot n n)
    if |l| > G.eps then some ⟨n.x / l, n.y / l, n.z / l⟩ else some n

/-- The sum of points. -/
def sumPoints : List (V K) → V K
  | [] => zero
  | p :: ps => add p (sumPoints ps)

/-- The mean of points, e.g. geometry.cpp L1799-1807; `none`: division by zero. -/
def mean (ps : List (V K)) : Option (V K) :=
  if ps = [] then none else
  let s := sumPoints ps
  some ⟨s.x / ps.length, s.y / ps.length, s.z / ps.length⟩

/-- `CENTROID` of a face, geometry.cpp L1797-1808. -/
def faceCentroid (G : Geo K) (f : El) : Option (V K) := (facePoints G f).bind mean

/-- `CENTROID` of a cell: `Cell::getNodes` returns the visible ones of the nodes stored with the cell
(`cell_node_conn`, mesh.cpp L46). -/
def cellCentroid (G : Geo K) (c : El) : Option (V K) := mean ((vis G.T (G.T.high c)).map G.coord)

/-- `ss = vec_dot_product(n0,nt,3); if( ss ) ss /= fabs(ss);`, e.g. geometry.cpp L1757-1759. -/
def sgn (s : K) : K := if s = 0 then 0 else s / |s|

/-- `at`, e.g. geometry.cpp L1757-1760. -/
def signedArea (sq : K → K) (n0 nt : V K) : K := sq (dot nt nt) * sgn (dot n0 nt)

/-- `x[q] += at*(v0[q]+v1[q]+v2[q])/3.0`, geometry.cpp L1762-1763. -/
def addThird (x : V K) (w : K) (v0 v1 v2 : V K) : V K :=
  ⟨x.x + w * (v0.x + v1.x + v2.x) / 3, x.y + w * (v0.y + v1.y + v2.y) / 3,
   x.z + w * (v0.z + v1.z + v2.z) / 3⟩

/-- The loop that computes `x` and `a`, geometry.cpp L1748-1765. -/
def centreLoop (sq : K → K) (n0 v0 : V K) : List (V K × V K) → V K × K → V K × K
  | [], st => st
  | (v1, v2) :: ts, (x, a) =>
    let w := signedArea sq n0 (triNormal v0 v1 v2)
    centreLoop sq n0 v0 ts (addThird x w v0 v1 v2, a + w)

/-- `volp` of one face, geometry.cpp L1734-1772; `cen` is the centroid of the cell. -/
def facePart (sq : K → K) (cen : V K) : List (V K) → Option K
  | [] => none
  | v0 :: vs =>
    let n0 := normalLoop v0 (steps vs) zero
    let (x, a) := centreLoop sq n0 v0 (steps vs) (zero, 0)
    some (dot (if a = 0 then cen else ⟨x.x / a, x.y / a, x.z / a⟩) n0 / 3)

/-! ## Orientation of the faces of a cell -/

/-- `getBeg()`, `getEnd()` of an edge, `/repo/Source/Mesh/edge.cpp` L25-73; a handle that is not valid is
`none`.  With a hide marker and only hidden nodes the source reads after the end. -/
def begEnd (T : Topo) (e : El) : Option (Option El × Option El) :=
  match T.low e, vis T (T.low e) with
  | [], _ => some (none, none)
  | _ :: _, [] => none
  | _ :: _, [a] => some (some a, none)
  | _ :: _, a :: b :: l => some (some a, if T.hide then some b else (b :: l).getLast?)

/-- "figure out starting node order", geometry.cpp L1508-1524 and L1568-1585; positions 0 and 1 must
exist. -/
def startNodes (T : Topo) : List El → Option (Option El × Option El)
  | e0 :: e1 :: _ => match begEnd T e0, begEnd T e1 with
    | some (e0b, e0e), some (e1b, e1e) =>
      if e0b = e1b ∨ e0b = e1e then some (e0e, e0b) else some (e0b, e0e)
    | _, _ => none
  | _ => none

/-- "update edge nodes", geometry.cpp L1549-1558: the new `n2`. -/
def nextEnd (n2 : Option El) (be : Option El × Option El) : Option El := if n2 = be.1 then be.2 else be.1

/-- The walk over the edges of a face, geometry.cpp L1526-1559: the edge and the values of `n1`, `n2` in
each pass; `e0` is the first edge, it follows the last one. -/
def walk (T : Topo) (e0 : El) : List El → Option El → Option El → Option (List (El × Option El × Option El))
  | [], _, _ => some []
  | e :: es, n1, n2 =>
    match begEnd T (es.headD e0) with
    | none => none
    | some be => match walk T e0 es n2 (nextEnd n2 be) with
      | none => none
      | some r => some ((e, n1, n2) :: r)

/-- The walk around a face. -/
def walkFace (T : Topo) (f : El) : Option (List (El × Option El × Option El)) :=
  match T.low f with
  | [] => none
  | e0 :: es => match startNodes T (e0 :: es) with
    | none => none
    | some (n1, n2) => walk T e0 (e0 :: es) n1 n2

/-- An entry `orient_face`, geometry.cpp L14-23. -/
structure Entry where
  bridge : El
  first : Option El
  face : El

/-- `mrk` and `stack`. -/
structure Sched where
  mrk : List El
  queue : List Entry

/-- The loop over the faces of an edge, geometry.cpp L1533-1540; `e` and `first` are those of the entries. -/
def pushAdj (e : El) (first : Option El) : List El → Sched → Sched
  | [], s => s
  | g :: gs, s =>
    if g ∈ s.mrk then pushAdj e first gs ⟨s.mrk.filter (· ≠ g), s.queue ++ [⟨e, first, g⟩]⟩
    else pushAdj e first gs s

/-- "schedule unvisited adjacent faces", geometry.cpp L1526-1559. -/
def schedule (T : Topo) (reverse : Bool) : List (El × Option El × Option El) → Sched → Sched
  | [], s => s
  | (e, n1, n2) :: w, s =>
    schedule T reverse w (pushAdj e (if reverse then n2 else n1) (T.high e) s)

/-- "find out common edge orientation", geometry.cpp L1587-1613: the result is `reverse`. -/
def sameWay (r : Entry) : List (El × Option El × Option El) → Bool
  | [] => false
  | (e, n1, _) :: w => if e = r.bridge then decide (r.first = n1) else sameWay r w

/-- The loop, geometry.cpp L1506-1614.  Each pass takes an entry, each face has at most one entry:
the number of passes `n` is bounded by the number of faces. -/
def orientLoop (T : Topo) : Nat → El → Bool → Sched → List El → Option (List El)
  | 0, _, _, _, _ => none
  | n + 1, cur, reverse, s, rev => match walkFace T cur with
    | none => none
    | some w => match schedule T reverse w s with
      | ⟨_, []⟩ => some rev
      | ⟨mrk, r :: queue⟩ => match walkFace T r.face with
        | none => none
        | some w' =>
          if sameWay r w' then orientLoop T n r.face true ⟨mrk, queue⟩ (r.face :: rev)
          else orientLoop T n r.face false ⟨mrk, queue⟩ rev

/-- The orientation that starts at face `cur`, geometry.cpp L1488-1618 and L2191-2313: the faces that are
to be reversed. -/
def orientFrom (T : Topo) (cur : El) (faces : List El) : Option (List El) :=
  orientLoop T (faces.length + 1) cur false ⟨faces.filter (· ≠ cur), []⟩ []

/-- All values of a function, or none. -/
def allSome {α β : Type} (f : α → Option β) : List α → Option (List β)
  | [] => some []
  | a :: l => match f a, allSome f l with
    | some b, some r => some (b :: r)
    | _, _ => none

/-- `dots` and `dota`, geometry.cpp L1438-1445. -/
def dotSums (nj xj : V K) : List (V K) → K × K → K × K
  | [], s => s
  | x :: xs, (dots, dota) =>
    let dotv := dot nj (sub x xj)
    dotSums nj xj xs (dots + dotv, dota + |dotv|)

/-- The comparison, geometry.cpp L1436-1448. -/
def convexLoop (eps : K) (xs : List (V K)) : List (V K × V K) → Bool
  | [] => true
  | (xj, nj) :: l =>
    let s := dotSums nj xj xs (0, 0)
    if |(|s.1| - s.2)| > eps then false else convexLoop eps xs l

/-- Centroid and unit normal of a face. -/
def centreNormal (G : Geo K) (f : El) : Option (V K × V K) :=
  match faceCentroid G f, unitNormal G f with
  | some x, some n => some (x, n)
  | _, _ => none

/-- `Mesh::CheckConvexity`, geometry.cpp L1417-1451. -/
def checkConvexity (G : Geo K) (faces : List El) : Option Bool :=
  (allSome (centreNormal G) faces).map fun l => convexLoop G.eps (l.map (·.1)) l

/-- The simple algorithm, geometry.cpp L1460-1487. -/
def orientConvex (G : Geo K) (faces : List El) : Option (List El) :=
  match allSome (centreNormal G) faces with
  | none => none
  | some l => match mean (l.map (·.1)) with
    | none => none
    | some xc =>
      some ((faces.zip l).filterMap fun p =>
        if dot p.2.2 (sub p.2.1 xc) < 0 then some p.1 else none)

/-- `Mesh::FacesOrientation`, geometry.cpp L1453-1620: the faces that get the marker `rev`. -/
def facesOrientation (G : Geo K) : List El → Option (List El)
  | [] => some []
  | f :: fs => match checkConvexity G (f :: fs) with
    | none => none
    | some true => orientConvex G (f :: fs)
    | some false => orientFrom G.T f (f :: fs)

/-- `s`, geometry.cpp L1731. -/
def sign (rev : List El) (f : El) : K := if f ∈ rev then -1 else 1

/-- The loop over the faces, geometry.cpp L1726-1774. -/
def volumeLoop (G : Geo K) (cen : V K) (rev : List El) : List El → K → Option K
  | [], v => some v
  | f :: fs, v => match (facePoints G f).bind (facePart G.sq cen) with
    | none => none
    | some p => volumeLoop G cen rev fs (v + sign rev f * p)

/-- `MEASURE` of a cell of dimension 3, geometry.cpp L1705-1784.  (The centroid is only computed
when it is needed, it exists if the cell has nodes.) -/
def cellVolume (G : Geo K) (c : El) : Option K :=
  let faces := vis G.T (G.T.low c)
  match facesOrientation G faces, cellCentroid G c with
  | some rev, some cen => match volumeLoop G cen rev faces 0 with
    | none => none
    | some v =>
      let v := if v < 0 then -v else v
      if v > 0 then some v else none
  | _, _ => none

/-! ## Barycenters -/

/-- `c[q] += at * ((v0[q] - xf[q]) + (v1[q] - xf[q]) + (v2[q] - xf[q])) / 3.0`, geometry.cpp L1883-1885 and
L1968. -/
def addThirdAt (xf x : V K) (w : K) (v0 v1 v2 : V K) : V K :=
  addThird x w (sub v0 xf) (sub v1 xf) (sub v2 xf)

/-- The loop that computes `c` and `a` of a face, geometry.cpp L1866-1881. -/
def centreLoopAt (sq : K → K) (xf n0 v0 : V K) : List (V K × V K) → V K × K → V K × K
  | [], st => st
  | (v1, v2) :: ts, (x, a) =>
    let w := signedArea sq n0 (triNormal v0 v1 v2)
    centreLoopAt sq xf n0 v0 ts (addThirdAt xf x w v0 v1 v2, a + w)

/-- The barycenter of a polygon, geometry.cpp L1845-1887 and L1927-1969 (`x`). -/
def pointsCentre (sq : K → K) : List (V K) → Option (V K)
  | [] => none
  | v0 :: vs => match mean (v0 :: vs) with
    | none => none
    | some xf =>
      let n0 := normalLoop v0 (steps vs) zero
      let (c, a) := centreLoopAt sq xf n0 v0 (steps vs) (zero, 0)
      some (if a = 0 then xf else ⟨c.x / a + xf.x, c.y / a + xf.y, c.z / a + xf.z⟩)

/-- `BARYCENTER` of a face, geometry.cpp L1837-1889; a face with less than three nodes gets zeros. -/
def faceBarycenter (G : Geo K) (f : El) : Option (V K) :=
  match facePoints G f with
  | none => none
  | some ps => if ps.length > 2 then pointsCentre G.sq ps else some zero

/-- `pow(a+b,2) + pow(a+c,2) + pow(b+c,2)`. -/
def pairSquares (a b c : K) : K := (a + b) ^ 2 + (a + c) ^ 2 + (b + c) ^ 2

/-- `nt[q] * (pow(..,2) + pow(..,2) + pow(..,2)) / 24.0`, geometry.cpp L1961. -/
def moment (xc v0 v1 v2 : V K) : V K :=
  let nt := triNormal v0 v1 v2
  let a := sub v0 xc
  let b := sub v1 xc
  let c := sub v2 xc
  ⟨nt.x * pairSquares a.x b.x c.x / 24, nt.y * pairSquares a.y b.y c.y / 24,
   nt.z * pairSquares a.z b.z c.z / 24⟩

/-- `c[q] += s * ...` over the triangles of a face, geometry.cpp L1944-1964. -/
def momentLoop (xc v0 : V K) (s : K) : List (V K × V K) → V K → V K
  | [], c => c
  | (v1, v2) :: ts, c => momentLoop xc v0 s ts (add c (smul s (moment xc v0 v1 v2)))

/-- The loop over the faces, geometry.cpp L1915-1976: `vol` and `c`. -/
def baryLoop (G : Geo K) (xc : V K) (rev : List El) : List El → K × V K → Option (K × V K)
  | [], st => some st
  | f :: fs, (vol, c) => match facePoints G f with
    | none => none
    | some ps => match ps, pointsCentre G.sq ps with
      | v0 :: vs, some x =>
        let n0 := normalLoop v0 (steps vs) zero
        baryLoop G xc rev fs (vol + sign rev f * dot x n0 / 3,
          momentLoop xc v0 (sign rev f) (steps vs) c)
      | _, _ => none

/-- `BARYCENTER` of a cell of dimension 3, geometry.cpp L1890-1997. -/
def cellBarycenter (G : Geo K) (c : El) : Option (V K) :=
  let faces := vis G.T (G.T.low c)
  match facesOrientation G faces, cellCentroid G c with
  | some rev, some xc => match baryLoop G xc rev faces (0, zero) with
    | none => none
    | some (vol, m) =>
      let (vol, m) := if vol < 0 then (-vol, (⟨-m.x, -m.y, -m.z⟩ : V K)) else (vol, m)
      some (if vol = 0 then xc else ⟨m.x / vol + xc.x, m.y / vol + xc.y, m.z / vol + xc.z⟩)
  | _, _ => none

/-! ## Direction of the normal of a face -/

/-- `BackCell`, `/repo/Source/Mesh/face.cpp` L8-31: the first visible cell. -/
def backCell (T : Topo) (f : El) : Option El := (vis T (T.high f)).head?

/-- `measure`, geometry.cpp L2314-2323. -/
def measureLoop (G : Geo K) (rev : List El) : List El → K → Option K
  | [], m => some m
  | f :: fs, m => match faceBarycenter G f, faceNormal G f with
    | some x, some n => measureLoop G rev fs (m + sign rev f * dot x n)
    | _, _ => none

/-- `Face::CheckNormalOrientation`, geometry.cpp L2158-2336.  In the second branch the faces
are all those stored with the cell, L2184. -/
def checkNormal (G : Geo K) (f : El) : Option Bool :=
  match backCell G.T f with
  | none => some true
  | some c => match checkConvexity G (vis G.T (G.T.low c)) with
    | none => none
    | some true => match cellCentroid G c, faceCentroid G f, unitNormal G f with
      | some xc, some xf, some nf => some (if dot nf (sub xf xc) < 0 then false else true)
      | _, _, _ => none
    | some false => match orientFrom G.T f (G.T.low c) with
      | none => none
      | some rev => match measureLoop G rev (G.T.low c) 0 with
        | none => none
        | some m => some (if m < 0 then false else true)

/-- `Face::FixNormalOrientation(allow_swap)`, geometry.cpp L2338-2362: the mesh and the returned value.  The
change is modelled in `Topology.Model`: `SwapCells` if there is a front cell and `allow_swap`, otherwise
`ReorderEdges`. -/
def fixNormalOrientation (G : Geo K) (swap : Bool) (f : El) : Option (Geo K × Bool) :=
  match checkNormal G f with
  | none => none
  | some true => some (G, false)
  | some false =>
    match (if swap then G.T.fixNormal (fun _ _ => true) f else G.T.fixNoSwap (fun _ _ => true) f) with
    | none => none
    | some T => some ({ G with T := T }, true)

end Verif.Geometry
