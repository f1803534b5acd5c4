import Verif.Search.Model

/-!
# Model of the test whether a point is inside of a cell

Models `Cell::Inside`, `/repo/Source/Mesh/geometry.cpp` L344-577.  For a cell of dimension 3 the test
counts the faces that see the point on their inner side and on their outer side.  The orientation of
the faces, L367-489 when it was not computed before and `FaceOrientedOutside` otherwise, is part of
the input: `out` tells whether the nodes of the face turn around the outward normal.
-/

namespace Verif.Search

variable {K : Type} [Field K] [LinearOrder K] [IsStrictOrderedRing K]

/-- `det3d`, geometry.cpp L73-78. -/
def det3d (a b c d e f g h i : K) : K := a*e*i - c*e*g + b*f*g - a*f*h + c*d*h - b*d*i

/-- `det4v`, geometry.cpp L85-88. -/
def det4v (w x y z : V K) : K :=
  det3d (x.x - w.x) (x.y - w.y) (x.z - w.z) (y.x - w.x) (y.y - w.y) (y.z - w.z)
    (z.x - w.x) (z.y - w.y) (z.z - w.z)

/-- A face of a cell: the centroid, the nodes in the order of `getNodes()` and whether they turn
around the outward normal of the cell. -/
structure FaceGeom (K : Type) where
  cen : V K
  nodes : List (V K)
  out : Bool

/-- `v2 = nodes[i]; d += det4v(point,v0,v1,v2); v1.swap(v2);`, geometry.cpp L497-502. -/
def fan (p v0 : V K) : V K → List (V K) → K → K
  | _, [], d => d
  | v1, v2 :: vs, d => fan p v0 v2 vs (d + det4v p v0 v1 v2)

/-- `d` of a face, geometry.cpp L492-502; `none` when `nodes.back()` does not exist. -/
def faceDet (p : V K) (f : FaceGeom K) : Option K :=
  match f.nodes.getLast? with
  | none => none
  | some v1 => some (fan p f.cen v1 f.nodes 0)

/-- The counters `vp`, `vm`, `vz` after the loop over the faces, geometry.cpp L490-515. -/
def countSides (eps : K) (p : V K) : List (FaceGeom K) → Nat × Nat × Nat → Option (Nat × Nat × Nat)
  | [], st => some st
  | f :: fs, (vp, vm, vz) =>
    match faceDet p f with
    | none => none
    | some d =>
      let c : K := if f.out then 1 else -1
      if c * d > eps then countSides eps p fs (vp + 1, vm, vz)
      else if c * d < -eps then countSides eps p fs (vp, vm + 1, vz)
      else countSides eps p fs (vp, vm, vz + 1)

/-- `Cell::Inside` for a cell of dimension 3, geometry.cpp L348-525. -/
def insideSolid (eps : K) (faces : List (FaceGeom K)) (p : V K) : Option Bool :=
  match countSides eps p faces (0, 0, 0) with
  | none => none
  | some (vp, vm, _) => some (if vp * vm > 0 then false else true)

/-- `vec_dot_product(a,b,size)`, geometry.cpp L55-61, `size` from 1 to 3. -/
def dotN (size : Nat) (a b : V K) : K :=
  (if 0 < size then a.x * b.x else 0) + (if 1 < size then a.y * b.y else 0) +
    (if 2 < size then a.z * b.z else 0)

/-- `vec_diff(a,b,out,size)`, geometry.cpp L25-29, into an array that held zeros, L552-555. -/
def diffN (size : Nat) (a b : V K) : V K :=
  ⟨if 0 < size then a.x - b.x else 0, if 1 < size then a.y - b.y else 0, if 2 < size then a.z - b.z else 0⟩

/-- The test of one triangle, geometry.cpp L561-573. -/
def triTest (mdim : Nat) (p a b c : V K) : Bool :=
  let d3 := diffN mdim p a
  let d4 := diffN mdim p b
  let d5 := diffN mdim p c
  let d6 := cross d3 d4
  let d7 := cross d4 d5
  let d8 := cross d5 d3
  decide (dotN mdim d6 d7 ≥ 0 ∧ dotN mdim d7 d8 ≥ 0 ∧ dotN mdim d6 d8 ≥ 0)

/-- `Cell::Inside` for a cell of dimension 2, geometry.cpp L547-576: the polygon is cut into triangles
at the centroid. -/
def insidePolygon (mdim : Nat) (cen : V K) (nodes : List (V K)) (p : V K) : Bool :=
  (nodes.zip (nodes.rotateLeft 1)).any fun s => triTest mdim p cen s.1 s.2

end Verif.Search
