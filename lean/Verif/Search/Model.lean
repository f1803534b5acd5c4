import Verif.Sort.Model
import Mathlib.Algebra.Order.Field.Basic

/-!
# Model of the search tree over elements

Models the class `SearchKDTree`: `/repo/Source/Mesh/kdtree.cpp` and its declaration in
`/repo/Source/Headers/inmost_mesh.h` L3676-3747.

Numbers of type `Storage::real` are elements of an ordered field `K`, rounding of `double` is not
modelled.  The conversion `(float)` is modelled: it is a function `fl` of the mesh.  `sqrt` is a
parameter too.  Elements are handles, natural numbers.  An entry of the tree, inmost_mesh.h
L3693-3705, holds a handle and the centroid in `float`; the centroid is a function of the handle,
so an entry is represented by its handle.  The functions with suffix `Print` repeat the others
and print, they are not modelled.
-/

namespace Verif.Search

open Verif.Sort (U32 hist scatter)

/-- `Storage::real p[3]`. -/
structure V (K : Type) where
  x : K
  y : K
  z : K
deriving DecidableEq, Repr

/-- `float bbox[6]`: the even entries are `lo`, the odd ones are `hi`. -/
structure Box (K : Type) where
  lo : V K
  hi : V K

/-- What the tree asks of the mesh. -/
structure Mesh (K : Type) where
  /-- `(float)x`. -/
  fl : K → K
  /-- `sqrt`. -/
  sq : K → K
  /-- `GetDimensions()`. -/
  dims : Nat
  /-- `GetHandleElementType(e) == CELL`. -/
  isCell : Nat → Bool
  /-- `GetHandleElementType(e) == FACE`. -/
  isFace : Nat → Bool
  /-- `Element::GetGeometricDimension(GetGeometricType(e))`. -/
  gdim : Nat → Nat
  /-- `HideMarker() != 0`, the mesh is being modified. -/
  modif : Bool
  /-- `GetMarker(e,HideMarker())`. -/
  hidden : Nat → Bool
  /-- `GetMarker(e,NewMarker())`. -/
  new : Nat → Bool
  /-- The nodes collected by kdtree.cpp L247-290: those of the cell, or of the edges of the face. -/
  nodes : Nat → List Nat
  /-- The coordinates of a node; those from `dims` on are zero. -/
  coord : Nat → V K
  /-- The 32 bits of `set[k].xyz[dim]`, the centroid in `float`. -/
  key : Nat → Nat → U32
  /-- `GetGeometricData(e,CENTROID,..)`. -/
  cen : Nat → V K
  /-- `Face::getNodes()`. -/
  faceNodes : Nat → List Nat
  /-- `Cell::getFaces()`. -/
  cellFaces : Nat → List Nat
  /-- `Face::getCells()`. -/
  faceCells : Nat → List Nat
  /-- `Cell::Inside(p)`, inmost_mesh.h L3680. -/
  inside : Nat → V K → Bool
  /-- `Cell::Inside(p)` between the two calls of `SwapModification(false)`, kdtree.cpp L337-343. -/
  insideOld : Nat → V K → Bool

/-! ## Sorting -/

/-- `kHist`. -/
def kHist : Nat := 2048

/-- `flip`, kdtree.cpp L174-178: `mask = -((int)(*fp >> 31)) | 0x80000000`. -/
def flip (f : U32) : U32 := f ^^^ ((-(f >>> 31)) ||| 0x80000000#32)

/-- `_m0`, kdtree.cpp L4. -/
def m0 (x : U32) : Nat := (x &&& 0x7FF#32).toNat
/-- `_m1`, kdtree.cpp L5. -/
def m1 (x : U32) : Nat := ((x >>> 11) &&& 0x7FF#32).toNat
/-- `_m2`, kdtree.cpp L6. -/
def m2 (x : U32) : Nat := (x >>> 22).toNat

/-- `b[i] = v`. -/
def put (b : Nat → U32) (i : Nat) (v : U32) : Nat → U32 := fun k => if k = i then v else b k

/-- `b0[kHist-1] = b0[i] + sum0; b0[i] = sum0 - 1; sum0 = b0[kHist-1];` for `i` from `i` on, `n`
times, kdtree.cpp L193-201: the last counter is used as a temporary variable. -/
def sums : Nat → Nat → U32 → (Nat → U32) → Nat → U32
  | 0, _, _, b => b
  | n + 1, i, sum, b =>
    let b1 := put b (kHist - 1) (b i + sum)
    let b2 := put b1 i (sum - 1)
    sums n (i + 1) (b2 (kHist - 1)) b2

/-- `SearchKDTree::radix_sort`, kdtree.cpp L180-206; `none` is a write outside of an array.  The
array `temp` is as long as the whole tree, so at least as long as `set`; only its first `size`
entries matter and `tmp` stands for them. -/
def radixSort (key : Nat → U32) (set tmp : List Nat) : Option (List Nat) :=
  let k0 := fun e => m0 (flip (key e))
  let k1 := fun e => m1 (flip (key e))
  let k2 := fun e => m2 (flip (key e))
  match scatter k0 set (sums kHist 0 0 (hist k0 set)) tmp with
  | none => none
  | some t1 =>
    match scatter k1 t1 (sums kHist 0 0 (hist k1 set)) set with
    | none => none
    | some s1 =>
      match scatter k2 s1 (sums kHist 0 0 (hist k2 set)) t1 with
      | none => none
      | some t2 => some t2

/-- The order of floats by `<` given by their bits: sign and magnitude; `cmpElements0`,
kdtree.cpp L147-172.  The two zeros are equal.  Not-a-number is not treated. -/
def fltLt (a b : U32) : Bool :=
  let mag := fun u : U32 => (u &&& 0x7FFFFFFF#32).toNat
  if a.msb then
    if b.msb then decide (mag b < mag a) else decide (mag a ≠ 0 ∨ mag b ≠ 0)
  else
    if b.msb then false else decide (mag a < mag b)

/-- `qsort`: the result is a permutation, no element precedes one that compares less.  The order
of equivalent elements is not fixed. -/
def QSort (key : Nat → U32) (set set' : List Nat) : Prop :=
  set'.Perm set ∧ set'.Pairwise fun a b => fltLt (key b) (key a) = false

/-- The array is sorted, kdtree.cpp L212-218. -/
def Sorted (key : Nat → U32) (set set' : List Nat) : Prop :=
  if 128 < set.length then ∃ tmp : List Nat, tmp.length = set.length ∧ radixSort key set tmp = some set'
  else QSort key set set'

/-! ## The tree -/

variable {K : Type} [Field K] [LinearOrder K] [IsStrictOrderedRing K]

/-- `1.0e20f`; that it is rounded to `float` is not modelled. -/
def big : K := 10 ^ 20

/-- One direction of the box of a leaf, kdtree.cpp L296-322; `f` takes the coordinate. -/
def axis (M : Mesh K) (q : Nat) (f : V K → K) (ns : List Nat) : K × K :=
  if q < M.dims then
    (ns.foldl (fun a n => min a (M.fl (f (M.coord n)))) big,
     ns.foldl (fun a n => max a (M.fl (f (M.coord n)))) (-big))
  else (-big, big)

/-- The nodes that are not skipped, kdtree.cpp L240-245 and L298-305. -/
def usedNodes (M : Mesh K) (e : Nat) : List Nat :=
  if M.modif then
    (M.nodes e).filter fun n =>
      !((M.hidden e && M.new n) || (!M.hidden e && M.hidden n))
  else M.nodes e

/-- The box of a leaf, kdtree.cpp L239-328. -/
def leafBox (M : Mesh K) (e : Nat) : Box K :=
  let ns := usedNodes M e
  let ax := axis M 0 V.x ns
  let ay := axis M 1 V.y ns
  let az := axis M 2 V.z ns
  { lo := ⟨ax.1, ay.1, az.1⟩, hi := ⟨ax.2, ay.2, az.2⟩ }

/-- The box of an inner vertex, kdtree.cpp L230-234. -/
def merge (a b : Box K) : Box K :=
  { lo := ⟨min a.lo.x b.lo.x, min a.lo.y b.lo.y, min a.lo.z b.lo.z⟩,
    hi := ⟨max a.hi.x b.hi.x, max a.hi.y b.hi.y, max a.hi.z b.hi.z⟩ }

/-- A `SearchKDTree` of positive size: `size == 1`, or `size > 1` and two children. -/
inductive Tree (K : Type) where
  | leaf (e : Nat) (b : Box K)
  | node (b : Box K) (l r : Tree K)

/-- `bbox`. -/
def Tree.box : Tree K → Box K
  | .leaf _ b => b
  | .node b _ _ => b

/-- `kdtree_build(dim,..)` on the part `set` of the array can leave the tree `t`, kdtree.cpp
L208-330.  For an element that is neither a cell nor a face it throws. -/
inductive Build (M : Mesh K) : Nat → List Nat → Tree K → Prop where
  | leaf {dim e : Nat} : (M.isCell e || M.isFace e) = true → Build M dim [e] (.leaf e (leafBox M e))
  | node {dim : Nat} {set set' : List Nat} {l r : Tree K} :
      1 < set.length → Sorted (fun e => M.key e dim) set set' →
      Build M ((dim + 1) % 3) (set'.take (set.length / 2)) l →
      Build M ((dim + 1) % 3) (set'.drop (set.length / 2)) r →
      Build M dim set (.node (merge l.box r.box) l r)

/-- The constructor `SearchKDTree(m,set,size)`, kdtree.cpp L506-535, of a positive size; the
constructor `SearchKDTree(m)`, L473-503, does the same with all the cells of the mesh.  They
compute the box of the root a second time. -/
def Constructed (M : Mesh K) (set : List Nat) (t : Tree K) : Prop := Build M 0 set t

/-! ## Search of the cell of a point -/

/-- `1.0e-3`. -/
def tol : K := 1 / 1000

/-- `bbox_point`, kdtree.cpp L22-30. -/
def bboxPoint (p : V K) (b : Box K) : Bool :=
  !(decide (p.x < b.lo.x - tol) || decide (p.x > b.hi.x + tol)) &&
  !(decide (p.y < b.lo.y - tol) || decide (p.y > b.hi.y + tol)) &&
  !(decide (p.z < b.lo.z - tol) || decide (p.z > b.hi.z + tol))

/-- The test of a leaf, kdtree.cpp L335-349. -/
def cellPoint (M : Mesh K) (e : Nat) (p : V K) : Bool :=
  if M.modif && M.hidden e then M.insideOld e p else M.inside e p

/-- `SubSearchCell`, kdtree.cpp L332-361; `none` is the invalid cell. -/
def subSearch (M : Mesh K) (p : V K) : Tree K → Option Nat
  | .leaf e _ => if cellPoint M e p then some e else none
  | .node b l r =>
    if bboxPoint p b then
      match subSearch M p l with
      | some e => some e
      | none => subSearch M p r
    else none

/-- What `SearchCell`, kdtree.cpp L1111-1114, does with a tree built for `set`: a failed
assertion (`assert(size > 1)`, L352) if the set is empty, else the result. -/
inductive Answer (α : Type) where
  | failed
  | value (a : α)

/-- `SearchCell(point)` of a tree constructed for `set` can give `r`. -/
inductive SearchCell (M : Mesh K) (set : List Nat) (p : V K) : Answer (Option Nat) → Prop where
  | empty : set = [] → SearchCell M set p .failed
  | found {t : Tree K} : Constructed M set t → SearchCell M set p (.value (subSearch M p t))

/-! ## Segments -/

def sub (a b : V K) : V K := ⟨a.x - b.x, a.y - b.y, a.z - b.z⟩
def add (a b : V K) : V K := ⟨a.x + b.x, a.y + b.y, a.z + b.z⟩
def smul (k : K) (a : V K) : V K := ⟨k * a.x, k * a.y, k * a.z⟩

/-- `crossproduct`, kdtree.cpp L10-15. -/
def cross (a b : V K) : V K := ⟨a.y * b.z - a.z * b.y, a.z * b.x - a.x * b.z, a.x * b.y - a.y * b.x⟩

/-- `dotproduct`, kdtree.cpp L17-20. -/
def dot (a b : V K) : K := a.x * b.x + a.y * b.y + a.z * b.z

/-- `l = sqrt(dotproduct(n,n)); if (l) n /= l`, kdtree.cpp L566-572. -/
def unit (sq : K → K) (n : V K) : V K :=
  let l := sq (dot n n)
  if l ≠ 0 then ⟨n.x / l, n.y / l, n.z / l⟩ else n

/-- `segment_tri`, kdtree.cpp L542-598.  When `invdenom` is zero the source divides by it, the
quotients are infinite or not numbers and no quotients pass the three comparisons. -/
def segTri (sq : K → K) (t0 t1 t2 p1 p2 : V K) : Bool :=
  let eps : K := 1 / 10 ^ 7
  let ray := sub p2 p1
  let a := sub t0 t2
  let b := sub t1 t2
  let n := unit sq (cross a b)
  let d := - dot n t2
  let m := dot n ray
  if |m| < 1 / 10 ^ 25 then false
  else
    let k := -(d + dot n p1) / m
    if k < -(1 / 10 ^ 10) ∨ k > 1 + 1 / 10 ^ 10 then false
    else
      let c := sub (add p1 (smul k ray)) t2
      let dot00 := dot a a
      let dot01 := dot a b
      let dot02 := dot a c
      let dot11 := dot b b
      let dot12 := dot b c
      let invdenom := dot00 * dot11 - dot01 * dot01
      let uq := dot11 * dot02 - dot01 * dot12
      let vq := dot00 * dot12 - dot01 * dot02
      if |invdenom| < 1 / 10 ^ 25 ∧ |uq| > 0 ∧ |vq| > 0 then false
      else if invdenom = 0 then false
      else
        let uq := uq / invdenom
        let vq := vq / invdenom
        decide (uq ≥ -eps ∧ vq ≥ -eps ∧ 1 - (uq + vq) ≥ -eps)

/-- The triangles of `segment_face` and `sphere_face`, kdtree.cpp L738-753: `(tri[0], tri[1])`
runs over consecutive nodes, `tri[2]` is the centroid. -/
def faceTris (M : Mesh K) (f : Nat) : List (V K × V K) :=
  let ns := (M.faceNodes f).map M.coord
  ns.zip (ns.tail ++ ns.head?.toList)

/-- `segment_face`, kdtree.cpp L738-753; `none` when `nodes[0]` does not exist. -/
def segFace (M : Mesh K) (p1 p2 : V K) (f : Nat) : Option Bool :=
  if M.faceNodes f = [] then none
  else some ((faceTris M f).any fun t => segTri M.sq t.1 t.2 (M.cen f) p1 p2)

/-- `segment_cell`, kdtree.cpp L797-803, and `sphere_cell`, L805-811: the first face that is hit
ends the loop. -/
def anyFace (test : Nat → Option Bool) : List Nat → Option Bool
  | [] => some false
  | f :: fs =>
    match test f with
    | none => none
    | some true => some true
    | some false => anyFace test fs

/-- The test of a leaf, kdtree.cpp L957-985 and L1063-1091; `none` is `exit(-1)` or undefined. -/
def hitTest (M : Mesh K) (test : Nat → Option Bool) (e : Nat) : Option Bool :=
  if M.gdim e = 2 then test e
  else if M.gdim e = 3 then anyFace test (M.cellFaces e)
  else none

/-- One round of the loop of `segment_bbox`, kdtree.cpp L681-704; `none` is `return 0`.  `lo` and
`hi` are `bbox[i*2]` and `bbox[i*2+1]`, `st` is `(tnear, tfar)`. -/
def slab (lo hi p1 p2 : K) (st : K × K) : Option (K × K) :=
  if |p2 - p1| < 1 / 10 ^ 15 then
    if p1 < lo - tol ∨ p1 > hi + tol then none else some st
  else
    let t1 := (lo - tol - p1) / (p2 - p1)
    let t2 := (hi + tol - p1) / (p2 - p1)
    let ts := if t1 > t2 then (t2, t1) else (t1, t2)
    let tnear := if ts.1 > st.1 then ts.1 else st.1
    let tfar := if ts.2 < st.2 then ts.2 else st.2
    if tnear > tfar then none
    else if tfar < 0 then none
    else if tnear > 1 then none
    else some (tnear, tfar)

/-- `segment_bbox`, kdtree.cpp L677-706. -/
def segBox (p1 p2 : V K) (b : Box K) : Bool :=
  match slab b.lo.x b.hi.x p1.x p2.x (-big, big) with
  | none => false
  | some s1 =>
    match slab b.lo.y b.hi.y p1.y p2.y s1 with
    | none => false
    | some s2 => (slab b.lo.z b.hi.z p1.z p2.z s2).isSome

/-! ## Spheres -/

/-- `bbox_closest_point`, kdtree.cpp L52-64, one coordinate. -/
def clamp (lo hi p : K) : K := if p < lo then lo else if p > hi then hi else p

/-- `sqrt` of the sum of squares of the differences. -/
def distance (sq : K → K) (a p : V K) : K :=
  sq ((a.x - p.x) * (a.x - p.x) + (a.y - p.y) * (a.y - p.y) + (a.z - p.z) * (a.z - p.z))

/-- `bbox_sphere`, kdtree.cpp L67-73. -/
def bboxSphere (sq : K → K) (p : V K) (r : K) (b : Box K) : Bool :=
  let pb : V K := ⟨clamp b.lo.x b.hi.x p.x, clamp b.lo.y b.hi.y p.y, clamp b.lo.z b.hi.z p.z⟩
  decide (distance sq pb p ≤ r)

/-- `segment_distance`, kdtree.cpp L75-107. -/
def segDist (sq : K → K) (a b p : V K) : K :=
  let v := sub b a
  let d := v.x * v.x + v.y * v.y + v.z * v.z
  if d = 0 then distance sq a p
  else
    let t := (v.x * (p.x - a.x) + v.y * (p.y - a.y) + v.z * (p.z - a.z)) / d
    if t ≥ 0 ∧ t ≤ 1 then distance sq (add a (smul t v)) p
    else if t < 0 then distance sq a p
    else distance sq b p

/-- `q1` for `a`, `b`; `q2` for `b`, `c`; `q3` for `c`, `a`; kdtree.cpp L127-135. -/
def triQ (o a b : V K) : V K :=
  ⟨(o.y - a.y) * (o.z - b.z) - (o.y - b.y) * (o.z - a.z),
   (o.z - a.z) * (o.x - b.x) - (o.z - b.z) * (o.x - a.x),
   (o.x - a.x) * (o.y - b.y) - (o.x - b.x) * (o.y - a.y)⟩

/-- `triangle_distance`, kdtree.cpp L109-145. -/
def triDist (sq : K → K) (a b c p : V K) : K :=
  let n : V K := ⟨(b.y - a.y) * (c.z - a.z) - (b.z - a.z) * (c.y - a.y),
    (b.z - a.z) * (c.x - a.x) - (b.x - a.x) * (c.z - a.z),
    (b.x - a.x) * (c.y - a.y) - (b.y - a.y) * (c.x - a.x)⟩
  let n := unit sq n
  let t := (a.x - p.x) * n.x + (a.y - p.y) * n.y + (a.z - p.z) * n.z
  let o : V K := ⟨p.x + t * n.x, p.y + t * n.y, p.z + t * n.z⟩
  let q1 := triQ o a b
  let q2 := triQ o b c
  let q3 := triQ o c a
  if dot q1 q2 ≥ 0 ∧ dot q2 q3 ≥ 0 ∧ dot q1 q3 ≥ 0 then |t|
  else min (min (segDist sq a b p) (segDist sq b c p)) (segDist sq c a p)

/-- `sphere_face`, kdtree.cpp L780-795, with `sphere_tri`, L537-540. -/
def sphFace (M : Mesh K) (p : V K) (r : K) (f : Nat) : Option Bool :=
  if M.faceNodes f = [] then none
  else some ((faceTris M f).any fun t => decide (triDist M.sq t.1 t.2 (M.cen f) p ≤ r))

/-! ## Collection of the elements hit -/

/-- A private marker: the elements that carry it. -/
abbrev Marked := Nat → Bool

/-- `sub_intersect_segment`, kdtree.cpp L955-994, and `sub_intersect_sphere`, L1061-1100: `prune` is
the test of the box, `test` that of a face; `st` is `(hits, mrk)`. -/
def collect (M : Mesh K) (prune : Box K → Bool) (test : Nat → Option Bool) :
    Tree K → List Nat × Marked → Option (List Nat × Marked)
  | .leaf e _, (hits, mrk) =>
    if mrk e then some (hits, mrk)
    else
      match hitTest M test e with
      | none => none
      | some true => some (hits ++ [e], fun x => if x = e then true else mrk x)
      | some false => some (hits, mrk)
  | .node b l r, st =>
    if prune b then
      match collect M prune test l st with
      | none => none
      | some st' => collect M prune test r st'
    else some st

/-- `RemPrivateMarkerArray`. -/
def unmark (es : List Nat) (mrk : Marked) : Marked := fun x => if x ∈ es then false else mrk x

/-- `if( !e->GetPrivateMarker(mrk) ) { out.push_back(e); e->SetPrivateMarker(mrk); }` for the
elements of a list. -/
def pushNew : List Nat → List Nat × Marked → List Nat × Marked
  | [], st => st
  | e :: es, (out, mrk) =>
    if mrk e then pushNew es (out, mrk)
    else pushNew es (out ++ [e], fun x => if x = e then true else mrk x)

/-- The loop of `IntersectSegment(cells)` and `IntersectSphere(cells)` over the elements hit,
kdtree.cpp L819-835. -/
def toCells (M : Mesh K) : List Nat → List Nat × Marked → List Nat × Marked
  | [], st => st
  | e :: es, (out, mrk) =>
    if M.isCell e && !mrk e then toCells M es (out ++ [e], fun x => if x = e then true else mrk x)
    else if M.isFace e then toCells M es (pushNew (M.faceCells e) (out, mrk))
    else toCells M es (out, mrk)

/-- The loop of `IntersectSegment(faces)` and `IntersectSphere(faces)`, kdtree.cpp L846-862: a face
is appended whether it is marked or not. -/
def toFaces (M : Mesh K) : List Nat → List Nat × Marked → List Nat × Marked
  | [], st => st
  | e :: es, (out, mrk) =>
    if M.isCell e then toFaces M es (pushNew (M.cellFaces e) (out, mrk))
    else if M.isFace e then toFaces M es (out ++ [e], fun x => if x = e then true else mrk x)
    else toFaces M es (out, mrk)

/-- The four functions: `out` is the array given by the caller; the result is the array and the
marker when it is released, kdtree.cpp L813-838, L840-865, L901-926, L928-953. -/
def intersect (M : Mesh K) (prune : Box K → Bool) (test : Nat → Option Bool)
    (conv : Mesh K → List Nat → List Nat × Marked → List Nat × Marked)
    (t : Tree K) (out : List Nat) : Option (List Nat × Marked) :=
  match collect M prune test t ([], fun _ => false) with
  | none => none
  | some (temp, mrk) =>
    let (out', mrk') := conv M temp (out, unmark temp mrk)
    some (out', unmark out' mrk')

/-- `IntersectSegment(cells,p1,p2)`. -/
def segmentCells (M : Mesh K) (t : Tree K) (out : List Nat) (p1 p2 : V K) :=
  intersect M (segBox p1 p2) (segFace M p1 p2) toCells t out

/-- `IntersectSegment(faces,p1,p2)`. -/
def segmentFaces (M : Mesh K) (t : Tree K) (out : List Nat) (p1 p2 : V K) :=
  intersect M (segBox p1 p2) (segFace M p1 p2) toFaces t out

/-- `IntersectSphere(cells,p,r)`. -/
def sphereCells (M : Mesh K) (t : Tree K) (out : List Nat) (p : V K) (r : K) :=
  intersect M (bboxSphere M.sq p r) (sphFace M p r) toCells t out

/-- `IntersectSphere(faces,p,r)`. -/
def sphereFaces (M : Mesh K) (t : Tree K) (out : List Nat) (p : V K) (r : K) :=
  intersect M (bboxSphere M.sq p r) (sphFace M p r) toFaces t out

end Verif.Search
