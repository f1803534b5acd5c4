import Verif.EdgeLoop.Spec
import Verif.Search.Model
import Mathlib.Logic.Relation

/-!
# Vocabulary of the properties of geometric data

Nothing here refers to the functions that compute geometric data.
-/

namespace Verif.Geometry
open Verif.Topology Verif.EdgeLoop Verif.Search

variable {K : Type} [Field K] [LinearOrder K] [IsStrictOrderedRing K]

/-! ## Surfaces as connected faces -/

/-- Consecutive members of a cycle, the last one is followed by the first one. -/
def cyc {α : Type} (l : List α) : List (α × α) := l.zip (l.tail ++ l.head?.toList)

/-- The edges of face `f` with the corners they are run through from and to, for a face whose corners,
in order, are `ns`. -/
def runs (T : Topo) (f : El) (ns : List El) : List (El × El × El) := (T.low f).zip (cyc ns)

/-- The faces `fs` have the corners `corner f`, without repetitions, and no hidden edges; any two faces
with a common edge run through it in opposite directions, when the faces with `out f = false` are run through
backwards. -/
structure Surface (T : Topo) (fs : List El) (corner : El → List El) (out : El → Bool) : Prop where
  loop : ∀ f ∈ fs, Loop T (T.low f) (corner f)
  nodup : ∀ f ∈ fs, (corner f).Nodup
  visible : ∀ f ∈ fs, ∀ e ∈ T.low f, T.hid e = false
  opposite : ∀ f ∈ fs, ∀ g ∈ fs, f ≠ g → ∀ e a b a' b', (e, a, b) ∈ runs T f (corner f) →
    (e, a', b') ∈ runs T g (corner g) → (a', b') = if out f = out g then (b, a) else (a, b)

/-- Faces of `fs` that have a common edge. -/
def Adjacent (T : Topo) (fs : List El) (f g : El) : Prop :=
  f ∈ fs ∧ g ∈ fs ∧ ∃ e, e ∈ T.low f ∧ e ∈ T.low g

/-- Every face is reached from every other one over common edges. -/
def Connected (T : Topo) (fs : List El) : Prop :=
  ∀ f ∈ fs, ∀ g ∈ fs, Relation.ReflTransGen (Adjacent T fs) f g

/-! ## Solids cut into tetrahedra -/

/-- A triangle; the order of the vertices tells the side it is seen from. -/
structure Tri (K : Type) where
  a : V K
  b : V K
  c : V K

namespace Tri
/-- The same triangle. -/
def rot (t : Tri K) : Tri K := ⟨t.b, t.c, t.a⟩
/-- The triangle seen from the other side. -/
def flip (t : Tri K) : Tri K := ⟨t.a, t.c, t.b⟩
def sides (t : Tri K) : List (V K × V K) := [(t.a, t.b), (t.b, t.c), (t.c, t.a)]
/-- The area as a vector around which the vertices turn. -/
def area (t : Tri K) : V K := smul (1 / 2) (cross (sub t.b t.a) (sub t.c t.a))
end Tri

/-- The same triangle from the same side. -/
def SameTri (t u : Tri K) : Prop := u = t ∨ u = t.rot ∨ u = t.rot.rot

/-- A tetrahedron. -/
structure Tet (K : Type) where
  p : V K
  a : V K
  b : V K
  c : V K

namespace Tet
/-- The volume, negative for the other orientation. -/
def vol (t : Tet K) : K := dot (sub t.a t.p) (cross (sub t.b t.p) (sub t.c t.p)) / 6
/-- The four faces, seen from outside if the volume is positive. -/
def boundary (t : Tet K) : List (Tri K) := [⟨t.a, t.b, t.c⟩, ⟨t.p, t.c, t.b⟩, ⟨t.p, t.a, t.c⟩, ⟨t.p, t.b, t.a⟩]
/-- The mean of the vertices, which is the centre of mass. -/
def centre (t : Tet K) : V K :=
  ⟨(t.p.x + t.a.x + t.b.x + t.c.x) / 4, (t.p.y + t.a.y + t.b.y + t.c.y) / 4, (t.p.z + t.a.z + t.b.z + t.c.z) / 4⟩
end Tet

/-- `l` consists of `m` and of pairs of opposite sides. -/
def SidesCancel (l m : List (V K × V K)) : Prop := ∃ P, l.Perm (m ++ (P ++ P.map Prod.swap))

/-- `l` consists of `m` and of pairs of opposite triangles. -/
def TrisCancel (l m : List (Tri K)) : Prop :=
  ∃ P l', l.Perm l' ∧ List.Forall₂ SameTri l' (m ++ (P ++ P.map Tri.flip))

/-- The polygon `ns` is flat and is cut into the triangles `ts` of its plane: the sides of the triangles are
those of the polygon and pairs of opposite sides. -/
structure CutFace (ns : List (V K)) (ts : List (Tri K)) : Prop where
  plane : ∃ (n : V K) (d : K), n ≠ ⟨0, 0, 0⟩ ∧ (∀ p ∈ ns, dot n p = d) ∧
    ∀ t ∈ ts, dot n t.a = d ∧ dot n t.b = d ∧ dot n t.c = d
  sides : SidesCancel (ts.flatMap Tri.sides) (cyc ns)

/-- A solid with the flat faces `fs`, that have the vertices `pts f` in the order around the outward normal
if `out f` and around the inward normal otherwise, is cut into the tetrahedra `ts` of positive volume:
the faces of the tetrahedra are the triangles `cut f` of the faces of the solid, and pairs of opposite
triangles. -/
structure CutSolid (fs : List El) (pts : El → List (V K)) (out : El → Bool) (cut : El → List (Tri K))
    (ts : List (Tet K)) : Prop where
  face : ∀ f ∈ fs, CutFace (pts f) (cut f)
  positive : ∀ t ∈ ts, 0 < t.vol
  some : ts ≠ []
  boundary : TrisCancel (ts.flatMap Tet.boundary)
    (fs.flatMap fun f => if out f then cut f else (cut f).map Tri.flip)

/-- The volume of the solid. -/
def volume (ts : List (Tet K)) : K := (ts.map Tet.vol).sum

/-- The centre of mass of the solid: the mean of the centres of the tetrahedra with their volumes as
weights. -/
def centreOfMass (ts : List (Tet K)) : V K :=
  ⟨(ts.map fun t => t.vol * t.centre.x).sum / volume ts, (ts.map fun t => t.vol * t.centre.y).sum / volume ts,
   (ts.map fun t => t.vol * t.centre.z).sum / volume ts⟩

/-- The area vector of a face cut into triangles. -/
def areaVector (ts : List (Tri K)) : V K :=
  ⟨(ts.map fun t => t.area.x).sum, (ts.map fun t => t.area.y).sum, (ts.map fun t => t.area.z).sum⟩

/-- The vector area of a polygon, flat or not: half the sum of the products of consecutive vertices. -/
def vectorArea (ps : List (V K)) : V K :=
  ⟨((cyc ps).map fun s => (cross s.1 s.2).x).sum / 2, ((cyc ps).map fun s => (cross s.1 s.2).y).sum / 2,
   ((cyc ps).map fun s => (cross s.1 s.2).z).sum / 2⟩

/-- Coordinate `q` of `X` is the mean of the coordinates of the centres of the triangles with their area vectors as
weights. -/
def MeanOver (q : V K → K) (ts : List (Tri K)) (X : V K) : Prop :=
  q X * (areaVector ts).x = (ts.map fun t => (q t.a + q t.b + q t.c) / 3 * t.area.x).sum ∧
  q X * (areaVector ts).y = (ts.map fun t => (q t.a + q t.b + q t.c) / 3 * t.area.y).sum ∧
  q X * (areaVector ts).z = (ts.map fun t => (q t.a + q t.b + q t.c) / 3 * t.area.z).sum

/-- `X` is the centre of a face cut into triangles. -/
def CentreOfArea (ts : List (Tri K)) (X : V K) : Prop := MeanOver V.x ts X ∧ MeanOver V.y ts X ∧ MeanOver V.z ts X

/-- The solid is convex: the plane of each face has all vertices on its inner side or on it, and some vertex
strictly on its inner side. -/
def Convex (fs : List El) (pts : El → List (V K)) (out : El → Bool) (cut : El → List (Tri K)) : Prop :=
  ∀ f ∈ fs,
    (∀ g ∈ fs, ∀ p ∈ pts g, ∀ q ∈ pts f, (if out f then 1 else -1) * dot (areaVector (cut f)) (sub p q) ≤ 0) ∧
    ∃ g ∈ fs, ∃ p ∈ pts g, ∃ q ∈ pts f, (if out f then 1 else -1) * dot (areaVector (cut f)) (sub p q) < 0

/-- The faces of a cell that are not hidden. -/
def facesOf (T : Topo) (c : El) : List El := (T.low c).filter fun f => !T.hid f

/-- Cell `c` of a mesh with the coordinates `coord` is a solid: its faces have simple boundaries with the
corners `corner f`, its nodes are those of its faces, and it is cut into tetrahedra. -/
structure Solid (T : Topo) (coord : El → V K) (c : El) (corner : El → List El) (out : El → Bool)
    (cut : El → List (Tri K)) (ts : List (Tet K)) : Prop where
  loop : ∀ f ∈ facesOf T c, Loop T (edgesOf T f) (corner f)
  nodup : ∀ f ∈ facesOf T c, (corner f).Nodup
  node : ∀ n, (n ∈ T.high c ∧ T.hid n = false) ↔ ∃ f ∈ facesOf T c, n ∈ corner f
  cut : CutSolid (facesOf T c) (fun f => (corner f).map coord) out cut ts

end Verif.Geometry
