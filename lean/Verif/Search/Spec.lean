import Verif.Search.Model

/-!
# Vocabulary of the properties of the search tree

Nothing here refers to the tree.
-/

namespace Verif.Search

variable {K : Type} [Field K] [LinearOrder K] [IsStrictOrderedRing K]

/-- What is known of the conversion of a number to `float`: the relative error is at most `2^-24`,
the absolute error of tiny numbers is at most `2^-150`. -/
def FloatLike (fl : K → K) : Prop := ∀ x, |fl x - x| ≤ |x| / 2 ^ 24 + 1 / 2 ^ 150

/-- `sq` is the square root of numbers that are not negative. -/
def IsSqrt (sq : K → K) : Prop := ∀ x, 0 ≤ x → 0 ≤ sq x ∧ sq x * sq x = x

/-- Node `n` belongs to element `e`: while the mesh is being modified, an element that is not
hidden has the nodes that are not hidden, a hidden element those that are not new. -/
def NodeOf (M : Mesh K) (e n : Nat) : Prop :=
  n ∈ M.nodes e ∧ (M.modif = true →
    (M.hidden e = true → M.new n = false) ∧ (M.hidden e = false → M.hidden n = false))

/-- The first coordinates, as many as the mesh has dimensions. -/
def Coordinate (M : Mesh K) (f : V K → K) : Prop :=
  (0 < M.dims ∧ f = V.x) ∨ (1 < M.dims ∧ f = V.y) ∨ (2 < M.dims ∧ f = V.z)

/-- `p` lies in the smallest box that holds the nodes of `e`. -/
def InNodeBox (M : Mesh K) (e : Nat) (p : V K) : Prop :=
  ∀ f, Coordinate M f → (∃ n, NodeOf M e n ∧ f (M.coord n) ≤ f p) ∧
    ∃ n, NodeOf M e n ∧ f p ≤ f (M.coord n)

/-- No coordinate of the vector exceeds `r`. -/
def Bounded (r : K) (p : V K) : Prop := |p.x| ≤ r ∧ |p.y| ≤ r ∧ |p.z| ≤ r

/-- No coordinate of a node of `e` exceeds `r`. -/
def NodesBounded (M : Mesh K) (r : K) (e : Nat) : Prop := ∀ n, NodeOf M e n → Bounded r (M.coord n)

/-- The test that the cell of a point is searched with: `Cell::Inside`, for a hidden cell in the
state of the mesh before the modification. -/
def Contains (M : Mesh K) (e : Nat) (p : V K) : Prop :=
  if M.modif = true ∧ M.hidden e = true then M.insideOld e p = true else M.inside e p = true

/-- The point with coefficients `u`, `v`, `w` of the vertices. -/
def comb (u v w : K) (a b c : V K) : V K :=
  ⟨u * a.x + v * b.x + w * c.x, u * a.y + v * b.y + w * c.y, u * a.z + v * b.z + w * c.z⟩

/-- `X` lies in the triangle, extended by the fraction `eps` over each side. -/
def InTriangle (eps : K) (a b c X : V K) : Prop :=
  ∃ u v w : K, -eps ≤ u ∧ -eps ≤ v ∧ -eps ≤ w ∧ u + v + w = 1 ∧ X = comb u v w a b c

/-- `X` lies on the segment, extended by the fraction `eps` over each end. -/
def OnSegment (eps : K) (a b X : V K) : Prop :=
  ∃ k : K, -eps ≤ k ∧ k ≤ 1 + eps ∧
    X = ⟨a.x + k * (b.x - a.x), a.y + k * (b.y - a.y), a.z + k * (b.z - a.z)⟩

/-- The square of the distance. -/
def dist2 (a b : V K) : K :=
  (a.x - b.x) * (a.x - b.x) + (a.y - b.y) * (a.y - b.y) + (a.z - b.z) * (a.z - b.z)

/-- `(a, b)` are consecutive nodes on the boundary of face `f`. -/
def SideOf (M : Mesh K) (f : Nat) (a b : V K) : Prop :=
  ∃ i j, i < (M.faceNodes f).length ∧ j = (i + 1) % (M.faceNodes f).length ∧
    a = M.coord ((M.faceNodes f).getD i 0) ∧ b = M.coord ((M.faceNodes f).getD j 0)

/-- The cells that an element hit contributes. -/
def cellsOf (M : Mesh K) (e : Nat) : List Nat :=
  if M.isCell e then [e] else if M.isFace e then M.faceCells e else []

/-- The faces that an element hit contributes. -/
def facesOf (M : Mesh K) (e : Nat) : List Nat :=
  if M.isCell e then M.cellFaces e else if M.isFace e then [e] else []

/-- The faces that are tested for an element: those of a solid, a flat element itself. -/
def surface (M : Mesh K) (e : Nat) : List Nat :=
  if M.gdim e = 2 then [e] else if M.gdim e = 3 then M.cellFaces e else []

/-- The segment crosses the plane of the triangle at an angle that is not negligible, and the triangle
is not tiny. -/
def Transversal (t0 t1 t2 p1 p2 : V K) : Prop :=
  1 / 10 ^ 25 ≤ dot (cross (sub t0 t2) (sub t1 t2)) (cross (sub t0 t2) (sub t1 t2)) ∧
  1 / 10 ^ 50 * dot (cross (sub t0 t2) (sub t1 t2)) (cross (sub t0 t2) (sub t1 t2)) ≤
    dot (cross (sub t0 t2) (sub t1 t2)) (sub p2 p1) * dot (cross (sub t0 t2) (sub t1 t2)) (sub p2 p1)

/-- The faces of element `e` have nodes of `e`, and their centroids lie in the box of the nodes of `e`. -/
def SurfaceIn (M : Mesh K) (e : Nat) : Prop :=
  ∀ f ∈ surface M e, (∀ n ∈ M.faceNodes f, NodeOf M e n) ∧ InNodeBox M e (M.cen f)

/-- An element that the tree can be asked about: a flat or solid cell or face, its faces have nodes. -/
def Proper (M : Mesh K) (e : Nat) : Prop :=
  (M.isCell e = true ∧ M.isFace e = false ∨ M.isCell e = false ∧ M.isFace e = true) ∧
  (M.gdim e = 2 ∨ M.gdim e = 3) ∧ ∀ f ∈ surface M e, M.faceNodes f ≠ []

/-- The surface of `e` has the point `X`: it belongs to one of the triangles that the centroid of a face
forms with the sides of the face, extended by the fraction `eps` over each side. -/
def OnSurface (M : Mesh K) (eps : K) (e : Nat) (X : V K) : Prop :=
  ∃ f ∈ surface M e, ∃ a b, SideOf M f a b ∧ InTriangle eps a b (M.cen f) X

end Verif.Search
