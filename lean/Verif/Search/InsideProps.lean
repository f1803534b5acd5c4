import Verif.Search.InsideLemmas
import Verif.Search.TriLemmas

/-!
# C67: the test whether a point is inside of a cell

`Cell::Inside(p)`.
-/

namespace Verif.Search

variable {K : Type} [Field K] [LinearOrder K] [IsStrictOrderedRing K]

/-- The nodes of the faces of a cell. -/
def cellNodes (fs : List (FaceGeom K)) : List (V K) := fs.flatMap fun f => f.nodes

/-- All nodes of the cell are on the inner side of the planes of the faces. -/
def Convex (fs : List (FaceGeom K)) : Prop := ∀ f ∈ fs, ∀ x ∈ cellNodes fs, 0 ≤ pyramid x f

/-- **C67.** For a cell with a closed surface, whose volume is not negligible, the answer tells whether
no face sees the point on its outer side, by more than the tolerance.  The point may be anywhere. -/
theorem C67_solid (eps : K) (he : 0 ≤ eps) (fs : List (FaceGeom K)) (p : V K) (hne : ∀ f ∈ fs, f.nodes ≠ [])
    (hc : ClosedSurface fs) (hv : fs.length * eps < volume fs) :
    ∃ b, insideSolid eps fs p = some b ∧ (b = true ↔ ∀ f ∈ fs, -eps ≤ pyramid p f) := by
  obtain ⟨b, h1, h2⟩ := insideSolid_eq eps he p fs hne
  refine ⟨b, h1, h2.trans ⟨?_, .inr⟩⟩
  rintro (h | h)
  · exfalso
    have hs := pyramids_volume hc p
    have : ∀ gs : List (FaceGeom K), (∀ f ∈ gs, pyramid p f ≤ eps) → (gs.map (pyramid p)).sum ≤ gs.length * eps := by
      intro gs
      induction gs with
      | nil => intro _; simp
      | cons g gs ih =>
        intro hg
        have h1 := hg g (by simp)
        have h2 := ih fun f hf => hg f (by simp [hf])
        rw [List.map_cons, List.sum_cons, List.length_cons]
        push_cast
        linarith
    have := this fs h
    linarith
  · exact h

/-- The pyramid over a face is an affine function of the apex. -/
theorem pyramid_affine (f : FaceGeom K) : ∃ l : V K, ∀ x p : V K, pyramid x f - pyramid p f = dot l (sub x p) := by
  have key : ∀ ss : List (V K × V K), ∃ l : V K, ∀ x p : V K,
      (ss.map fun s => vol x f.cen s.1 s.2).sum - (ss.map fun s => vol p f.cen s.1 s.2).sum =
        dot l (sub x p) := by
    intro ss
    induction ss with
    | nil => exact ⟨⟨0, 0, 0⟩, by intro x p; simp [dot]⟩
    | cons s ss ih =>
      obtain ⟨l, hl⟩ := ih
      refine ⟨sub l (cross (sub s.1 f.cen) (sub s.2 f.cen)), ?_⟩
      intro x p
      have h := hl x p
      simp only [List.map_cons, List.sum_cons]
      have e : vol x f.cen s.1 s.2 - vol p f.cen s.1 s.2 +
          dot (cross (sub s.1 f.cen) (sub s.2 f.cen)) (sub x p) = 0 := by
        simp only [vol, dot, sub, cross]; ring
      have e2 : dot (sub l (cross (sub s.1 f.cen) (sub s.2 f.cen))) (sub x p) =
          dot l (sub x p) - dot (cross (sub s.1 f.cen) (sub s.2 f.cen)) (sub x p) := by
        simp only [dot, sub]; ring
      rw [e2, ← h]
      linarith
  obtain ⟨l, hl⟩ := key (sides f.nodes)
  refine ⟨smul (if f.out then 1 else -1) l, ?_⟩
  intro x p
  rw [pyramid, pyramid, ← mul_sub, hl]
  simp only [dot, smul]; ring

/-- **C67.** The points of a convex cell are found inside, whatever the tolerance. -/
theorem C67_convex_inside (eps : K) (he : 0 ≤ eps) (fs : List (FaceGeom K)) (p : V K)
    (hne : ∀ f ∈ fs, f.nodes ≠ []) (hcx : Convex fs) (hp : InHull (cellNodes fs) p) :
    insideSolid eps fs p = some true := by
  obtain ⟨b, h1, h2⟩ := insideSolid_eq eps he p fs hne
  rw [h1, h2.2]
  right
  intro f hf
  by_contra hneg
  have hneg := not_le.1 hneg
  obtain ⟨l, hl⟩ := pyramid_affine f
  refine hp l fun x hx => ?_
  rw [← hl x p]
  have := hcx f hf x hx
  linarith

/-- **C67**, without tolerance: a point that is found inside belongs to the convex hull of the cell.
Missing: the tolerance, a point slightly outside is found inside. -/
theorem C67_outside_partial (fs : List (FaceGeom K)) (p : V K) (hne : ∀ f ∈ fs, f.nodes ≠ [])
    (hc : ClosedSurface fs) (hf : ∀ f ∈ fs, FlatStar f) (hv : 0 < volume fs)
    (h : insideSolid 0 fs p = some true) : InHull (cellNodes fs) p := by
  obtain ⟨b, h1, h2⟩ := C67_solid 0 (le_refl _) fs p hne hc (by simpa using hv)
  rw [h1] at h
  have h3 := h2.1 (Option.some.inj h)
  simp only [neg_zero] at h3
  intro l hl
  have hne0 : ∃ f, f ∈ fs := by
    cases fs with
    | nil => simp [volume] at hv
    | cons f fs => exact ⟨f, by simp⟩
  have hl' : ∀ f ∈ fs, ∀ x ∈ f.nodes, 0 < dot l (sub x p) := by
    intro f hf x hx
    exact hl x (List.mem_flatMap.2 ⟨f, hf, hx⟩)
  have hll : 0 < dot l l := by
    refine lt_of_le_of_ne (dot_self_nonneg l) ?_
    intro h0
    obtain ⟨f, hff⟩ := hne0
    obtain ⟨x, hx⟩ := List.exists_mem_of_ne_nil _ (hne f hff)
    have := hl' f hff x hx
    have hx0 : l.x = 0 ∧ l.y = 0 ∧ l.z = 0 := by
      simp only [dot] at h0
      have a := mul_self_nonneg l.x
      have b := mul_self_nonneg l.y
      have c := mul_self_nonneg l.z
      exact ⟨mul_self_eq_zero.1 (by linarith), mul_self_eq_zero.1 (by linarith), mul_self_eq_zero.1 (by linarith)⟩
    simp [dot, hx0.1, hx0.2.1, hx0.2.2] at this
  have hz := separated hc hf hl' hll h3
  have hsum := pyramids_volume hc p
  rw [List.map_congr_left hz] at hsum
  simp at hsum
  linarith

/-! ## Polygons -/

theorem rotateLeft_one (ns : List (V K)) : ns.rotateLeft 1 = ns.tail ++ ns.head?.toList := by
  match ns with
  | [] => rfl
  | [a] => rfl
  | a :: b :: l =>
    rw [List.rotateLeft, if_neg (by simp)]
    have : 1 % (a :: b :: l).length = 1 := Nat.mod_eq_of_lt (by simp)
    simp only [this]
    rfl

/-- **C67**, for a cell of dimension 2 of a mesh of dimension 3, whose triangles at the centroid are not
degenerate, and a point in its plane: the answer tells whether the point belongs to one of the
triangles.  Missing: meshes of dimension 2, for which it fails, see `C67_planar_fails`. -/
theorem C67_polygon_partial (cen : V K) (nodes : List (V K)) (p : V K)
    (hn : ∀ s ∈ sides nodes, normal cen s.1 s.2 ≠ ⟨0, 0, 0⟩)
    (hp : ∀ s ∈ sides nodes, dot (normal cen s.1 s.2) (sub p cen) = 0) :
    insidePolygon 3 cen nodes p = true ↔ ∃ s ∈ sides nodes, InTriangle 0 cen s.1 s.2 p := by
  rw [insidePolygon, rotateLeft_one, List.any_eq_true]
  apply exists_congr
  intro s
  refine and_congr_right fun hs => ?_
  have hN : dot (normal cen s.1 s.2) (normal cen s.1 s.2) ≠ 0 := by
    intro h0
    apply hn s hs
    simp only [dot] at h0
    have a := mul_self_nonneg (normal cen s.1 s.2).x
    have b := mul_self_nonneg (normal cen s.1 s.2).y
    have c := mul_self_nonneg (normal cen s.1 s.2).z
    rw [V.ext_iff']
    exact ⟨mul_self_eq_zero.1 (by linarith), mul_self_eq_zero.1 (by linarith), mul_self_eq_zero.1 (by linarith)⟩
  rw [← inTriangle_iff hN (hp s hs)]
  have e1 : ∀ a b : V K, cross (diffN 3 p a) (diffN 3 p b) = triQ p a b := by
    intro a b
    rw [V.ext_iff']
    simp only [cross, diffN, triQ]
    norm_num
    refine ⟨?_, ?_, ?_⟩ <;> ring
  have e2 : ∀ a b : V K, dotN 3 a b = dot a b := by
    intro a b; simp [dotN, dot]
  simp only [triTest, e1, e2, decide_eq_true_eq]

/-- **C67 fails** for the cells of a mesh of dimension 2: every point is found inside of every cell.  The
vectors that are multiplied point out of the plane, and their third coordinate is left out. -/
theorem C67_planar_fails (cen : V K) (nodes : List (V K)) (p : V K) (hn : nodes ≠ []) :
    insidePolygon 2 cen nodes p = true := by
  rw [insidePolygon, rotateLeft_one]
  match nodes, hn with
  | a :: l, _ =>
    rw [List.any_eq_true]
    obtain ⟨b, hb⟩ : ∃ b, (a, b) ∈ (a :: l).zip ((a :: l).tail ++ (a :: l).head?.toList) := by
      cases l with
      | nil => exact ⟨a, by simp⟩
      | cons b l => exact ⟨b, by simp⟩
    refine ⟨_, hb, ?_⟩
    simp [triTest, dotN, diffN, cross]

/-! ## Example and failure for small cells -/

/-- The tetrahedron with three sides of length `h` along the axes.  The nodes of the last face turn
around the inward normal. -/
def tetra (h : ℚ) : List (FaceGeom ℚ) :=
  let o : V ℚ := ⟨0, 0, 0⟩
  let a : V ℚ := ⟨h, 0, 0⟩
  let b : V ℚ := ⟨0, h, 0⟩
  let c : V ℚ := ⟨0, 0, h⟩
  [⟨⟨h / 3, h / 3, 0⟩, [o, b, a], true⟩, ⟨⟨h / 3, 0, h / 3⟩, [o, a, c], true⟩,
    ⟨⟨0, h / 3, h / 3⟩, [o, c, b], true⟩, ⟨⟨h / 3, h / 3, h / 3⟩, [a, c, b], false⟩]

theorem hull_mid (a b c : V ℚ) : InHull [a, b, c] ⟨(a.x + b.x + c.x) / 3, (a.y + b.y + c.y) / 3,
    (a.z + b.z + c.z) / 3⟩ := by
  intro l hl
  have h1 := hl a (by simp)
  have h2 := hl b (by simp)
  have h3 := hl c (by simp)
  simp only [dot, sub] at h1 h2 h3
  have : (0 : ℚ) < 0 := by
    calc (0 : ℚ) < _ := add_pos (add_pos h1 h2) h3
      _ = 0 := by ring
  exact absurd this (lt_irrefl _)

theorem flat_triangle (a b c : V ℚ) (o : Bool) (m : V ℚ) (hm : m = ⟨(a.x + b.x + c.x) / 3, (a.y + b.y + c.y) / 3,
    (a.z + b.z + c.z) / 3⟩) : FlatStar ⟨m, [a, b, c], o⟩ := by
  subst hm
  refine ⟨hull_mid a b c, normal a b c, ?_⟩
  intro s hs
  refine ⟨1 / 3, by norm_num, ?_⟩
  have : s = (a, b) ∨ s = (b, c) ∨ s = (c, a) := by simpa [sides] using hs
  rcases this with rfl | rfl | rfl <;> rw [V.ext_iff'] <;>
    refine ⟨?_, ?_, ?_⟩ <;> simp only [cross, sub, smul, normal] <;> ring

theorem tetra_closed (h : ℚ) : ClosedSurface (tetra h) := by
  simp only [ClosedSurface, tetra, List.flatMap_cons, List.flatMap_nil, outSides, sides, List.tail_cons, List.head?_cons,
    Option.toList_some, List.cons_append, List.nil_append, List.zip_cons_cons, List.zip_nil_left, List.map_cons,
    List.map_nil, if_true, Bool.false_eq_true, if_false, List.append_nil, Prod.swap]
  generalize (⟨0, 0, 0⟩ : V ℚ) = o
  generalize (⟨h, 0, 0⟩ : V ℚ) = a
  generalize (⟨0, h, 0⟩ : V ℚ) = b
  generalize (⟨0, 0, h⟩ : V ℚ) = c
  have key : ∀ l m : List (Nat × Nat), l.Perm m → ∀ f : Nat × Nat → V ℚ × V ℚ, (l.map f).Perm (m.map f) :=
    fun l m h f => h.map f
  let f : Nat → V ℚ := fun i => if i = 0 then o else if i = 1 then a else if i = 2 then b else c
  exact key [(0, 2), (2, 1), (1, 0), (0, 1), (1, 3), (3, 0), (0, 3), (3, 2), (2, 0), (3, 1), (2, 3), (1, 2)]
    [(2, 0), (1, 2), (0, 1), (1, 0), (3, 1), (0, 3), (3, 0), (2, 3), (0, 2), (1, 3), (3, 2), (2, 1)]
    (by decide) (fun s => (f s.1, f s.2))

theorem tetra_volume (h : ℚ) : volume (tetra h) = h * h * h := by
  simp [volume, tetra, pyramid, sides, vol, dot, sub, cross]
  ring

theorem tetra_flat (h : ℚ) : ∀ f ∈ tetra h, FlatStar f := by
  intro f hf
  simp only [tetra, List.mem_cons, List.not_mem_nil, or_false] at hf
  rcases hf with rfl | rfl | rfl | rfl <;> apply flat_triangle <;> simp

theorem tetra_convex {h : ℚ} (h0 : 0 ≤ h) : Convex (tetra h) := by
  intro f hf x hx
  have h3 : 0 ≤ h * h * h := mul_nonneg (mul_nonneg h0 h0) h0
  simp only [cellNodes, tetra, List.flatMap_cons, List.flatMap_nil, List.mem_append, List.mem_cons,
    List.not_mem_nil, or_false] at hx
  simp only [tetra, List.mem_cons, List.not_mem_nil, or_false] at hf
  rcases hf with rfl | rfl | rfl | rfl <;>
    rcases hx with (rfl | rfl | rfl) | (rfl | rfl | rfl) | (rfl | rfl | rfl) | (rfl | rfl | rfl) <;>
    simp [pyramid, sides, vol, dot, sub, cross] <;> ring_nf at h3 ⊢ <;> linarith

/-- The hypotheses of the theorems hold for the unit tetrahedron with the default tolerance; a point inside
and two points outside are told apart. -/
example : (∀ f ∈ tetra 1, f.nodes ≠ []) ∧ ClosedSurface (tetra 1) ∧
    ((tetra 1).length * (1 / 10 ^ 8 : ℚ) < volume (tetra 1)) ∧ (∀ f ∈ tetra 1, FlatStar f) ∧ Convex (tetra 1) ∧
    insideSolid (1 / 10 ^ 8) (tetra 1) ⟨1 / 10, 1 / 5, 1 / 5⟩ = some true ∧
    insideSolid (1 / 10 ^ 8) (tetra 1) ⟨1 / 2, 1 / 2, 1 / 2⟩ = some false ∧
    insideSolid (1 / 10 ^ 8) (tetra 1) ⟨-1 / 10, 1 / 5, 1 / 5⟩ = some false := by
  refine ⟨?_, tetra_closed 1, ?_, tetra_flat 1, tetra_convex (by norm_num), ?_, ?_, ?_⟩
  · intro f hf
    simp only [tetra, List.mem_cons, List.not_mem_nil, or_false] at hf
    rcases hf with rfl | rfl | rfl | rfl <;> simp
  · rw [tetra_volume]; norm_num [tetra]
  · decide +kernel
  · decide +kernel
  · decide +kernel

/-- A square in the plane `z = 5`, a point inside and a point outside. -/
example : let ns : List (V ℚ) := [⟨0, 0, 5⟩, ⟨2, 0, 5⟩, ⟨2, 2, 5⟩, ⟨0, 2, 5⟩]
    (∀ s ∈ sides ns, normal ⟨1, 1, 5⟩ s.1 s.2 ≠ ⟨0, 0, 0⟩) ∧
    (∀ s ∈ sides ns, dot (normal ⟨1, 1, 5⟩ s.1 s.2) (sub ⟨1 / 2, 3 / 2, 5⟩ ⟨1, 1, 5⟩) = 0) ∧
    insidePolygon 3 ⟨1, 1, 5⟩ ns ⟨1 / 2, 3 / 2, 5⟩ = true ∧
    (∀ s ∈ sides ns, dot (normal ⟨1, 1, 5⟩ s.1 s.2) (sub ⟨3, 1, 5⟩ ⟨1, 1, 5⟩) = 0) ∧
    insidePolygon 3 ⟨1, 1, 5⟩ ns ⟨3, 1, 5⟩ = false := by
  decide +kernel

/-- **C67 fails** for small cells: with the tolerance `1e-8` that a mesh has when it is created, a point is
found inside of a tetrahedron with sides `1e-3` although its distance from the tetrahedron is larger
than the tetrahedron. -/
theorem C67_small_fails : ∃ (fs : List (FaceGeom ℚ)) (p : V ℚ), ClosedSurface fs ∧ Convex fs ∧
    (∀ f ∈ fs, FlatStar f) ∧ 0 < volume fs ∧ (∀ x ∈ cellNodes fs, Bounded (1 / 1000) x) ∧
    p.x > 2 / 1000 ∧ insideSolid (1 / 10 ^ 8) fs p = some true := by
  refine ⟨tetra (1 / 1000), ⟨3 / 1000, 3 / 1000, 3 / 1000⟩, tetra_closed _, tetra_convex (by norm_num), tetra_flat _, ?_, ?_,
    by norm_num, ?_⟩
  · rw [tetra_volume]; norm_num
  · intro x hx
    simp only [cellNodes, tetra, List.flatMap_cons, List.flatMap_nil, List.mem_append, List.mem_cons,
      List.not_mem_nil, or_false] at hx
    rcases hx with (rfl | rfl | rfl) | (rfl | rfl | rfl) | (rfl | rfl | rfl) | (rfl | rfl | rfl) <;>
      refine ⟨?_, ?_, ?_⟩ <;> rw [abs_le] <;> constructor <;> norm_num
  · decide +kernel

end Verif.Search
