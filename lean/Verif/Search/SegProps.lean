import Verif.Search.SegLemmas
import Verif.Search.Sample

/-!
# C68: search of the elements that a segment crosses

`SearchKDTree::IntersectSegment(cells,p1,p2)` and `IntersectSegment(faces,p1,p2)`.
-/

namespace Verif.Search

variable {K : Type} [Field K] [LinearOrder K] [IsStrictOrderedRing K]

theorem proper_hit {M : Mesh K} {e : Nat} (h : Proper M e) (test : Nat → Option Bool)
    (ht : ∀ f, M.faceNodes f ≠ [] → test f ≠ none) :
    hitTest M test e ≠ none ∧ (hitTest M test e = some true ↔ ∃ f ∈ surface M e, test f = some true) :=
  hitTest_spec M test e h.2.1 fun f hf => ht f (h.2.2 f hf)

theorem segFace_some {M : Mesh K} {p1 p2 : V K} {f : Nat} (h : M.faceNodes f ≠ []) : segFace M p1 p2 f ≠ none := by
  rw [segFace, if_neg h]; simp

theorem segFace_true {M : Mesh K} {p1 p2 : V K} {f : Nat} :
    segFace M p1 p2 f = some true ↔ ∃ a b, SideOf M f a b ∧ segTri M.sq a b (M.cen f) p1 p2 = true := by
  rw [segFace]
  by_cases h : M.faceNodes f = []
  · rw [if_pos h]
    simp only [reduceCtorEq, false_iff, not_exists]
    rintro a b ⟨⟨i, j, hi, _⟩, _⟩
    rw [h] at hi; simp at hi
  · rw [if_neg h, Option.some.injEq, List.any_eq_true]
    constructor
    · rintro ⟨t, ht, h⟩; exact ⟨t.1, t.2, mem_faceTris.1 ht, h⟩
    · rintro ⟨a, b, hs, h⟩; exact ⟨(a, b), mem_faceTris.2 hs, h⟩

/-- A point of a triangle of the surface lies in the box of the nodes. -/
theorem triangle_box {M : Mesh K} {e f : Nat} (h : SurfaceIn M e) (hf : f ∈ surface M e) {a b X : V K}
    (hs : SideOf M f a b) (hX : InTriangle 0 a b (M.cen f) X) : InNodeBox M e X := by
  obtain ⟨⟨na, hna, ea⟩, nb, hnb, eb⟩ := sideOf_nodes hs
  obtain ⟨h1, h2⟩ := h f hf
  obtain ⟨u, v, w, hu, hv, hw, hsum, hX⟩ := hX
  rw [neg_zero] at hu hv hw
  intro g hg
  obtain ⟨⟨n1, k1, l1⟩, n2, k2, l2⟩ := h2 g hg
  have e1 : g X = u * g a + v * g b + w * g (M.cen f) := by
    rw [hX]
    rcases hg with ⟨_, rfl⟩ | ⟨_, rfl⟩ | ⟨_, rfl⟩ <;> rfl
  have lin : ∀ c : K, g X - c = u * (g a - c) + v * (g b - c) + w * (g (M.cen f) - c) := by
    intro c; rw [e1]; linear_combination (c) * hsum
  constructor
  · by_cases ha : g a ≤ g X
    · exact ⟨na, h1 na hna, by rw [← ea]; exact ha⟩
    · by_cases hb : g b ≤ g X
      · exact ⟨nb, h1 nb hnb, by rw [← eb]; exact hb⟩
      · refine ⟨n1, k1, ?_⟩
        by_contra hc
        have ha := not_le.1 ha
        have hb := not_le.1 hb
        have hc := not_le.1 hc
        have hcc : g X < g (M.cen f) := lt_of_lt_of_le hc l1
        have := lin (g X)
        rw [sub_self] at this
        have q1 := mul_nonneg hu (sub_nonneg.2 ha.le)
        have q2 := mul_nonneg hv (sub_nonneg.2 hb.le)
        have q3 := mul_nonneg hw (sub_nonneg.2 hcc.le)
        have z1 : u * (g a - g X) = 0 := by linarith
        have z2 : v * (g b - g X) = 0 := by linarith
        have z3 : w * (g (M.cen f) - g X) = 0 := by linarith
        have y1 : u = 0 := (mul_eq_zero.1 z1).resolve_right (by linarith)
        have y2 : v = 0 := (mul_eq_zero.1 z2).resolve_right (by linarith)
        have y3 : w = 0 := (mul_eq_zero.1 z3).resolve_right (by linarith)
        rw [y1, y2, y3] at hsum; norm_num at hsum
  · by_cases ha : g X ≤ g a
    · exact ⟨na, h1 na hna, by rw [← ea]; exact ha⟩
    · by_cases hb : g X ≤ g b
      · exact ⟨nb, h1 nb hnb, by rw [← eb]; exact hb⟩
      · refine ⟨n2, k2, ?_⟩
        by_contra hc
        have ha := not_le.1 ha
        have hb := not_le.1 hb
        have hc := not_le.1 hc
        have hcc : g (M.cen f) < g X := lt_of_le_of_lt l2 hc
        have := lin (g X)
        rw [sub_self] at this
        have q1 := mul_nonneg hu (sub_nonneg.2 ha.le)
        have q2 := mul_nonneg hv (sub_nonneg.2 hb.le)
        have q3 := mul_nonneg hw (sub_nonneg.2 hcc.le)
        have z1 : u * (g a - g X) = 0 := by linarith
        have z2 : v * (g b - g X) = 0 := by linarith
        have z3 : w * (g (M.cen f) - g X) = 0 := by linarith
        have y1 : u = 0 := (mul_eq_zero.1 z1).resolve_right (by linarith)
        have y2 : v = 0 := (mul_eq_zero.1 z2).resolve_right (by linarith)
        have y3 : w = 0 := (mul_eq_zero.1 z3).resolve_right (by linarith)
        rw [y1, y2, y3] at hsum; norm_num at hsum

/-- A convex combination of two points of a cube. -/
theorem segment_bounded {p1 p2 : V K} {R k : K} (h1 : Bounded R p1) (h2 : Bounded R p2) (k0 : 0 ≤ k) (k1 : k ≤ 1) :
    Bounded R ⟨p1.x + k * (p2.x - p1.x), p1.y + k * (p2.y - p1.y), p1.z + k * (p2.z - p1.z)⟩ := by
  have key : ∀ a b : K, |a| ≤ R → |b| ≤ R → |a + k * (b - a)| ≤ R := by
    intro a b ha hb
    have ha := abs_le.1 ha
    have hb := abs_le.1 hb
    rw [abs_le]
    have e : a + k * (b - a) = (1 - k) * a + k * b := by ring
    rw [e]
    have := mul_le_mul_of_nonneg_left ha.1 (sub_nonneg.2 k1)
    have := mul_le_mul_of_nonneg_left ha.2 (sub_nonneg.2 k1)
    have := mul_le_mul_of_nonneg_left hb.1 k0
    have := mul_le_mul_of_nonneg_left hb.2 k0
    constructor <;> linarith
  exact ⟨key _ _ h1.1 h2.1, key _ _ h1.2.1 h2.2.1, key _ _ h1.2.2 h2.2.2⟩

/-- The box of an element that has a point of the segment is not pruned. -/
theorem segment_safe {M : Mesh K} {e : Nat} {p1 p2 X : V K} (hfl : FloatLike M.fl) (hb : NodesBounded M 16384 e)
    (h1 : Bounded (10 ^ 20) p1) (h2 : Bounded (10 ^ 20) p2) (hbox : InNodeBox M e X) (hX : OnSegment 0 p1 p2 X)
    (c : Box K) (hsub : (leafBox M e).Sub c) : segBox p1 p2 c = true := by
  obtain ⟨k, hk0, hk1, rfl⟩ := hX
  rw [neg_zero] at hk0; rw [add_zero] at hk1
  obtain ⟨q1, q2, q3⟩ := segment_bounded h1 h2 hk0 hk1
  let d : K := 16384 / 2 ^ 24 + 1 / 2 ^ 150
  have hd0 : 0 ≤ d := by simp only [d]; norm_num
  have hd1 : d + 1 / 10 ^ 15 ≤ tol := by simp only [d, tol]; norm_num
  have hx := axis_point (q := 0) (f := V.x) (e := e) (d := d)
    (fun n hn => float_error hfl (hb n hn).1) hd0
    (fun hq => hbox V.x (.inl ⟨hq, rfl⟩)) (fun _ => by simpa [big] using q1)
  have hy := axis_point (q := 1) (f := V.y) (e := e) (d := d)
    (fun n hn => float_error hfl (hb n hn).2.1) hd0
    (fun hq => hbox V.y (.inr (.inl ⟨hq, rfl⟩))) (fun _ => by simpa [big] using q2)
  have hz := axis_point (q := 2) (f := V.z) (e := e) (d := d)
    (fun n hn => float_error hfl (hb n hn).2.2) hd0
    (fun hq => hbox V.z (.inr (.inr ⟨hq, rfl⟩))) (fun _ => by simpa [big] using q3)
  obtain ⟨⟨s1, s2⟩, ⟨s3, s4⟩, s5, s6⟩ := hsub
  simp only [leafBox] at s1 s2 s3 s4 s5 s6
  refine segBox_keeps (d := d) hk0 hk1 hd1 ⟨?_, ?_⟩ ⟨?_, ?_⟩ ⟨?_, ?_⟩ <;>
    linarith [hx.1, hx.2, hy.1, hy.2, hz.1, hz.2]

/-- **C68.** Cells are appended to the array of the caller, each once, the marker is released clean.  For
every cell that is appended the segment has a point in common with the surface of an element that was
given to the tree, which is the cell or a face of the cell; up to the tolerances. -/
theorem C68_cells (M : Mesh K) (set out : List Nat) (t : Tree K) (p1 p2 : V K) (ht : Constructed M set t)
    (hlen : set.length < 2 ^ 32) (hk : ∀ e, ¬ (M.isCell e = true ∧ M.isFace e = true))
    (hp : ∀ e ∈ set, Proper M e) : ∃ new, segmentCells M t out p1 p2 = some (out ++ new, fun _ => false) ∧
      new.Nodup ∧ ∀ c ∈ new, ∃ e ∈ set, c ∈ cellsOf M e ∧
        ∃ X, OnSegment (1 / 10 ^ 10) p1 p2 X ∧ OnSurface M (1 / 10 ^ 7) e X := by
  have hperm := ht.perm hlen
  obtain ⟨hits, _, hs, _, ⟨new, e1, d1, i1⟩, _⟩ := intersect_spec M (segBox p1 p2) (segFace M p1 p2) ht.enclosed hk
    (fun e he => (proper_hit (hp e (hperm.subset he)) _ fun f hf => segFace_some hf).1) out
  refine ⟨new, e1, d1, ?_⟩
  intro c hc
  obtain ⟨e, he, hce⟩ := (i1 c).1 hc
  have hes := hperm.subset (hs e he).1
  obtain ⟨f, hf, hf2⟩ := (proper_hit (hp e hes) _ fun f hf => segFace_some hf).2.1 (hs e he).2
  obtain ⟨a, b, hab, htri⟩ := segFace_true.1 hf2
  obtain ⟨X, hX1, hX2⟩ := segTri_sound htri
  exact ⟨e, hes, hce, X, hX1, f, hf, a, b, hab, hX2⟩

/-- **C68.** The same for faces; each face is appended once if the tree was given only cells or only
faces. -/
theorem C68_faces (M : Mesh K) (set out : List Nat) (t : Tree K) (p1 p2 : V K) (ht : Constructed M set t)
    (hlen : set.length < 2 ^ 32) (hk : ∀ e, ¬ (M.isCell e = true ∧ M.isFace e = true))
    (hp : ∀ e ∈ set, Proper M e) : ∃ new, segmentFaces M t out p1 p2 = some (out ++ new, fun _ => false) ∧
      ((∀ e ∈ set, M.isCell e = true) ∨ (∀ e ∈ set, M.isFace e = true) → new.Nodup) ∧
      ∀ c ∈ new, ∃ e ∈ set, c ∈ facesOf M e ∧
        ∃ X, OnSegment (1 / 10 ^ 10) p1 p2 X ∧ OnSurface M (1 / 10 ^ 7) e X := by
  have hperm := ht.perm hlen
  obtain ⟨hits, _, hs, _, _, ⟨new, e1, i1, d1⟩⟩ := intersect_spec M (segBox p1 p2) (segFace M p1 p2) ht.enclosed hk
    (fun e he => (proper_hit (hp e (hperm.subset he)) _ fun f hf => segFace_some hf).1) out
  refine ⟨new, e1, ?_, ?_⟩
  · intro h
    apply d1
    rcases h with h | h
    · left
      intro e he
      have h1 := h e (hperm.subset (hs e he).1)
      cases h2 : M.isFace e
      · rfl
      · exact absurd ⟨h1, h2⟩ (hk e)
    · right
      intro e he
      have h1 := h e (hperm.subset (hs e he).1)
      cases h2 : M.isCell e
      · rfl
      · exact absurd ⟨h2, h1⟩ (hk e)
  · intro c hc
    obtain ⟨e, he, hce⟩ := (i1 c).1 hc
    have hes := hperm.subset (hs e he).1
    obtain ⟨f, hf, hf2⟩ := (proper_hit (hp e hes) _ fun f hf => segFace_some hf).2.1 (hs e he).2
    obtain ⟨a, b, hab, htri⟩ := segFace_true.1 hf2
    obtain ⟨X, hX1, hX2⟩ := segTri_sound htri
    exact ⟨e, hes, hce, X, hX1, f, hf, a, b, hab, hX2⟩

/-- **C68**, for coordinates that do not exceed `16384`: if the segment crosses a triangle of the surface of
an element that was given to the tree, then the cells and the faces of the element are in the arrays.
Missing: segments that lie in the plane of the triangle and tiny triangles, for which it fails, see
`C68_coplanar_fails`; larger coordinates. -/
theorem C68_found_partial (M : Mesh K) (set out : List Nat) (t : Tree K) (p1 p2 : V K) (ht : Constructed M set t)
    (hlen : set.length < 2 ^ 32) (hk : ∀ e, ¬ (M.isCell e = true ∧ M.isFace e = true))
    (hp : ∀ e ∈ set, Proper M e) (hfl : FloatLike M.fl) (hsq : IsSqrt M.sq)
    (hb : ∀ e ∈ set, NodesBounded M 16384 e ∧ SurfaceIn M e)
    (h1 : Bounded (10 ^ 20) p1) (h2 : Bounded (10 ^ 20) p2)
    (e f : Nat) (he : e ∈ set) (hf : f ∈ surface M e) (a b X : V K) (hab : SideOf M f a b)
    (hX : OnSegment 0 p1 p2 X) (hT : InTriangle 0 a b (M.cen f) X) (htr : Transversal a b (M.cen f) p1 p2) :
    (∃ res mrk, segmentCells M t out p1 p2 = some (res, mrk) ∧ ∀ c ∈ cellsOf M e, c ∈ res) ∧
    ∃ res mrk, segmentFaces M t out p1 p2 = some (res, mrk) ∧ ∀ c ∈ facesOf M e, c ∈ res := by
  have hperm := ht.perm hlen
  obtain ⟨hits, _, _, hc, ⟨new, e1, _, i1⟩, ⟨new', e2, i2, _⟩⟩ := intersect_spec M (segBox p1 p2) (segFace M p1 p2)
    ht.enclosed hk (fun e he => (proper_hit (hp e (hperm.subset he)) _ fun f hf => segFace_some hf).1) out
  have hhit : e ∈ hits := by
    refine hc e (hperm.mem_iff.2 he) ?_ ?_
    · refine (proper_hit (hp e he) _ fun f hf => segFace_some hf).2.2 ⟨f, hf, ?_⟩
      exact segFace_true.2 ⟨a, b, hab, segTri_complete hsq htr hX hT⟩
    · exact segment_safe hfl (hb e he).1 h1 h2 (triangle_box (hb e he).2 hf hab hT) hX
  refine ⟨⟨_, _, e1, ?_⟩, _, _, e2, ?_⟩
  · intro c hcc; exact List.mem_append_right _ ((i1 c).2 ⟨e, hhit, hcc⟩)
  · intro c hcc; exact List.mem_append_right _ ((i2 c).2 ⟨e, hhit, hcc⟩)

/-! A segment through the lower face of the tetrahedron. -/

theorem tetra_point : OnSegment 0 (⟨1 / 3, 1 / 4, -1⟩ : V ℝ) ⟨1 / 3, 1 / 4, 1 / 10⟩ ⟨1 / 3, 1 / 4, 0⟩ ∧
    InTriangle 0 ⟨0, 0, 0⟩ ⟨1, 0, 0⟩ (tetraMesh.cen 1) ⟨1 / 3, 1 / 4, 0⟩ := by
  refine ⟨⟨10 / 11, by norm_num, by norm_num, ?_⟩, 1 / 6, 1 / 12, 3 / 4, by norm_num, by norm_num, by norm_num,
    by norm_num, ?_⟩
  · rw [V.ext_iff']; norm_num
  · rw [V.ext_iff']; norm_num [comb, tetraMesh, tetraCen]

theorem tetra_transversal :
    Transversal ⟨0, 0, 0⟩ ⟨1, 0, 0⟩ (tetraMesh.cen 1) (⟨1 / 3, 1 / 4, -1⟩ : V ℝ) ⟨1 / 3, 1 / 4, 1 / 10⟩ := by
  constructor <;> norm_num [dot, cross, sub, tetraMesh, tetraCen]

theorem tetra_ends : Bounded (10 ^ 20) (⟨1 / 3, 1 / 4, -1⟩ : V ℝ) ∧ Bounded (10 ^ 20) (⟨1 / 3, 1 / 4, 1 / 10⟩ : V ℝ) := by
  refine ⟨⟨?_, ?_, ?_⟩, ?_, ?_, ?_⟩ <;> rw [abs_le] <;> norm_num

/-- The hypotheses of `C68_cells`, `C68_faces` and `C68_found_partial` hold for the tree over the cell and
one of its faces. -/
example : ∃ t, Constructed tetraMesh [0, 1] t ∧
    (∃ res mrk, segmentCells tetraMesh t [7] ⟨1 / 3, 1 / 4, -1⟩ ⟨1 / 3, 1 / 4, 1 / 10⟩ = some (res, mrk) ∧ 0 ∈ res) := by
  obtain ⟨t, ht⟩ := build_exists tetraMesh 2 0 [0, 1] rfl (by simp) (by simp)
    (by intro e he; simp at he; rcases he with rfl | rfl <;> simp [tetraMesh])
  refine ⟨t, ht, ?_⟩
  have hle : ∀ e ∈ [0, 1], e ≤ 4 := by decide
  obtain ⟨⟨res, mrk, h1, h2⟩, _⟩ := C68_found_partial tetraMesh [0, 1] [7] t ⟨1 / 3, 1 / 4, -1⟩ ⟨1 / 3, 1 / 4, 1 / 10⟩ ht
    (by simp) tetra_kinds (fun e he => tetra_proper (hle e he)) fl32_floatLike sqrt_isSqrt
    (fun e he => ⟨tetra_bounded (by norm_num) e, tetra_surfaceIn (hle e he)⟩) tetra_ends.1 tetra_ends.2
    0 1 (by simp) (by rw [tetra_surface]; simp) _ _ _ tetra_side tetra_point.1 tetra_point.2 tetra_transversal
  exact ⟨res, mrk, h1, h2 0 (by simp [cellsOf, tetraMesh])⟩

/-- **C68 fails** for faces if the tree was given a cell and its face: the face is appended twice. -/
theorem C68_mixed_fails : ∃ (M : Mesh ℝ) (set : List Nat) (p1 p2 : V ℝ), set.Nodup ∧ FloatLike M.fl ∧
    IsSqrt M.sq ∧ (∀ e ∈ set, Proper M e ∧ NodesBounded M 1 e ∧ SurfaceIn M e) ∧ (∃ t, Constructed M set t) ∧
    ∀ t, Constructed M set t → ∃ new mrk, segmentFaces M t [] p1 p2 = some (new, mrk) ∧ ¬ new.Nodup := by
  have hle : ∀ e ∈ [0, 1], e ≤ 4 := by decide
  refine ⟨tetraMesh, [0, 1], ⟨1 / 3, 1 / 4, -1⟩, ⟨1 / 3, 1 / 4, 1 / 10⟩, by decide, fl32_floatLike, sqrt_isSqrt,
    fun e he => ⟨tetra_proper (hle e he), tetra_bounded le_rfl e, tetra_surfaceIn (hle e he)⟩, ?_, ?_⟩
  · exact build_exists tetraMesh 2 0 [0, 1] rfl (by simp) (by simp)
      (by intro e he; simp at he; rcases he with rfl | rfl <;> simp [tetraMesh])
  · intro t ht
    obtain ⟨b, rfl, hb0, _⟩ := tetra_tree ht
    have hf : segFace tetraMesh ⟨1 / 3, 1 / 4, -1⟩ ⟨1 / 3, 1 / 4, 1 / 10⟩ 1 = some true :=
      segFace_true.2 ⟨_, _, tetra_side, segTri_complete sqrt_isSqrt tetra_transversal tetra_point.1 tetra_point.2⟩
    have hhit : ∀ e ∈ [0, 1], hitTest tetraMesh (segFace tetraMesh ⟨1 / 3, 1 / 4, -1⟩ ⟨1 / 3, 1 / 4, 1 / 10⟩) e = some true := by
      intro e he
      refine (proper_hit (tetra_proper (hle e he)) _ fun f hf => segFace_some hf).2.2 ⟨1, ?_, hf⟩
      rw [tetra_surface]
      simp at he
      rcases he with rfl | rfl <;> simp
    have h0 := hhit 0 (by simp)
    have h1 := hhit 1 (by simp)
    have hbox : segBox (⟨1 / 3, 1 / 4, -1⟩ : V ℝ) ⟨1 / 3, 1 / 4, 1 / 10⟩ b = true :=
      segment_safe fl32_floatLike (tetra_bounded (by norm_num) 0) tetra_ends.1 tetra_ends.2
        (triangle_box (tetra_surfaceIn (by omega)) (by rw [tetra_surface]; simp) tetra_side tetra_point.2)
        tetra_point.1 b hb0
    have hrun : (segmentFaces tetraMesh (.node b (.leaf 0 (leafBox tetraMesh 0)) (.leaf 1 (leafBox tetraMesh 1))) []
        ⟨1 / 3, 1 / 4, -1⟩ ⟨1 / 3, 1 / 4, 1 / 10⟩).map Prod.fst = some [1, 2, 3, 4, 1] := by
      simp only [segmentFaces, intersect, collect, hbox, h0, h1]
      simp [toFaces, tetraMesh, pushNew, unmark]
    obtain ⟨⟨new, mrk⟩, h2, h3⟩ := Option.map_eq_some_iff.1 hrun
    have h3 : new = [1, 2, 3, 4, 1] := h3
    refine ⟨new, mrk, h2, ?_⟩
    rw [h3]; decide

/-- **C68 fails** for segments in the plane of a face: even one that runs through the middle of the only face
is not found. -/
theorem C68_coplanar_fails : ∃ (M : Mesh ℝ) (f : Nat) (p1 p2 : V ℝ), FloatLike M.fl ∧ IsSqrt M.sq ∧
    Proper M f ∧ NodesBounded M 1 f ∧ SurfaceIn M f ∧ (∃ X, OnSegment 0 p1 p2 X ∧ OnSurface M 0 f X) ∧
    (∃ t, Constructed M [f] t) ∧
    ∀ t, Constructed M [f] t → ∃ mrk, segmentFaces M t [] p1 p2 = some ([], mrk) := by
  refine ⟨tetraMesh, 1, ⟨-1, 1 / 4, 0⟩, ⟨1, 1 / 4, 0⟩, fl32_floatLike, sqrt_isSqrt, tetra_proper (by omega),
    tetra_bounded le_rfl 1, tetra_surfaceIn (by omega), ?_, ?_, ?_⟩
  · refine ⟨⟨1 / 3, 1 / 4, 0⟩, ⟨2 / 3, by norm_num, by norm_num, ?_⟩, 1, by rw [tetra_surface]; simp, _, _, tetra_side,
      tetra_point.2⟩
    rw [V.ext_iff']; norm_num
  · exact build_exists tetraMesh 1 0 [1] rfl (by simp) (by simp)
      (by intro e he; simp at he; subst he; simp [tetraMesh])
  · intro t ht
    have ht' : t = .leaf 1 (leafBox tetraMesh 1) := by
      unfold Constructed at ht
      generalize hz : [1] = z at ht
      cases ht with
      | leaf => cases hz; rfl
      | node h => subst hz; simp at h
    subst ht'
    have hf : segFace tetraMesh ⟨-1, 1 / 4, 0⟩ ⟨1, 1 / 4, 0⟩ 1 = some false := by
      have hp := tetra_proper (e := 1) (by omega)
      have hne := segFace_some (M := tetraMesh) (p1 := ⟨-1, 1 / 4, 0⟩) (p2 := ⟨1, 1 / 4, 0⟩)
        (hp.2.2 1 (by rw [tetra_surface]; simp))
      cases hv : segFace tetraMesh ⟨-1, 1 / 4, 0⟩ ⟨1, 1 / 4, 0⟩ 1 with
      | none => exact absurd hv hne
      | some v =>
        cases v
        · rfl
        · exfalso
          obtain ⟨a, b, hab, htri⟩ := segFace_true.1 hv
          have hz : ∀ n ∈ tetraFace 1, (tetraNode n).z = 0 := by
            intro n hn
            simp [tetraFace] at hn
            rcases hn with rfl | rfl | rfl <;> rfl
          obtain ⟨⟨na, hna, ea⟩, nb, hnb, eb⟩ := sideOf_nodes hab
          have za : a.z = 0 := by rw [ea]; exact hz na hna
          have zb : b.z = 0 := by rw [eb]; exact hz nb hnb
          have zc : (tetraMesh.cen 1).z = 0 := rfl
          simp only [segTri] at htri
          obtain ⟨c, _, hu⟩ := unit_eq tetraMesh.sq (cross (sub a (tetraMesh.cen 1)) (sub b (tetraMesh.cen 1)))
          rw [hu, if_pos] at htri
          · cases htri
          · simp [dot, smul, cross, sub, za, zb, zc]
    have hh : hitTest tetraMesh (segFace tetraMesh ⟨-1, 1 / 4, 0⟩ ⟨1, 1 / 4, 0⟩) 1 = some false := by
      simpa [hitTest, tetraMesh] using hf
    simp only [segmentFaces, intersect, collect, hh]
    exact ⟨_, rfl⟩

end Verif.Search
