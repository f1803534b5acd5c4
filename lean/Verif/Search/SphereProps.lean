import Verif.Search.SphereLemmas
import Verif.Search.SegProps

/-!
# C69: search of the elements near a point

`SearchKDTree::IntersectSphere(cells,p,r)` and `IntersectSphere(faces,p,r)`.
-/

namespace Verif.Search

variable {K : Type} [Field K] [LinearOrder K] [IsStrictOrderedRing K]

/-- The triangles of the face, its centroid and two consecutive nodes, have positive area. -/
def FacesProper (M : Mesh K) (e : Nat) : Prop :=
  ∀ f ∈ surface M e, ∀ a b, SideOf M f a b → cross (sub b a) (sub (M.cen f) a) ≠ ⟨0, 0, 0⟩

theorem sphFace_some {M : Mesh K} {p : V K} {r : K} {f : Nat} (h : M.faceNodes f ≠ []) : sphFace M p r f ≠ none := by
  rw [sphFace, if_neg h]; simp

theorem sphFace_true {M : Mesh K} {p : V K} {r : K} {f : Nat} :
    sphFace M p r f = some true ↔ ∃ a b, SideOf M f a b ∧ triDist M.sq a b (M.cen f) p ≤ r := by
  rw [sphFace]
  by_cases h : M.faceNodes f = []
  · rw [if_pos h]
    simp only [reduceCtorEq, false_iff, not_exists]
    rintro a b ⟨⟨i, j, hi, _⟩, _⟩
    rw [h] at hi; simp at hi
  · rw [if_neg h, Option.some.injEq, List.any_eq_true]
    constructor
    · rintro ⟨t, ht, h⟩; exact ⟨t.1, t.2, mem_faceTris.1 ht, by simpa using h⟩
    · rintro ⟨a, b, hs, h⟩; exact ⟨(a, b), mem_faceTris.2 hs, by simpa using h⟩

/-- An element is hit if a point of its surface is not farther from `p` than `r`. -/
theorem sphere_hit {M : Mesh K} {e : Nat} (hp : Proper M e) (hsq : IsSqrt M.sq) (hF : FacesProper M e) {p : V K} {r : K} :
    hitTest M (sphFace M p r) e = some true ↔ 0 ≤ r ∧ ∃ X, OnSurface M 0 e X ∧ dist2 X p ≤ r * r := by
  rw [(proper_hit hp _ fun f hf => sphFace_some hf).2]
  constructor
  · rintro ⟨f, hf, h⟩
    obtain ⟨a, b, hab, htri⟩ := sphFace_true.1 h
    obtain ⟨h0, X, hX, hr⟩ := (triDist_le hsq (hF f hf a b hab)).1 htri
    exact ⟨h0, X, ⟨f, hf, a, b, hab, hX⟩, hr⟩
  · rintro ⟨h0, X, ⟨f, hf, a, b, hab, hX⟩, hr⟩
    exact ⟨f, hf, sphFace_true.2 ⟨a, b, hab, (triDist_le hsq (hF f hf a b hab)).2 ⟨h0, X, hX, hr⟩⟩⟩

/-- The closest point of an interval is not farther than a point that is at most `d` outside. -/
theorem clamp_near {lo hi p x d : K} (hd : 0 ≤ d) (h1 : lo - d ≤ x) (h2 : x ≤ hi + d) :
    |clamp lo hi p - p| ≤ |x - p| + d := by
  have := le_abs_self (x - p)
  have := neg_le_abs (x - p)
  simp only [clamp]
  split
  · rw [abs_of_pos (by linarith)]; linarith
  · split
    · rw [abs_of_neg (by linarith)]; linarith
    · rw [sub_self, abs_zero]; linarith

/-- The box is not pruned if it is at most `d` away from a point that is `2 d` inside of the sphere. -/
theorem bboxSphere_keeps {sq : K → K} (hsq : IsSqrt sq) {p X : V K} {r d : K} {b : Box K} (hd : 0 ≤ d) (hdr : 2 * d ≤ r)
    (hX : dist2 X p ≤ (r - 2 * d) * (r - 2 * d))
    (hx : b.lo.x - d ≤ X.x ∧ X.x ≤ b.hi.x + d) (hy : b.lo.y - d ≤ X.y ∧ X.y ≤ b.hi.y + d)
    (hz : b.lo.z - d ≤ X.z ∧ X.z ≤ b.hi.z + d) : bboxSphere sq p r b = true := by
  simp only [bboxSphere]
  rw [decide_eq_true_eq, distance_le hsq]
  refine ⟨by linarith, ?_⟩
  have cx := clamp_near (p := p.x) hd hx.1 hx.2
  have cy := clamp_near (p := p.y) hd hy.1 hy.2
  have cz := clamp_near (p := p.z) hd hz.1 hz.2
  simp only [dist2] at hX ⊢
  have sqr : ∀ u v : K, |u| ≤ |v| + d → u * u ≤ |v| * |v| + 2 * d * |v| + d * d := by
    intro u v h
    rw [← abs_mul_abs_self u]
    have := mul_le_mul h h (abs_nonneg _) (by have := abs_nonneg v; linarith)
    linarith
  have sx := sqr _ _ cx
  have sy := sqr _ _ cy
  have sz := sqr _ _ cz
  rw [← abs_mul_abs_self (X.x - p.x), ← abs_mul_abs_self (X.y - p.y), ← abs_mul_abs_self (X.z - p.z)] at hX
  generalize |X.x - p.x| = u at *
  generalize |X.y - p.y| = v at *
  generalize |X.z - p.z| = w at *
  have hsum : u + v + w ≤ 2 * (r - 2 * d) := by
    have h0 : 0 ≤ 2 * (r - 2 * d) := by linarith
    apply le_of_sq_le_sq _ h0
    nlinarith [mul_self_nonneg (u - v), mul_self_nonneg (v - w), mul_self_nonneg (u - w), mul_self_nonneg (r - 2 * d)]
  have := mul_le_mul_of_nonneg_left hsum hd
  nlinarith

/-- The box of an element that has a point well inside of the sphere is not pruned. -/
theorem sphere_safe {M : Mesh K} {e : Nat} {p X : V K} {r d : K} (hsq : IsSqrt M.sq) (hd : 0 ≤ d) (hdr : 2 * d ≤ r)
    (hb : ∀ n, NodeOf M e n → ∀ g : V K → K, Coordinate M g → |M.fl (g (M.coord n)) - g (M.coord n)| ≤ d)
    (hbox : InNodeBox M e X) (hXb : Bounded (10 ^ 20) X) (hX : dist2 X p ≤ (r - 2 * d) * (r - 2 * d))
    (c : Box K) (hsub : (leafBox M e).Sub c) : bboxSphere M.sq p r c = true := by
  have ax : ∀ (q : Nat) (f : V K → K), (q < M.dims → Coordinate M f) → |f X| ≤ 10 ^ 20 →
      (axis M q f (usedNodes M e)).1 - d ≤ f X ∧ f X ≤ (axis M q f (usedNodes M e)).2 + d := by
    intro q f hf hfX
    by_cases hq : q < M.dims
    · exact axis_point (fun n hn => hb n hn f (hf hq)) hd (fun _ => hbox f (hf hq)) (fun h => absurd hq h)
    · simp only [axis, if_neg hq, big]
      have := abs_le.1 hfX
      constructor <;> linarith
  have hx := ax 0 V.x (fun h => .inl ⟨h, rfl⟩) hXb.1
  have hy := ax 1 V.y (fun h => .inr (.inl ⟨h, rfl⟩)) hXb.2.1
  have hz := ax 2 V.z (fun h => .inr (.inr ⟨h, rfl⟩)) hXb.2.2
  obtain ⟨⟨s1, s2⟩, ⟨s3, s4⟩, s5, s6⟩ := hsub
  simp only [leafBox] at s1 s2 s3 s4 s5 s6
  refine bboxSphere_keeps hsq hd hdr hX ⟨?_, ?_⟩ ⟨?_, ?_⟩ ⟨?_, ?_⟩ <;>
    linarith [hx.1, hx.2, hy.1, hy.2, hz.1, hz.2]

/-- **C69.** Cells are appended to the array of the caller, each once, the marker is released clean.  Every
cell that is appended is, or has as a face, an element given to the tree, a point of the surface of which
is not farther from the centre than the radius. -/
theorem C69_cells_partial (M : Mesh K) (set out : List Nat) (t : Tree K) (p : V K) (r : K) (ht : Constructed M set t)
    (hlen : set.length < 2 ^ 32) (hk : ∀ e, ¬ (M.isCell e = true ∧ M.isFace e = true))
    (hp : ∀ e ∈ set, Proper M e ∧ FacesProper M e) (hsq : IsSqrt M.sq) :
    ∃ new, sphereCells M t out p r = some (out ++ new, fun _ => false) ∧
      new.Nodup ∧ ∀ c ∈ new, ∃ e ∈ set, c ∈ cellsOf M e ∧ 0 ≤ r ∧ ∃ X, OnSurface M 0 e X ∧ dist2 X p ≤ r * r := by
  have hperm := ht.perm hlen
  obtain ⟨hits, _, hs, _, ⟨new, e1, d1, i1⟩, _⟩ := intersect_spec M (bboxSphere M.sq p r) (sphFace M p r) ht.enclosed hk
    (fun e he => (proper_hit (hp e (hperm.subset he)).1 _ fun f hf => sphFace_some hf).1) out
  refine ⟨new, e1, d1, ?_⟩
  intro c hc
  obtain ⟨e, he, hce⟩ := (i1 c).1 hc
  have hes := hperm.subset (hs e he).1
  exact ⟨e, hes, hce, (sphere_hit (hp e hes).1 hsq (hp e hes).2).1 (hs e he).2⟩

/-- **C69.** The same for faces; each face is appended once if the tree was given only cells or only
faces. -/
theorem C69_faces_partial (M : Mesh K) (set out : List Nat) (t : Tree K) (p : V K) (r : K) (ht : Constructed M set t)
    (hlen : set.length < 2 ^ 32) (hk : ∀ e, ¬ (M.isCell e = true ∧ M.isFace e = true))
    (hp : ∀ e ∈ set, Proper M e ∧ FacesProper M e) (hsq : IsSqrt M.sq) :
    ∃ new, sphereFaces M t out p r = some (out ++ new, fun _ => false) ∧
      ((∀ e ∈ set, M.isCell e = true) ∨ (∀ e ∈ set, M.isFace e = true) → new.Nodup) ∧
      ∀ c ∈ new, ∃ e ∈ set, c ∈ facesOf M e ∧ 0 ≤ r ∧ ∃ X, OnSurface M 0 e X ∧ dist2 X p ≤ r * r := by
  have hperm := ht.perm hlen
  obtain ⟨hits, _, hs, _, _, ⟨new, e1, i1, d1⟩⟩ := intersect_spec M (bboxSphere M.sq p r) (sphFace M p r) ht.enclosed hk
    (fun e he => (proper_hit (hp e (hperm.subset he)).1 _ fun f hf => sphFace_some hf).1) out
  refine ⟨new, e1, ?_, ?_⟩
  · intro h
    apply d1
    rcases h with h | h
    · left
      intro e he
      have h1 := h e (hperm.subset (hs e he).1)
      cases h2 : M.isFace e
      · rfl
      · exact absurd ⟨h1, h2⟩ (hk e)
    · right
      intro e he
      have h1 := h e (hperm.subset (hs e he).1)
      cases h2 : M.isCell e
      · rfl
      · exact absurd ⟨h2, h1⟩ (hk e)
  · intro c hc
    obtain ⟨e, he, hce⟩ := (i1 c).1 hc
    have hes := hperm.subset (hs e he).1
    exact ⟨e, hes, hce, (sphere_hit (hp e hes).1 hsq (hp e hes).2).1 (hs e he).2⟩

/-- **C69**, up to rounding: let `d` bound the error of the conversion of the coordinates of the nodes to
`float`.  The cells and the faces of an element that has a point of its surface within `r - 2 d` of the
centre are in the arrays.  Missing: points between `r - 2 d` and `r`, for which it fails, see
`C69_float_fails`.  With coordinates that are representable, `d = 0`. -/
theorem C69_found_partial (M : Mesh K) (set out : List Nat) (t : Tree K) (p : V K) (r d : K) (ht : Constructed M set t)
    (hlen : set.length < 2 ^ 32) (hk : ∀ e, ¬ (M.isCell e = true ∧ M.isFace e = true))
    (hp : ∀ e ∈ set, Proper M e ∧ FacesProper M e ∧ SurfaceIn M e) (hsq : IsSqrt M.sq) (hd : 0 ≤ d) (hdr : 2 * d ≤ r)
    (hb : ∀ e ∈ set, ∀ n, NodeOf M e n → ∀ g : V K → K, Coordinate M g → |M.fl (g (M.coord n)) - g (M.coord n)| ≤ d)
    (e : Nat) (he : e ∈ set) (X : V K) (hS : OnSurface M 0 e X) (hXb : Bounded (10 ^ 20) X)
    (hX : dist2 X p ≤ (r - 2 * d) * (r - 2 * d)) :
    (∃ res mrk, sphereCells M t out p r = some (res, mrk) ∧ ∀ c ∈ cellsOf M e, c ∈ res) ∧
    ∃ res mrk, sphereFaces M t out p r = some (res, mrk) ∧ ∀ c ∈ facesOf M e, c ∈ res := by
  have hperm := ht.perm hlen
  obtain ⟨hits, _, _, hc, ⟨new, e1, _, i1⟩, ⟨new', e2, i2, _⟩⟩ := intersect_spec M (bboxSphere M.sq p r) (sphFace M p r)
    ht.enclosed hk (fun e he => (proper_hit (hp e (hperm.subset he)).1 _ fun f hf => sphFace_some hf).1) out
  have hhit : e ∈ hits := by
    refine hc e (hperm.mem_iff.2 he) ?_ ?_
    · refine (sphere_hit (hp e he).1 hsq (hp e he).2.1).2 ⟨by linarith, X, hS, le_trans hX ?_⟩
      have : 0 ≤ d * (r - d) := mul_nonneg hd (by linarith)
      linarith
    · obtain ⟨f, hf, a, b, hab, hT⟩ := hS
      exact sphere_safe hsq hd hdr (hb e he) (triangle_box (hp e he).2.2 hf hab hT) hXb hX
  refine ⟨⟨_, _, e1, ?_⟩, _, _, e2, ?_⟩
  · intro c hcc; exact List.mem_append_right _ ((i1 c).2 ⟨e, hhit, hcc⟩)
  · intro c hcc; exact List.mem_append_right _ ((i2 c).2 ⟨e, hhit, hcc⟩)

/-! A sphere under the lower face of the tetrahedron. -/

theorem tetra_facesProper {e : Nat} (h : e ≤ 4) : FacesProper tetraMesh e := by
  intro f hf a b hab
  have hfe : 1 ≤ f ∧ f ≤ 4 := by
    rw [tetra_surface] at hf
    by_cases h0 : e = 0
    · rw [if_pos h0] at hf; simp at hf; omega
    · rw [if_neg h0, List.mem_singleton] at hf; omega
  obtain ⟨h1, h2⟩ := hfe
  have hm := (mem_faceTris (t := (a, b))).2 hab
  intro hc
  rw [V.ext_iff'] at hc
  interval_cases f <;> simp [faceTris, tetraMesh, tetraFace, tetraNode] at hm <;>
    rcases hm with ⟨rfl, rfl⟩ | ⟨rfl, rfl⟩ | ⟨rfl, rfl⟩ <;>
    norm_num [cross, sub, tetraMesh, tetraCen] at hc

/-- The hypotheses of `C69_cells_partial`, `C69_faces_partial` and `C69_found_partial` hold for the tree over
the cell and one of its faces, with the conversion to `float`. -/
example : ∃ t, Constructed tetraMesh [0, 1] t ∧
    (∃ res mrk, sphereCells tetraMesh t [7] ⟨1 / 3, 1 / 4, -1 / 10⟩ (1 / 5) = some (res, mrk) ∧ 0 ∈ res) := by
  obtain ⟨t, ht⟩ := build_exists tetraMesh 2 0 [0, 1] rfl (by simp) (by simp)
    (by intro e he; simp at he; rcases he with rfl | rfl <;> simp [tetraMesh])
  refine ⟨t, ht, ?_⟩
  have hle : ∀ e ∈ [0, 1], e ≤ 4 := by decide
  obtain ⟨⟨res, mrk, h1, h2⟩, _⟩ := C69_found_partial tetraMesh [0, 1] [7] t ⟨1 / 3, 1 / 4, -1 / 10⟩ (1 / 5)
    (1 / 2 ^ 24 + 1 / 2 ^ 150) ht (by simp) tetra_kinds
    (fun e he => ⟨tetra_proper (hle e he), tetra_facesProper (hle e he), tetra_surfaceIn (hle e he)⟩) sqrt_isSqrt
    (by norm_num) (by norm_num)
    (by
      intro e he n hn g hg
      refine float_error fl32_floatLike ?_
      have hb := tetra_bounded le_rfl e n hn
      rcases hg with ⟨_, rfl⟩ | ⟨_, rfl⟩ | ⟨_, rfl⟩
      · exact hb.1
      · exact hb.2.1
      · exact hb.2.2)
    0 (by simp) ⟨1 / 3, 1 / 4, 0⟩ ⟨1, by rw [tetra_surface]; simp, _, _, tetra_side, tetra_point.2⟩
    (by refine ⟨?_, ?_, ?_⟩ <;> rw [abs_le] <;> norm_num) (by norm_num [dist2])
  exact ⟨res, mrk, h1, h2 0 (by simp [cellsOf, tetraMesh])⟩

/-! ## An L-shaped face

The mean of the nodes, which is the centroid, is the node at the inner corner. -/

def ellNode : Nat → V ℝ
  | 0 => ⟨0, 0, 0⟩
  | 1 => ⟨2, 0, 0⟩
  | 2 => ⟨2, 1, 0⟩
  | 3 => ⟨1, 1, 0⟩
  | 4 => ⟨1, 2, 0⟩
  | _ => ⟨0, 2, 0⟩

/-- One face with six nodes. -/
noncomputable def ell : Mesh ℝ where
  fl := fl32
  sq := Real.sqrt
  dims := 3
  isCell _ := false
  isFace _ := true
  gdim _ := 2
  modif := false
  hidden _ := false
  new _ := false
  nodes _ := [0, 1, 2, 3, 4, 5]
  coord := ellNode
  key _ _ := 0
  cen _ := ⟨(0 + 2 + 2 + 1 + 1 + 0) / 6, (0 + 0 + 1 + 1 + 2 + 2) / 6, 0⟩
  faceNodes _ := [0, 1, 2, 3, 4, 5]
  cellFaces _ := []
  faceCells _ := []
  inside _ _ := false
  insideOld _ _ := false

/-- **C69 fails** for faces that are not convex: the L-shaped face, which lies within a distance of two from
the origin, is reported for a sphere of radius one with the centre at a distance of a hundred. -/
theorem C69_degenerate_fails : ∃ (M : Mesh ℝ) (f : Nat) (p : V ℝ), FloatLike M.fl ∧ IsSqrt M.sq ∧ Proper M f ∧
    NodesBounded M 2 f ∧ SurfaceIn M f ∧ (∃ t, Constructed M [f] t) ∧
    (∀ X, OnSurface M 0 f X → 98 * 98 ≤ dist2 X p) ∧
    ∀ t, Constructed M [f] t → ∃ mrk, sphereFaces M t [] p 1 = some ([f], mrk) := by
  refine ⟨ell, 0, ⟨100, 1, 0⟩, fl32_floatLike, sqrt_isSqrt, ?_, ?_, ?_, ?_, ?_, ?_⟩
  · exact ⟨.inr ⟨rfl, rfl⟩, .inl rfl, by simp [ell]⟩
  · intro n _
    have : ∀ n, Bounded 2 (ellNode n) := by
      intro n
      unfold ellNode
      split <;> (refine ⟨?_, ?_, ?_⟩ <;> simp)
    exact this n
  · intro f hf
    refine ⟨fun n hn => ⟨hn, by simp [ell]⟩, ?_⟩
    have nd : ∀ n, n ∈ [0, 1, 2, 3, 4, 5] → NodeOf ell 0 n := fun n hn => ⟨hn, by simp [ell]⟩
    intro g hg
    rcases hg with ⟨_, rfl⟩ | ⟨_, rfl⟩ | ⟨_, rfl⟩ <;>
      exact ⟨⟨0, nd 0 (by simp), by norm_num [ell, ellNode]⟩, 3, nd 3 (by simp), by norm_num [ell, ellNode]⟩
  · exact build_exists ell 1 0 [0] rfl (by simp) (by simp) (by intro e he; rfl)
  · rintro X ⟨f, hf, a, b, hab, u, v, w, hu, hv, hw, hs, rfl⟩
    rw [neg_zero] at hu hv hw
    obtain ⟨⟨na, _, ea⟩, nb, _, eb⟩ := sideOf_nodes hab
    have hle : ∀ n, (ellNode n).x ≤ 2 := by
      intro n
      unfold ellNode
      split <;> norm_num
    have ha : a.x ≤ 2 := by rw [ea]; exact hle na
    have hb : b.x ≤ 2 := by rw [eb]; exact hle nb
    have hc : (ell.cen f).x ≤ 2 := by norm_num [ell]
    have hx : (comb u v w a b (ell.cen f)).x ≤ 2 := by
      simp only [comb]
      have := mul_le_mul_of_nonneg_left ha hu
      have := mul_le_mul_of_nonneg_left hb hv
      have := mul_le_mul_of_nonneg_left hc hw
      have : u * 2 + v * 2 + w * 2 = 2 := by linear_combination 2 * hs
      linarith
    generalize comb u v w a b (ell.cen f) = X at hx
    simp only [dist2]
    have := mul_self_nonneg (X.y - 1)
    have := mul_self_nonneg (X.z - 0)
    nlinarith
  · intro t ht
    have ht' : t = .leaf 0 (leafBox ell 0) := by
      unfold Constructed at ht
      generalize hz : [0] = z at ht
      cases ht with
      | leaf => cases hz; rfl
      | node h => subst hz; simp at h
    subst ht'
    have hs : SideOf ell 0 ⟨2, 1, 0⟩ ⟨1, 1, 0⟩ := ⟨2, 3, by simp [ell], rfl, rfl, rfl⟩
    have hf : sphFace ell ⟨100, 1, 0⟩ 1 0 = some true := by
      refine sphFace_true.2 ⟨_, _, hs, ?_⟩
      have e : triDist ell.sq ⟨2, 1, 0⟩ ⟨1, 1, 0⟩ (ell.cen 0) ⟨100, 1, 0⟩ = 0 := by
        norm_num [triDist, ell, unit, dot, triQ]
      rw [e]; norm_num
    have hh : hitTest ell (sphFace ell ⟨100, 1, 0⟩ 1) 0 = some true := by
      simpa [hitTest, ell] using hf
    simp only [sphereFaces, intersect, collect, hh]
    exact ⟨_, rfl⟩

/-! ## Coordinates that are not representable -/

/-- A tree over elements whose boxes begin after `x` begins after `x`. -/
theorem Build.le_lo {M : Mesh K} {dim : Nat} {set : List Nat} {t : Tree K} (h : Build M dim set t)
    (hl : set.length < 2 ^ 32) {x : K} (hx : ∀ e ∈ set, x ≤ (leafBox M e).lo.x) : x ≤ t.box.lo.x := by
  induction h with
  | leaf _ => exact hx _ (by simp)
  | @node dim set set' l r h1 h2 _ _ ih1 ih2 =>
    have hp := (sorted_spec hl h2).1
    have hlen := hp.length_eq
    simp only [Tree.box, merge]
    refine le_min (ih1 (by rw [List.length_take]; omega) ?_) (ih2 (by rw [List.length_drop]; omega) ?_)
    · intro e he; exact hx e (hp.subset (List.mem_of_mem_take he))
    · intro e he; exact hx e (hp.subset (List.mem_of_mem_drop he))

theorem fl32_third : (fl32 (1 / 3 : ℝ)) = 11184811 / 33554432 := by
  have hl : Int.log 2 |(1 / 3 : ℝ)| = -2 := by
    have hp : |(1 / 3 : ℝ)| = 1 / 3 := abs_of_pos (by norm_num)
    rw [hp]
    apply le_antisymm
    · have := (Int.lt_zpow_iff_log_lt (b := 2) (by norm_num) (r := (1 / 3 : ℝ)) (x := -1) (by norm_num)).1 (by norm_num [zpow_neg])
      omega
    · exact (Int.zpow_le_iff_le_log (b := 2) (by norm_num) (r := (1 / 3 : ℝ)) (x := -2) (by norm_num)).1 (by norm_num [zpow_neg])
  have hu : (2 : ℝ) ^ (max (-2 : ℤ) (-126) - 23) = 1 / 33554432 := by norm_num [zpow_neg]
  simp only [fl32, hl, hu]
  have hfl : ⌊(1 / 3 / (1 / 33554432) : ℝ)⌋ = 11184810 := by
    rw [Int.floor_eq_iff]; norm_num
  simp only [roundEven, hfl]
  norm_num

/-- Face `e` is a triangle in the plane `x = 1/3`. -/
noncomputable def walls : Mesh ℝ where
  fl := fl32
  sq := Real.sqrt
  dims := 3
  isCell _ := false
  isFace _ := true
  gdim _ := 2
  modif := false
  hidden _ := false
  new _ := false
  nodes e := [3 * e, 3 * e + 1, 3 * e + 2]
  coord n := ⟨1 / 3, if n % 3 = 1 then 3 else 0, if n % 3 = 2 then 3 else 0⟩
  key _ _ := 0
  cen _ := ⟨1 / 3, 1, 1⟩
  faceNodes e := [3 * e, 3 * e + 1, 3 * e + 2]
  cellFaces _ := []
  faceCells _ := []
  inside _ _ := false
  insideOld _ _ := false

/-- **C69 fails** for coordinates that are not representable in `float`, the boxes are not widened: the centre
of the sphere is the centroid of all the faces, and none is found. -/
theorem C69_float_fails : ∃ (M : Mesh ℝ) (set : List Nat) (p : V ℝ) (r : ℝ), M.fl = fl32 ∧ IsSqrt M.sq ∧ 0 < r ∧
    (∀ e ∈ set, Proper M e ∧ FacesProper M e ∧ SurfaceIn M e ∧ NodesBounded M 3 e ∧ OnSurface M 0 e p) ∧
    (∃ t, Constructed M set t) ∧ ∀ t, Constructed M set t → ∃ mrk, sphereFaces M t [] p r = some ([], mrk) := by
  refine ⟨walls, [0, 1], ⟨1 / 3, 1, 1⟩, 1 / 10 ^ 9, rfl, sqrt_isSqrt, by norm_num, ?_, ?_, ?_⟩
  · intro e _
    have nd : ∀ n, n ∈ [3 * e, 3 * e + 1, 3 * e + 2] → NodeOf walls e n := fun n hn => ⟨hn, by simp [walls]⟩
    have c0 : walls.coord (3 * e) = ⟨1 / 3, 0, 0⟩ := by simp [walls]
    have c1 : walls.coord (3 * e + 1) = ⟨1 / 3, 3, 0⟩ := by simp [walls, Nat.mul_add_mod]
    have c2 : walls.coord (3 * e + 2) = ⟨1 / 3, 0, 3⟩ := by simp [walls, Nat.mul_add_mod]
    have hsurf : surface walls e = [e] := rfl
    refine ⟨⟨.inr ⟨rfl, rfl⟩, .inl rfl, by simp [walls]⟩, ?_, ?_, ?_, ?_⟩
    · intro f hf a b hab
      rw [hsurf, List.mem_singleton] at hf
      subst hf
      have hm := (mem_faceTris (t := (a, b))).2 hab
      have hfn : walls.faceNodes f = [3 * f, 3 * f + 1, 3 * f + 2] := rfl
      intro hc
      rw [V.ext_iff'] at hc
      simp only [faceTris, hfn, List.map_cons, List.map_nil, c0, c1, c2] at hm
      simp at hm
      rcases hm with ⟨rfl, rfl⟩ | ⟨rfl, rfl⟩ | ⟨rfl, rfl⟩ <;> norm_num [cross, sub, walls] at hc
    · intro f hf
      rw [hsurf, List.mem_singleton] at hf
      subst hf
      refine ⟨fun n hn => nd n hn, ?_⟩
      intro g hg
      rcases hg with ⟨_, rfl⟩ | ⟨_, rfl⟩ | ⟨_, rfl⟩
      · exact ⟨⟨_, nd (3 * f) (by simp), by rw [c0]; norm_num [walls]⟩, _, nd (3 * f) (by simp), by rw [c0]; norm_num [walls]⟩
      · exact ⟨⟨_, nd (3 * f) (by simp), by rw [c0]; norm_num [walls]⟩, _, nd (3 * f + 1) (by simp), by rw [c1]; norm_num [walls]⟩
      · exact ⟨⟨_, nd (3 * f) (by simp), by rw [c0]; norm_num [walls]⟩, _, nd (3 * f + 2) (by simp), by rw [c2]; norm_num [walls]⟩
    · intro n _
      simp only [walls]
      refine ⟨?_, ?_, ?_⟩
      · rw [abs_le]; norm_num
      · dsimp only; split <;> simp
      · dsimp only; split <;> simp
    · refine ⟨e, by rw [hsurf]; simp, _, _, ⟨0, 1, by simp [walls], by simp [walls], rfl, rfl⟩, 0, 0, 1, by simp, by simp, by simp,
        by simp, ?_⟩
      rw [V.ext_iff']; simp [comb, walls]
  · exact build_exists walls 2 0 [0, 1] rfl (by simp) (by simp) (by intro e he; rfl)
  · intro t ht
    have h1 := Build.le_lo ht (by simp) (x := 11184811 / 33554432) (by
      intro e _
      have hn : usedNodes walls e = [3 * e, 3 * e + 1, 3 * e + 2] := rfl
      have hd : (0 : Nat) < walls.dims := by decide
      have hf : ∀ n, walls.fl (walls.coord n).x = 11184811 / 33554432 := fun n => fl32_third
      simp only [leafBox, axis, if_pos hd, hn, List.foldl_cons, List.foldl_nil, hf]
      norm_num [big])
    have h2 : ∃ b l r, t = .node b l r := by
      unfold Constructed at ht
      generalize hz : [0, 1] = z at ht
      cases ht with
      | leaf => cases hz
      | node => exact ⟨_, _, _, rfl⟩
    obtain ⟨b, l, r, rfl⟩ := h2
    simp only [Tree.box] at h1
    have hb : bboxSphere walls.sq (⟨1 / 3, 1, 1⟩ : V ℝ) (1 / 10 ^ 9) b = false := by
      rw [Bool.eq_false_iff]
      intro hc
      simp only [bboxSphere] at hc
      rw [decide_eq_true_eq, distance_le (show IsSqrt walls.sq from sqrt_isSqrt)] at hc
      obtain ⟨_, hc⟩ := hc
      simp only [dist2, clamp] at hc
      rw [if_pos (show (1 / 3 : ℝ) < b.lo.x by norm_num at h1 ⊢; linarith)] at hc
      have q1 := mul_self_nonneg ((if (1 : ℝ) < b.lo.y then b.lo.y else if (1 : ℝ) > b.hi.y then b.hi.y else 1) - 1)
      have q2 := mul_self_nonneg ((if (1 : ℝ) < b.lo.z then b.lo.z else if (1 : ℝ) > b.hi.z then b.hi.z else 1) - 1)
      have q3 : (9 / 10 ^ 9 : ℝ) ≤ b.lo.x - 1 / 3 := by norm_num at h1 ⊢; linarith
      have q4 := mul_le_mul q3 q3 (by norm_num) (by linarith [show (0 : ℝ) ≤ 9 / 10 ^ 9 by norm_num])
      norm_num at q4 hc q1 q2
      linarith
    simp only [sphereFaces, intersect, collect, hb]
    exact ⟨_, rfl⟩

end Verif.Search
