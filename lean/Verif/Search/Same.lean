import Verif.Search.Ray
import Mathlib.Algebra.Order.Ring.Abs

/-!
Tests whether elements lie on one line or in one plane, `Edge::SameLine` and `Face::SamePlane`,
geometry.cpp L191-275, in exact arithmetic with three dimensions. The test of nodes against an edge,
L178-189, is not modelled.
-/

namespace Verif.Same

open Verif.Ray

/-- `Edge::SameLine` for edges, L191-217; an edge is given by its ends. `none`: no first edge. If the
first edge has zero length, `alpha` is 0/0 and no comparison holds, so the result is true. -/
def sameLine (eps : ℚ) (edges : List (V × V)) : Option Bool :=
  match edges with
  | [] => none
  | (a, b) :: r =>
    let v := sub b a
    let vtv := dot v v
    if vtv = 0 then some true
    else some (r.all fun e => [e.1, e.2].all fun xn =>
      let alpha := dot v (sub xn a) / vtv
      let xa := sub xn (along a v alpha)
      !decide (dot xa xa > eps * eps))

/-- What the tests use of a face: the unit normal and the centre. -/
structure Plane where
  nrm : V
  cen : V

/-- `Face::SamePlane` for nodes, L219-233. The loop over ends of edges, L235-253, is the same test. -/
def samePlaneNodes (eps : ℚ) (f : Plane) (nodes : List V) : Bool :=
  let d := dot f.nrm f.cen
  nodes.all fun xn => !decide (|dot f.nrm xn - d| > eps)

/-- `Face::SamePlane` for faces, L255-275. `none`: no first face. -/
def samePlaneFaces (eps : ℚ) (faces : List Plane) : Option Bool :=
  match faces with
  | [] => none
  | f :: r =>
    let d := dot f.nrm f.cen
    some (r.all fun g =>
      if |dot f.nrm g.cen - d| > eps then false
      else !decide (|(|dot f.nrm g.nrm| - 1)| > eps))

/-! ## Specification -/

/-- `x` is within the distance `eps` of a point of the line through `a` and `b`. -/
def NearLine (eps : ℚ) (a b x : V) : Prop :=
  ∃ t : ℚ, (x.x - (a.x + t * (b.x - a.x))) ^ 2 + (x.y - (a.y + t * (b.y - a.y))) ^ 2 + (x.z - (a.z + t * (b.z - a.z))) ^ 2 ≤ eps ^ 2

/-- `x` lies in the plane through `cen` with the normal `nrm`. -/
def OnPlane (f : Plane) (x : V) : Prop := f.nrm.x * (x.x - f.cen.x) + f.nrm.y * (x.y - f.cen.y) + f.nrm.z * (x.z - f.cen.z) = 0

/-- `x` is within the distance `eps` of a point of the plane. -/
def NearPlane (eps : ℚ) (f : Plane) (x : V) : Prop := ∃ y, OnPlane f y ∧ (x.x - y.x) ^ 2 + (x.y - y.y) ^ 2 + (x.z - y.z) ^ 2 ≤ eps ^ 2

/-- The normal has unit length. -/
def Unit (f : Plane) : Prop := f.nrm.x ^ 2 + f.nrm.y ^ 2 + f.nrm.z ^ 2 = 1

/-! ## Properties -/

/-- C162: edges are on one line exactly if both ends of each are within the tolerance of the line of the first edge. -/
theorem C162_line (eps : ℚ) (a b : V) (r : List (V × V)) (hab : a ≠ b) :
    ∃ res, sameLine eps ((a, b) :: r) = some res ∧ (res = true ↔ ∀ e ∈ r, NearLine eps a b e.1 ∧ NearLine eps a b e.2) := by
  have hv : dot (sub b a) (sub b a) ≠ 0 := by
    intro h
    simp only [dot, sub] at h
    have hx := mul_self_nonneg (b.x - a.x)
    have hy := mul_self_nonneg (b.y - a.y)
    have hz := mul_self_nonneg (b.z - a.z)
    exact hab (V.ext (by linarith [mul_self_eq_zero.1 (by linarith : (b.x - a.x) * (b.x - a.x) = 0)])
      (by linarith [mul_self_eq_zero.1 (by linarith : (b.y - a.y) * (b.y - a.y) = 0)])
      (by linarith [mul_self_eq_zero.1 (by linarith : (b.z - a.z) * (b.z - a.z) = 0)]))
  have hpos : 0 ≤ dot (sub b a) (sub b a) := by
    simp only [dot]
    linarith [mul_self_nonneg (sub b a).x, mul_self_nonneg (sub b a).y, mul_self_nonneg (sub b a).z]
  have key : ∀ x : V, (¬ dot (sub x (along a (sub b a) (dot (sub b a) (sub x a) / dot (sub b a) (sub b a))))
      (sub x (along a (sub b a) (dot (sub b a) (sub x a) / dot (sub b a) (sub b a)))) > eps * eps) ↔ NearLine eps a b x := by
    intro x
    have horth : dot (sub b a) (sub x a) / dot (sub b a) (sub b a) * dot (sub b a) (sub b a) = dot (sub b a) (sub x a) := div_mul_cancel₀ _ hv
    generalize dot (sub b a) (sub x a) / dot (sub b a) (sub b a) = al at *
    rw [gt_iff_lt, not_lt]
    constructor
    · intro h
      refine ⟨al, ?_⟩
      simp only [dot, sub, along] at h
      nlinarith [h]
    · rintro ⟨t, h⟩
      have e : (x.x - (a.x + t * (b.x - a.x))) ^ 2 + (x.y - (a.y + t * (b.y - a.y))) ^ 2 + (x.z - (a.z + t * (b.z - a.z))) ^ 2 =
          dot (sub x (along a (sub b a) al)) (sub x (along a (sub b a) al)) + (t - al) ^ 2 * dot (sub b a) (sub b a) := by
        simp only [dot, sub, along] at horth ⊢
        linear_combination (2 * (t - al)) * horth
      rw [e] at h
      have := mul_nonneg (sq_nonneg (t - al)) hpos
      linarith [pow_two eps]
  unfold sameLine
  simp only
  rw [if_neg hv]
  refine ⟨_, rfl, ?_⟩
  rw [List.all_eq_true]
  refine forall₂_congr fun e _ => ?_
  simp only [List.all_cons, List.all_nil, Bool.and_true, Bool.and_eq_true, Bool.not_eq_true', decide_eq_false_iff_not]
  rw [key, key]

/-- C162: nodes are in the plane of a face exactly if each is within the tolerance of the plane. -/
theorem C162_plane_nodes (eps : ℚ) (he : 0 ≤ eps) (f : Plane) (hf : Unit f) (nodes : List V) :
    samePlaneNodes eps f nodes = true ↔ ∀ x ∈ nodes, NearPlane eps f x := by
  unfold samePlaneNodes
  simp only
  rw [List.all_eq_true]
  refine forall₂_congr fun x _ => ?_
  rw [Bool.not_eq_true', decide_eq_false_iff_not, gt_iff_lt, not_lt]
  unfold Unit at hf
  have hd : dot f.nrm x - dot f.nrm f.cen = f.nrm.x * (x.x - f.cen.x) + f.nrm.y * (x.y - f.cen.y) + f.nrm.z * (x.z - f.cen.z) := by
    simp only [dot]
    ring
  generalize hs : dot f.nrm x - dot f.nrm f.cen = s at *
  constructor
  · intro h
    have h2 : s ^ 2 ≤ eps ^ 2 := sq_le_sq' (by linarith [neg_abs_le s]) ((le_abs_self s).trans h)
    refine ⟨⟨x.x - s * f.nrm.x, x.y - s * f.nrm.y, x.z - s * f.nrm.z⟩, ?_, ?_⟩
    · unfold OnPlane
      simp only
      linear_combination -hd - s * hf
    · simp only
      have : (x.x - (x.x - s * f.nrm.x)) ^ 2 + (x.y - (x.y - s * f.nrm.y)) ^ 2 + (x.z - (x.z - s * f.nrm.z)) ^ 2 = s ^ 2 := by
        linear_combination s ^ 2 * hf
      rw [this]
      exact h2
  · rintro ⟨y, hy, h⟩
    unfold OnPlane at hy
    refine abs_le_of_sq_le_sq ?_ he
    have e : s = f.nrm.x * (x.x - y.x) + f.nrm.y * (x.y - y.y) + f.nrm.z * (x.z - y.z) := by linear_combination hd + hy
    have cs : s ^ 2 + ((f.nrm.x * (x.y - y.y) - f.nrm.y * (x.x - y.x)) ^ 2 + (f.nrm.y * (x.z - y.z) - f.nrm.z * (x.y - y.y)) ^ 2 +
        (f.nrm.z * (x.x - y.x) - f.nrm.x * (x.z - y.z)) ^ 2) = (x.x - y.x) ^ 2 + (x.y - y.y) ^ 2 + (x.z - y.z) ^ 2 := by
      rw [e]
      linear_combination ((x.x - y.x) ^ 2 + (x.y - y.y) ^ 2 + (x.z - y.z) ^ 2) * hf
    nlinarith [sq_nonneg (f.nrm.x * (x.y - y.y) - f.nrm.y * (x.x - y.x)), sq_nonneg (f.nrm.y * (x.z - y.z) - f.nrm.z * (x.y - y.y)),
      sq_nonneg (f.nrm.z * (x.x - y.x) - f.nrm.x * (x.z - y.z))]

/-- C162, full claim: faces are in one plane exactly if the points of each are within the tolerance
of the plane of the first. Proved for zero tolerance: exactly if the planes of all faces have the
same points; see `C162_tolerance_fails`. -/
theorem C162_plane_faces_partial (f : Plane) (r : List Plane) (hf : Unit f) (hr : ∀ g ∈ r, Unit g) :
    ∃ res, samePlaneFaces 0 (f :: r) = some res ∧ (res = true ↔ ∀ g ∈ r, ∀ x, OnPlane g x ↔ OnPlane f x) := by
  unfold samePlaneFaces
  simp only
  refine ⟨_, rfl, ?_⟩
  rw [List.all_eq_true]
  refine forall₂_congr fun g hg => ?_
  have hgu := hr g hg
  unfold Unit at hf hgu
  have zero : ∀ a : ℚ, |a| > 0 ↔ a ≠ 0 := fun a => abs_pos
  have hx1 : dot f.nrm g.cen - dot f.nrm f.cen = f.nrm.x * (g.cen.x - f.cen.x) + f.nrm.y * (g.cen.y - f.cen.y) + f.nrm.z * (g.cen.z - f.cen.z) := by
    simp only [dot]
    ring
  simp only [hx1, zero]
  constructor
  · intro h
    split at h
    · simp at h
    · rename_i h0
      rw [not_not] at h0
      simp only [ne_eq, Bool.not_eq_true', decide_eq_false_iff_not, not_not] at h
      have h1 : |dot f.nrm g.nrm| = 1 := by linarith
      obtain ⟨c, hc2, hc⟩ : ∃ c : ℚ, c * c = 1 ∧ dot f.nrm g.nrm = c := by
        refine ⟨dot f.nrm g.nrm, ?_, rfl⟩
        rw [← abs_mul_abs_self, h1, one_mul]
      have hsum : (g.nrm.x - c * f.nrm.x) ^ 2 + (g.nrm.y - c * f.nrm.y) ^ 2 + (g.nrm.z - c * f.nrm.z) ^ 2 = 0 := by
        simp only [dot] at hc
        linear_combination hgu + c ^ 2 * hf - 2 * c * hc - hc2
      have sx := sq_nonneg (g.nrm.x - c * f.nrm.x)
      have sy := sq_nonneg (g.nrm.y - c * f.nrm.y)
      have sz := sq_nonneg (g.nrm.z - c * f.nrm.z)
      have ex : g.nrm.x - c * f.nrm.x = 0 := pow_eq_zero_iff (two_ne_zero) |>.1 (by linarith)
      have ey : g.nrm.y - c * f.nrm.y = 0 := pow_eq_zero_iff (two_ne_zero) |>.1 (by linarith)
      have ez : g.nrm.z - c * f.nrm.z = 0 := pow_eq_zero_iff (two_ne_zero) |>.1 (by linarith)
      intro x
      unfold OnPlane
      have main : g.nrm.x * (x.x - g.cen.x) + g.nrm.y * (x.y - g.cen.y) + g.nrm.z * (x.z - g.cen.z) =
          c * (f.nrm.x * (x.x - f.cen.x) + f.nrm.y * (x.y - f.cen.y) + f.nrm.z * (x.z - f.cen.z)) := by
        linear_combination (x.x - g.cen.x) * ex + (x.y - g.cen.y) * ey + (x.z - g.cen.z) * ez - c * h0
      rw [main]
      constructor
      · intro h
        rcases mul_eq_zero.1 h with h | h
        · rw [h] at hc2
          norm_num at hc2
        · exact h
      · intro h
        rw [h, mul_zero]
  · intro h
    have h0 := (h g.cen).1 (by unfold OnPlane; ring)
    unfold OnPlane at h0
    rw [if_neg (by rw [not_not]; exact h0)]
    simp only [ne_eq, Bool.not_eq_true', decide_eq_false_iff_not, not_not]
    have on : ∀ p q s : ℚ, g.nrm.x * p + g.nrm.y * q + g.nrm.z * s = 0 → f.nrm.x * p + f.nrm.y * q + f.nrm.z * s = 0 := by
      intro p q s e
      have := (h ⟨g.cen.x + p, g.cen.y + q, g.cen.z + s⟩).1 (by unfold OnPlane; simp only; linear_combination e)
      unfold OnPlane at this
      simp only at this
      linear_combination this - h0
    have c1 := on g.nrm.y (-g.nrm.x) 0 (by ring)
    have c2 := on g.nrm.z 0 (-g.nrm.x) (by ring)
    have c3 := on 0 g.nrm.z (-g.nrm.y) (by ring)
    have hsq : dot f.nrm g.nrm * dot f.nrm g.nrm = 1 := by
      simp only [dot]
      linear_combination (g.nrm.x ^ 2 + g.nrm.y ^ 2 + g.nrm.z ^ 2) * hf + hgu - (f.nrm.x * g.nrm.y - f.nrm.y * g.nrm.x) * c1 -
        (f.nrm.x * g.nrm.z - f.nrm.z * g.nrm.x) * c2 - (f.nrm.y * g.nrm.z - f.nrm.z * g.nrm.y) * c3
    rcases mul_self_eq_one_iff.1 hsq with e | e <;> rw [e] <;> norm_num

/-- Two faces in one plane with opposite normals, edges on one line, and a node near the plane. -/
example : samePlaneFaces 0 [⟨⟨0, 0, 1⟩, ⟨0, 0, 3⟩⟩, ⟨⟨0, 0, -1⟩, ⟨5, 7, 3⟩⟩] = some true ∧
    sameLine 0 [(⟨0, 0, 0⟩, ⟨1, 1, 0⟩), (⟨2, 2, 0⟩, ⟨3, 3, 0⟩)] = some true ∧
    sameLine 0 [(⟨0, 0, 0⟩, ⟨1, 1, 0⟩), (⟨2, 2, 0⟩, ⟨3, 3, 1⟩)] = some false ∧
    samePlaneNodes (1 / 10) ⟨⟨0, 3 / 5, 4 / 5⟩, ⟨0, 0, 0⟩⟩ [⟨1, 4, -3⟩, ⟨1, 4, -2⟩] = false := by decide +kernel

example : Unit ⟨⟨0, 3 / 5, 4 / 5⟩, ⟨0, 0, 0⟩⟩ := by norm_num [Unit]

/-- C162 fails with a tolerance: the angle of normals is compared by its cosine, and a face with a
node at a distance of almost ten times the tolerance passes the test. -/
theorem C162_tolerance_fails : ∃ (eps : ℚ) (f g : Plane) (x : V), Unit f ∧ Unit g ∧ 0 < eps ∧ samePlaneFaces eps [f, g] = some true ∧
    OnPlane g x ∧ (x.x - g.cen.x) ^ 2 + (x.y - g.cen.y) ^ 2 + (x.z - g.cen.z) ^ 2 = 1 ∧ ¬ NearPlane (9 * eps) f x := by
  refine ⟨1 / 50, ⟨⟨0, 0, 1⟩, ⟨0, 0, 0⟩⟩, ⟨⟨0, 20 / 101, 99 / 101⟩, ⟨0, 0, 0⟩⟩, ⟨0, 99 / 101, -20 / 101⟩, by norm_num [Unit], by norm_num [Unit],
    by norm_num, by decide +kernel, by norm_num [OnPlane], by norm_num, ?_⟩
  rintro ⟨y, h1, h2⟩
  unfold OnPlane at h1
  simp only at h1 h2
  have hz : y.z = 0 := by linarith
  rw [hz] at h2
  nlinarith [sq_nonneg (0 - y.x), sq_nonneg (99 / 101 - y.y)]

/-- C162 fails if the first edge has zero length: any edges are on one line. -/
theorem C162_point_fails : ∃ a b c : V, sameLine 0 [(a, a), (b, c)] = some true ∧ ¬ ∃ p q, ∀ x ∈ [a, b, c], NearLine 0 p q x := by
  refine ⟨⟨0, 0, 0⟩, ⟨1, 0, 0⟩, ⟨0, 1, 0⟩, by decide +kernel, ?_⟩
  rintro ⟨p, q, h⟩
  obtain ⟨t, ht⟩ := h ⟨0, 0, 0⟩ (by simp)
  obtain ⟨s, hs⟩ := h ⟨1, 0, 0⟩ (by simp)
  obtain ⟨r, hr⟩ := h ⟨0, 1, 0⟩ (by simp)
  have zero : ∀ a b c : ℚ, a ^ 2 + b ^ 2 + c ^ 2 ≤ 0 ^ 2 → a = 0 ∧ b = 0 := by
    intro a b c h
    have ha := sq_nonneg a
    have hb := sq_nonneg b
    have hc := sq_nonneg c
    exact ⟨pow_eq_zero_iff (two_ne_zero) |>.1 (by linarith), pow_eq_zero_iff (two_ne_zero) |>.1 (by linarith)⟩
  obtain ⟨t1, t2⟩ := zero _ _ _ ht
  obtain ⟨s1, s2⟩ := zero _ _ _ hs
  obtain ⟨r1, r2⟩ := zero _ _ _ hr
  have a1 : (s - t) * (q.x - p.x) = 1 := by linarith
  have a2 : (s - t) * (q.y - p.y) = 0 := by linarith
  have a3 : (r - t) * (q.y - p.y) = 1 := by linarith
  rcases mul_eq_zero.1 a2 with e | e
  · rw [e] at a1
    norm_num at a1
  · rw [e] at a3
    norm_num at a3

end Verif.Same
