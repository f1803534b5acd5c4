import Verif.Geometry.Mean
import Mathlib.Tactic.IntervalCases
import Mathlib.Tactic.LinearCombination

/-!
# Interpolation from nodes of a face (C157)

Models `triarea3d` and `Mesh::WachspressInterpolation2D` (`/repo/Source/Mesh/geometry.cpp` L102-113, L2766-2823) over exact real numbers.

Simplifications: a face gives its nodes in order (C57) as pairs of handle and position and its area as a number; the map is a list of pairs of handle and coefficient. A division by a zero
length of an edge gives `none`.
-/

namespace Verif.Geometry.Wachspress

open Verif.Geometry.Mean

/-- `vec_len`, L68-71 -/
noncomputable def len (v : P) : ℝ := Real.sqrt (dot 3 v v)

/-- `triarea3d`, L102-113 -/
noncomputable def triarea3d (p1 p2 p3 : P) : ℝ :=
  let l12 := len (p2.sub p1)
  let l13 := len (p3.sub p1)
  let l23 := len (p3.sub p2)
  let halfperim := 0.5 * (l12 + l13 + l23)
  Real.sqrt (max 0 (halfperim * (halfperim - l12) * (halfperim - l13) * (halfperim - l23)))

/-- The map of the stencil. -/
abbrev Stencil := List (Nat × ℝ)

/-- `nodes_stencil[h] = c` -/
def Stencil.put (m : Stencil) (h : Nat) (c : ℝ) : Stencil := m.filter (fun e => e.1 ≠ h) ++ [(h, c)]

/-- node number `i`; nodes out of range are not asked for -/
def node (nodes : List (Nat × P)) (i : Nat) : Nat × P := nodes.getD i (0, ⟨0, 0, 0⟩)

/-- What the loop ends with: an edge, or the map and the sum of weights. -/
inductive Loop
  | edge (node1 node2 : Nat)
  | inner (m : Stencil) (sum : ℝ)

/-- The loop of L2775-2806 with `k` turns to go, standing at `i`; `limit` is `GetEpsilon() * areaface`. -/
noncomputable def loop (x : P) (nodes : List (Nat × P)) (limit : ℝ) : Nat → Nat → Stencil → ℝ → Loop
  | 0, _, m, s => .inner m s
  | k + 1, i, m, s =>
    let n := nodes.length
    let prev := (i + n - 1) % n
    let next := (i + 1) % n
    let area1 := triarea3d x (node nodes prev).2 (node nodes i).2
    if area1 < limit then .edge prev i
    else
      let area2 := triarea3d x (node nodes i).2 (node nodes next).2
      if area2 < limit then .edge i next
      else
        let area := triarea3d (node nodes i).2 (node nodes prev).2 (node nodes next).2
        let weight := area / (area1 * area2)
        loop x nodes limit k (i + 1) (m.put (node nodes i).1 weight) (s + weight)

/-- `WachspressInterpolation2D`, L2766-2823 -/
noncomputable def interpolate (x : P) (nodes : List (Nat × P)) (limit : ℝ) (m : Stencil) : Option Stencil :=
  match loop x nodes limit nodes.length 0 m 0 with
  | .edge e1 e2 =>
    let v12 := (node nodes e2).2.sub (node nodes e1).2
    let v := x.sub (node nodes e1).2
    if dot 3 v12 v12 = 0 then none
    else
      let alpha := dot 3 v12 v / dot 3 v12 v12
      some ((Stencil.put [] (node nodes e1).1 (1 - alpha)).put (node nodes e2).1 alpha)
  | .inner m s => some (if s ≠ 0 then m.map fun e => (e.1, e.2 / s) else m)

/-! ## Specification -/

/-- the scalar triple product -/
def triple (a b c : P) : ℝ :=
  a.x * (b.y * c.z - b.z * c.y) + a.y * (b.z * c.x - b.x * c.z) + a.z * (b.x * c.y - b.y * c.x)

/-- The polygon of nodes `v 0, …, v (N - 1)` lies in the plane through `x` with unit normal `n`, turns to the left at each node or goes straight on, turns at some node,
and sees `x` on the left of each side. -/
structure ConvexAround (n x : P) (N : Nat) (v : Nat → P) : Prop where
  unit : lin n n = 1
  plane : ∀ i < N, lin n (v i) = lin n x
  left : ∀ i < N, 0 < triple n ((v i).sub x) ((v ((i + 1) % N)).sub x)
  turn : ∀ i < N, 0 ≤ triple n ((v i).sub (v ((i + N - 1) % N))) ((v ((i + 1) % N)).sub (v i))
  corner : ∃ i < N, 0 < triple n ((v i).sub (v ((i + N - 1) % N))) ((v ((i + 1) % N)).sub (v i))

/-! ## Helpers -/

theorem lin_sub (g a b : P) : lin g (a.sub b) = lin g a - lin g b := by simp only [lin, P.sub]; ring

/-- Heron's formula -/
theorem triarea3d_eq (a b c : P) : triarea3d a b c = Real.sqrt (lin (cross (b.sub a) (c.sub a)) (cross (b.sub a) (c.sub a))) / 2 := by
  have s12 : len (b.sub a) ^ 2 = lin (b.sub a) (b.sub a) := by
    rw [len, Real.sq_sqrt]
    · simp [dot, lin]
    · simp only [dot, if_true]; nlinarith [sq_nonneg (b.sub a).x, sq_nonneg (b.sub a).y, sq_nonneg (b.sub a).z]
  have s13 : len (c.sub a) ^ 2 = lin (c.sub a) (c.sub a) := by
    rw [len, Real.sq_sqrt]
    · simp [dot, lin]
    · simp only [dot, if_true]; nlinarith [sq_nonneg (c.sub a).x, sq_nonneg (c.sub a).y, sq_nonneg (c.sub a).z]
  have s23 : len (c.sub b) ^ 2 = lin (c.sub b) (c.sub b) := by
    rw [len, Real.sq_sqrt]
    · simp [dot, lin]
    · simp only [dot, if_true]; nlinarith [sq_nonneg (c.sub b).x, sq_nonneg (c.sub b).y, sq_nonneg (c.sub b).z]
  have key : 0.5 * (len (b.sub a) + len (c.sub a) + len (c.sub b)) * (0.5 * (len (b.sub a) + len (c.sub a) + len (c.sub b)) - len (b.sub a))
      * (0.5 * (len (b.sub a) + len (c.sub a) + len (c.sub b)) - len (c.sub a)) * (0.5 * (len (b.sub a) + len (c.sub a) + len (c.sub b)) - len (c.sub b))
      = lin (cross (b.sub a) (c.sub a)) (cross (b.sub a) (c.sub a)) / 4 := by
    generalize len (b.sub a) = p at *
    generalize len (c.sub a) = q at *
    generalize len (c.sub b) = r at *
    have e : 0.5 * (p + q + r) * (0.5 * (p + q + r) - p) * (0.5 * (p + q + r) - q) * (0.5 * (p + q + r) - r) = (4 * p ^ 2 * q ^ 2 - (p ^ 2 + q ^ 2 - r ^ 2) ^ 2) / 16 := by
      norm_num; ring
    rw [e, s12, s13, s23]
    simp only [lin, cross, P.sub]
    ring
  have nn : 0 ≤ lin (cross (b.sub a) (c.sub a)) (cross (b.sub a) (c.sub a)) := by
    simp only [lin]
    nlinarith [mul_self_nonneg (cross (b.sub a) (c.sub a)).x, mul_self_nonneg (cross (b.sub a) (c.sub a)).y, mul_self_nonneg (cross (b.sub a) (c.sub a)).z]
  simp only [triarea3d, key]
  rw [max_eq_right (by positivity), Real.sqrt_div nn, show (4 : ℝ) = 2 * 2 by norm_num, Real.sqrt_mul_self (by norm_num)]

/-- In a plane with unit normal `n` the length of a product is its component along `n`. -/
theorem sqrt_cross (n u w : P) (hn : lin n n = 1) (hu : lin n u = 0) (hw : lin n w = 0) : Real.sqrt (lin (cross u w) (cross u w)) = |triple n u w| := by
  rw [← Real.sqrt_sq_eq_abs]
  congr 1
  have hu' := hu
  simp only [lin, cross, triple] at *
  have c1 : (u.z * w.x - u.x * w.z) * n.z - (u.x * w.y - u.y * w.x) * n.y = w.x * (n.x * u.x + n.y * u.y + n.z * u.z) - u.x * (n.x * w.x + n.y * w.y + n.z * w.z) := by ring
  have c2 : (u.x * w.y - u.y * w.x) * n.x - (u.y * w.z - u.z * w.y) * n.z = w.y * (n.x * u.x + n.y * u.y + n.z * u.z) - u.y * (n.x * w.x + n.y * w.y + n.z * w.z) := by ring
  have c3 : (u.y * w.z - u.z * w.y) * n.y - (u.z * w.x - u.x * w.z) * n.x = w.z * (n.x * u.x + n.y * u.y + n.z * u.z) - u.z * (n.x * w.x + n.y * w.y + n.z * w.z) := by ring
  rw [hu, hw, mul_zero, mul_zero, sub_zero] at c1 c2 c3
  generalize u.y * w.z - u.z * w.y = A at *
  generalize u.z * w.x - u.x * w.z = B at *
  generalize u.x * w.y - u.y * w.x = C at *
  linear_combination (-(A * A + B * B + C * C)) * hn + (B * n.z - C * n.y) * c1 + (C * n.x - A * n.z) * c2 + (A * n.y - B * n.x) * c3

/-- Three vectors of one plane. -/
theorem plane_identity (g n a b c : P) (hn : lin n n = 1) (ha : lin n a = 0) (hb : lin n b = 0) (hc : lin n c = 0) :
    lin g a * triple n b c - lin g b * triple n a c + lin g c * triple n a b = 0 := by
  have e : lin g n * triple a b c = lin g a * triple n b c - lin g b * triple n a c + lin g c * triple n a b := by simp only [lin, triple]; ring
  have z : triple a b c = 0 := by
    have : lin n n * triple a b c = lin n a * triple n b c - lin n b * triple n a c + lin n c * triple n a b := by simp only [lin, triple]; ring
    rw [hn, ha, hb, hc] at this
    linarith
  rw [← e, z, mul_zero]

theorem sum_prev (F : Nat → ℝ) (N : Nat) : ((List.range N).map fun i => F ((i + N - 1) % N)).sum = ((List.range N).map F).sum := by
  cases N with
  | zero => rfl
  | succ M =>
    rw [show ((List.range (M + 1)).map F).sum = ((List.range M).map F).sum + F M by simp [List.range_succ]]
    rw [List.range_succ_eq_map, List.map_cons, List.sum_cons, List.map_map]
    have e0 : (0 + (M + 1) - 1) % (M + 1) = M := by simp
    rw [e0, add_comm]
    congr 2
    apply List.map_congr_left
    intro i hi
    have : i < M := List.mem_range.1 hi
    have e : (i + 1 + (M + 1) - 1) % (M + 1) = i := by
      rw [show i + 1 + (M + 1) - 1 = i + (M + 1) by omega, Nat.add_mod_right, Nat.mod_eq_of_lt (by omega)]
    simp only [Function.comp, Nat.succ_eq_add_one, e]

/-- the weight of node `i` -/
noncomputable def weight (x : P) (nodes : List (Nat × P)) (i : Nat) : ℝ :=
  triarea3d (node nodes i).2 (node nodes ((i + nodes.length - 1) % nodes.length)).2 (node nodes ((i + 1) % nodes.length)).2
    / (triarea3d x (node nodes ((i + nodes.length - 1) % nodes.length)).2 (node nodes i).2 * triarea3d x (node nodes i).2 (node nodes ((i + 1) % nodes.length)).2)

theorem put_new (m : Stencil) (h : Nat) (c : ℝ) (n : ∀ e ∈ m, e.1 ≠ h) : m.put h c = m ++ [(h, c)] := by
  rw [Stencil.put, List.filter_eq_self.2 (by simpa using n)]

theorem loop_inner (x : P) (nodes : List (Nat × P)) (limit : ℝ) (hd : (nodes.map Prod.fst).Nodup)
    (hl : ∀ i < nodes.length, limit ≤ triarea3d x (node nodes i).2 (node nodes ((i + 1) % nodes.length)).2) : ∀ (k i : Nat) (m : Stencil) (s : ℝ), i + k = nodes.length →
    (∀ e ∈ m, ∀ j, i ≤ j → j < nodes.length → e.1 ≠ (node nodes j).1) →
    loop x nodes limit k i m s = .inner (m ++ (List.range' i k).map fun j => ((node nodes j).1, weight x nodes j)) (s + ((List.range' i k).map (weight x nodes)).sum)
  | 0, i, m, s, _, _ => by simp [loop]
  | k + 1, i, m, s, hk, hm => by
    have hi : i < nodes.length := by omega
    have p : (i + nodes.length - 1) % nodes.length < nodes.length := Nat.mod_lt _ (by omega)
    have pn : ((i + nodes.length - 1) % nodes.length + 1) % nodes.length = i := by
      rw [Nat.mod_add_mod, show i + nodes.length - 1 + 1 = i + nodes.length by omega, Nat.add_mod_right, Nat.mod_eq_of_lt hi]
    have a1 := hl _ p
    rw [pn] at a1
    have a2 := hl i hi
    rw [loop]
    simp only [if_neg (not_lt.2 a1), if_neg (not_lt.2 a2)]
    rw [put_new _ _ _ (fun e he => hm e he i (le_refl _) hi)]
    rw [loop_inner x nodes limit hd hl k (i + 1) _ _ (by omega) ?_]
    · rw [List.range'_succ, List.map_cons, List.map_cons, List.sum_cons]
      simp only [weight, List.append_assoc, List.singleton_append, add_assoc]
    · intro e he j hj hjn
      rcases List.mem_append.1 he with he | he
      · exact hm e he j (by omega) hjn
      · rw [List.mem_singleton] at he
        subst he
        simp only
        intro eq
        have h1 : node nodes i = nodes[i] := by simp [node, hi]
        have h2 : node nodes j = nodes[j] := by simp [node, hjn]
        rw [h1, h2] at eq
        have := (List.Nodup.getElem_inj_iff hd (i := i) (j := j) (hi := by simpa using hi) (hj := by simpa using hjn)).1 (by simpa using eq)
        omega

theorem triple_cross (n a b c : P) (hn : lin n n = 1) (h1 : lin n b = lin n a) (h2 : lin n c = lin n a) :
    triarea3d a b c = |triple n (b.sub a) (c.sub a)| / 2 := by
  rw [triarea3d_eq, sqrt_cross n _ _ hn (by rw [lin_sub, h1, sub_self]) (by rw [lin_sub, h2, sub_self])]

/-- twice the area of the triangle of `x` and side `i` -/
def side (n x : P) (N : Nat) (v : Nat → P) (i : Nat) : ℝ := triple n ((v i).sub x) ((v ((i + 1) % N)).sub x)

theorem next_prev {i N : Nat} (hi : i < N) : ((i + N - 1) % N + 1) % N = i := by
  rw [Nat.mod_add_mod, show i + N - 1 + 1 = i + N by omega, Nat.add_mod_right, Nat.mod_eq_of_lt hi]

theorem weight_eq {n x : P} {nodes : List (Nat × P)} (h : ConvexAround n x nodes.length fun i => (node nodes i).2) {i : Nat} (hi : i < nodes.length) :
    weight x nodes i = 2 * triple n ((node nodes i).2.sub (node nodes ((i + nodes.length - 1) % nodes.length)).2) ((node nodes ((i + 1) % nodes.length)).2.sub (node nodes i).2)
      / (side n x nodes.length (fun i => (node nodes i).2) ((i + nodes.length - 1) % nodes.length) * side n x nodes.length (fun i => (node nodes i).2) i) := by
  have p : (i + nodes.length - 1) % nodes.length < nodes.length := Nat.mod_lt _ (by omega)
  have q : (i + 1) % nodes.length < nodes.length := Nat.mod_lt _ (by omega)
  have hp := h.plane _ p
  have hq := h.plane _ q
  have h0 := h.plane i hi
  have l1 := h.left _ p
  have l2 := h.left i hi
  have t := h.turn i hi
  have e1 : side n x nodes.length (fun i => (node nodes i).2) ((i + nodes.length - 1) % nodes.length)
      = triple n ((node nodes ((i + nodes.length - 1) % nodes.length)).2.sub x) ((node nodes i).2.sub x) := by
    simp only [side]; rw [next_prev hi]
  rw [next_prev hi] at l1
  rw [e1, weight, triple_cross n _ _ _ h.unit (hp.trans h0.symm) (hq.trans h0.symm), triple_cross n _ _ _ h.unit hp h0, triple_cross n _ _ _ h.unit h0 hq, side]
  rw [abs_of_pos l1, abs_of_pos l2]
  have e2 : triple n ((node nodes ((i + nodes.length - 1) % nodes.length)).2.sub (node nodes i).2) ((node nodes ((i + 1) % nodes.length)).2.sub (node nodes i).2)
      = - triple n ((node nodes i).2.sub (node nodes ((i + nodes.length - 1) % nodes.length)).2) ((node nodes ((i + 1) % nodes.length)).2.sub (node nodes i).2) := by
    simp only [triple, P.sub]; ring
  rw [e2, abs_neg, abs_of_nonneg t]
  field_simp

theorem weight_sum_pos {n x : P} {nodes : List (Nat × P)} (h : ConvexAround n x nodes.length fun i => (node nodes i).2) :
    (∀ i < nodes.length, 0 ≤ weight x nodes i) ∧ 0 < ((List.range nodes.length).map (weight x nodes)).sum := by
  have nn : ∀ i < nodes.length, 0 ≤ weight x nodes i := by
    intro i hi
    rw [weight_eq h hi]
    have p : (i + nodes.length - 1) % nodes.length < nodes.length := Nat.mod_lt _ (by omega)
    exact div_nonneg (mul_nonneg (by norm_num) (h.turn i hi)) (mul_nonneg (h.left _ p).le (h.left i hi).le)
  refine ⟨nn, ?_⟩
  obtain ⟨i, hi, c⟩ := h.corner
  have p : (i + nodes.length - 1) % nodes.length < nodes.length := Nat.mod_lt _ (by omega)
  have pos : 0 < weight x nodes i := by
    rw [weight_eq h hi]
    exact div_pos (mul_pos (by norm_num) c) (mul_pos (h.left _ p) (h.left i hi))
  refine lt_of_lt_of_le pos (List.single_le_sum ?_ _ (List.mem_map.2 ⟨i, List.mem_range.2 hi, rfl⟩))
  intro w hw
  obtain ⟨j, hj, rfl⟩ := List.mem_map.1 hw
  exact nn j (List.mem_range.1 hj)

theorem weighted_zero {n x : P} {nodes : List (Nat × P)} (h : ConvexAround n x nodes.length fun i => (node nodes i).2) (g : P) :
    ((List.range nodes.length).map fun i => weight x nodes i * lin g ((node nodes i).2.sub x)).sum = 0 := by
  let F : Nat → ℝ := fun i => 2 * (lin g ((node nodes i).2.sub x) - lin g ((node nodes ((i + 1) % nodes.length)).2.sub x)) / side n x nodes.length (fun i => (node nodes i).2) i
  have e : ((List.range nodes.length).map fun i => weight x nodes i * lin g ((node nodes i).2.sub x))
      = (List.range nodes.length).map fun i => F i - F ((i + nodes.length - 1) % nodes.length) := by
    apply List.map_congr_left
    intro i hi
    have hi := List.mem_range.1 hi
    have p : (i + nodes.length - 1) % nodes.length < nodes.length := Nat.mod_lt _ (by omega)
    have q : (i + 1) % nodes.length < nodes.length := Nat.mod_lt _ (by omega)
    have hp := h.plane _ p
    have hq := h.plane _ q
    have h0 := h.plane i hi
    have l1 := h.left _ p
    have l2 := h.left i hi
    rw [weight_eq h hi]
    have id := plane_identity g n ((node nodes ((i + nodes.length - 1) % nodes.length)).2.sub x) ((node nodes i).2.sub x) ((node nodes ((i + 1) % nodes.length)).2.sub x) h.unit
      (by rw [lin_sub, hp, sub_self]) (by rw [lin_sub, h0, sub_self]) (by rw [lin_sub, hq, sub_self])
    have al : triple n ((node nodes i).2.sub (node nodes ((i + nodes.length - 1) % nodes.length)).2) ((node nodes ((i + 1) % nodes.length)).2.sub (node nodes i).2)
        = triple n ((node nodes ((i + nodes.length - 1) % nodes.length)).2.sub x) ((node nodes i).2.sub x) + triple n ((node nodes i).2.sub x) ((node nodes ((i + 1) % nodes.length)).2.sub x)
          - triple n ((node nodes ((i + nodes.length - 1) % nodes.length)).2.sub x) ((node nodes ((i + 1) % nodes.length)).2.sub x) := by
      simp only [triple, P.sub]; ring
    rw [al]
    simp only [F, side, next_prev hi]
    rw [next_prev hi] at l1
    generalize triple n ((node nodes ((i + nodes.length - 1) % nodes.length)).2.sub x) ((node nodes i).2.sub x) = A at *
    generalize triple n ((node nodes i).2.sub x) ((node nodes ((i + 1) % nodes.length)).2.sub x) = B at *
    have A0 := ne_of_gt l1
    have B0 := ne_of_gt l2
    field_simp
    linear_combination id
  rw [e]
  have sub : ∀ (l : List Nat) (G H : Nat → ℝ), (l.map fun i => G i - H i).sum = (l.map G).sum - (l.map H).sum := by
    intro l G H
    induction l with
    | nil => simp
    | cons a l ih => simp only [List.map_cons, List.sum_cons, ih]; ring
  rw [sub, sum_prev, sub_self]

theorem sum_div (l : List Nat) (G : Nat → ℝ) (S : ℝ) : (l.map fun i => G i / S).sum = (l.map G).sum / S := by
  induction l with
  | nil => simp
  | cons a l ih => simp only [List.map_cons, List.sum_cons, ih]; ring

/-! ## C157 -/

/-- Inside of a convex face, away from its sides: each node has one coefficient, coefficients are not negative, their sum is one, and they reproduce every linear function at `x`. -/
theorem C157_inside_partial (x : P) (nodes : List (Nat × P)) (limit : ℝ) (hd : (nodes.map Prod.fst).Nodup) (n : P)
    (h : ConvexAround n x nodes.length fun i => (node nodes i).2)
    (hl : ∀ i < nodes.length, limit ≤ triple n ((node nodes i).2.sub x) ((node nodes ((i + 1) % nodes.length)).2.sub x) / 2) :
    ∃ c : Nat → ℝ, interpolate x nodes limit [] = some ((List.range nodes.length).map fun i => ((node nodes i).1, c i))
      ∧ (∀ i < nodes.length, 0 ≤ c i) ∧ ((List.range nodes.length).map c).sum = 1
      ∧ ∀ g, ((List.range nodes.length).map fun i => c i * lin g (node nodes i).2).sum = lin g x := by
  have W := weight_sum_pos h
  have S0 : ((List.range nodes.length).map (weight x nodes)).sum ≠ 0 := ne_of_gt W.2
  have area : ∀ i < nodes.length, limit ≤ triarea3d x (node nodes i).2 (node nodes ((i + 1) % nodes.length)).2 := by
    intro i hi
    rw [triple_cross n _ _ _ h.unit (h.plane i hi) (h.plane _ (Nat.mod_lt _ (by omega)))]
    exact (hl i hi).trans (div_le_div_of_nonneg_right (le_abs_self _) (by norm_num))
  have L := loop_inner x nodes limit hd area nodes.length 0 [] 0 (by simp) (by simp)
  rw [← List.range_eq_range', List.nil_append, zero_add] at L
  refine ⟨fun i => weight x nodes i / ((List.range nodes.length).map (weight x nodes)).sum, ?_, ?_, ?_, ?_⟩
  · simp only [interpolate, L, ne_eq, S0, not_false_eq_true, if_true, List.map_map]
    rfl
  · intro i hi
    exact div_nonneg (W.1 i hi) W.2.le
  · rw [sum_div, div_self S0]
  · intro g
    have z := weighted_zero h g
    have e : ∀ (l : List Nat) (S : ℝ), (l.map fun i => weight x nodes i / S * lin g (node nodes i).2).sum
        = (l.map fun i => weight x nodes i * lin g ((node nodes i).2.sub x)).sum / S + (l.map (weight x nodes)).sum / S * lin g x := by
      intro l S
      induction l with
      | nil => simp
      | cons a l ih => simp only [List.map_cons, List.sum_cons, ih, lin_sub]; ring
    rw [e, z, div_self S0]
    ring

theorem loop_side (x : P) (nodes : List (Nat × P)) (limit : ℝ) {i : Nat} (hi : i < nodes.length)
    (h1 : triarea3d x (node nodes i).2 (node nodes ((i + 1) % nodes.length)).2 < limit)
    (h2 : ∀ j < nodes.length, j ≠ i → limit ≤ triarea3d x (node nodes j).2 (node nodes ((j + 1) % nodes.length)).2) : ∀ (k j : Nat) (m : Stencil) (s : ℝ),
    j + k = nodes.length → j ≤ i → loop x nodes limit k j m s = .edge i ((i + 1) % nodes.length)
  | 0, j, m, s, hk, hj => by omega
  | k + 1, j, m, s, hk, hj => by
    have hjn : j < nodes.length := by omega
    have p : (j + nodes.length - 1) % nodes.length < nodes.length := Nat.mod_lt _ (by omega)
    have pn := next_prev hjn
    rw [loop]
    simp only
    by_cases g : (j + nodes.length - 1) % nodes.length = i
    · have a1 := h1
      rw [← g, pn] at a1
      rw [if_pos a1, g, ← g, pn]
    · have a1 := h2 _ p g
      rw [pn] at a1
      rw [if_neg (not_lt.2 a1)]
      by_cases g2 : j = i
      · subst g2; rw [if_pos h1]
      · rw [if_neg (not_lt.2 (h2 j hjn g2))]
        exact loop_side x nodes limit hi h1 h2 k (j + 1) _ _ (by omega) (by omega)

/-- On a side of the face, away from the other sides: the two nodes of the side have the coefficients of linear interpolation, and earlier entries of the map are removed. -/
theorem C157_side (nodes : List (Nat × P)) (limit : ℝ) (m : Stencil) (i : Nat) (hi : i < nodes.length) (a b x : P) (ha h : Nat) (t : ℝ)
    (ea : node nodes i = (ha, a)) (eb : node nodes ((i + 1) % nodes.length) = (h, b)) (hab : ha ≠ h) (hne : lin (b.sub a) (b.sub a) ≠ 0)
    (hx : x = ⟨(1 - t) * a.x + t * b.x, (1 - t) * a.y + t * b.y, (1 - t) * a.z + t * b.z⟩) (hl : 0 < limit)
    (others : ∀ j < nodes.length, j ≠ i → limit ≤ triarea3d x (node nodes j).2 (node nodes ((j + 1) % nodes.length)).2) :
    interpolate x nodes limit m = some [(ha, 1 - t), (h, t)] := by
  have z : triarea3d x (node nodes i).2 (node nodes ((i + 1) % nodes.length)).2 < limit := by
    rw [ea, eb, triarea3d_eq]
    have : lin (cross (a.sub x) (b.sub x)) (cross (a.sub x) (b.sub x)) = 0 := by
      subst hx; simp only [lin, cross, P.sub]; ring
    simp only [this, Real.sqrt_zero, zero_div, hl]
  have L := loop_side x nodes limit hi z others nodes.length 0 m 0 (by simp) (by omega)
  have d : dot 3 (b.sub a) (b.sub a) = lin (b.sub a) (b.sub a) := by simp [dot, lin]
  have al : dot 3 (b.sub a) (x.sub a) / dot 3 (b.sub a) (b.sub a) = t := by
    rw [div_eq_iff (by rw [d]; exact hne)]
    subst hx; simp only [dot, P.sub, if_true]; ring
  simp only [interpolate, L, ea, eb]
  rw [if_neg (by rw [d]; exact hne), al]
  simp [Stencil.put, hab]

/-- Entries that the map had before stay in it for a point inside, divided by the sum of weights, so that the sum of coefficients is not one; for a point on a side they are removed. -/
theorem C157_old_entries_fails (x : P) (nodes : List (Nat × P)) (limit : ℝ) (hd : (nodes.map Prod.fst).Nodup) (n : P)
    (h : ConvexAround n x nodes.length fun i => (node nodes i).2)
    (hl : ∀ i < nodes.length, limit ≤ triple n ((node nodes i).2.sub x) ((node nodes ((i + 1) % nodes.length)).2.sub x) / 2)
    (old : Nat) (c : ℝ) (hc : c ≠ 0) (ho : ∀ i < nodes.length, old ≠ (node nodes i).1) :
    ∃ m d, interpolate x nodes limit [(old, c)] = some m ∧ d ≠ 0 ∧ (old, d) ∈ m ∧ (m.map Prod.snd).sum ≠ 1 := by
  have W := weight_sum_pos h
  have S0 : ((List.range nodes.length).map (weight x nodes)).sum ≠ 0 := ne_of_gt W.2
  have area : ∀ i < nodes.length, limit ≤ triarea3d x (node nodes i).2 (node nodes ((i + 1) % nodes.length)).2 := by
    intro i hi
    rw [triple_cross n _ _ _ h.unit (h.plane i hi) (h.plane _ (Nat.mod_lt _ (by omega)))]
    exact (hl i hi).trans (div_le_div_of_nonneg_right (le_abs_self _) (by norm_num))
  have L := loop_inner x nodes limit hd area nodes.length 0 [(old, c)] 0 (by simp) (by simpa using ho)
  rw [← List.range_eq_range', zero_add] at L
  refine ⟨_, c / ((List.range nodes.length).map (weight x nodes)).sum, by simp only [interpolate, L, ne_eq, S0, not_false_eq_true, if_true]; rfl, div_ne_zero hc S0, by simp, ?_⟩
  simp only [List.map_append, List.map_cons, List.map_nil, List.map_map, List.singleton_append, List.sum_cons]
  have e : ((List.range nodes.length).map (Prod.snd ∘ (fun e : Nat × ℝ => (e.1, e.2 / ((List.range nodes.length).map (weight x nodes)).sum)) ∘ fun j => ((node nodes j).1, weight x nodes j))).sum = 1 := by
    have := sum_div (List.range nodes.length) (weight x nodes) ((List.range nodes.length).map (weight x nodes)).sum
    rw [div_self S0] at this
    exact this
  rw [e]
  have := div_ne_zero hc S0
  intro k
  exact this (by linarith)

/-! ## A case -/

/-- a square with handles 5, 6, 7, 8 -/
def square : List (Nat × P) := [(5, ⟨-1, -1, 0⟩), (6, ⟨1, -1, 0⟩), (7, ⟨1, 1, 0⟩), (8, ⟨-1, 1, 0⟩)]

theorem square_convex : ConvexAround ⟨0, 0, 1⟩ ⟨0, 1 / 2, 0⟩ square.length fun i => (node square i).2 := by
  have four : square.length = 4 := rfl
  refine ⟨by simp [lin], ?_, ?_, ?_, ⟨0, by simp [square], ?_⟩⟩
  · intro i hi
    rw [four] at hi
    interval_cases i <;> simp [node, square, lin]
  · intro i hi
    rw [four] at hi ⊢
    interval_cases i <;> norm_num [node, square, triple, P.sub]
  · intro i hi
    rw [four] at hi ⊢
    interval_cases i <;> norm_num [node, square, triple, P.sub]
  · rw [four]; norm_num [node, square, triple, P.sub]

example : ∀ i < square.length, (1 / 4 : ℝ) ≤ triple ⟨0, 0, 1⟩ ((node square i).2.sub ⟨0, 1 / 2, 0⟩) ((node square ((i + 1) % square.length)).2.sub ⟨0, 1 / 2, 0⟩) / 2 := by
  have four : square.length = 4 := rfl
  intro i hi
  rw [four] at hi ⊢
  interval_cases i <;> norm_num [node, square, triple, P.sub]

end Verif.Geometry.Wachspress
