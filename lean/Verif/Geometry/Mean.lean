import Mathlib.Analysis.Real.Sqrt
import Mathlib.Analysis.SpecialFunctions.Integrals.Basic
import Mathlib.Tactic.Ring
import Mathlib.Tactic.Linarith
import Mathlib.Tactic.Positivity
import Mathlib.Tactic.FieldSimp

/-!
# The mean of a function over an element (C155)

Models `meantri`, `meantet` and `Element::Mean` (`/repo/Source/Mesh/geometry.cpp` L2364-2542) over exact real numbers, with the decimal constants of the code.

Simplifications: faces give their nodes in order (C57) and cells give for each face its nodes and whether it is oriented outside. In two dimensions the third coordinate of a point is zero
(in the code it is not set and functions do not look at it). A division by zero gives `none`.
-/

namespace Verif.Geometry.Mean

/-- a point or a vector -/
structure P where
  x : ℝ
  y : ℝ
  z : ℝ

/-- a combination with coefficients, coordinate by coordinate -/
def P.add (a b : P) : P := ⟨a.x + b.x, a.y + b.y, a.z + b.z⟩
def P.sub (a b : P) : P := ⟨a.x - b.x, a.y - b.y, a.z - b.z⟩
def P.mul (t : ℝ) (a : P) : P := ⟨t * a.x, t * a.y, t * a.z⟩

/-- `vec_cross_product`, L44-53 -/
def cross (a b : P) : P := ⟨a.y * b.z - a.z * b.y, a.z * b.x - a.x * b.z, a.x * b.y - a.y * b.x⟩

/-- `vec_dot_product`, L55-61, for sizes 2 and 3 -/
def dot (dim : Nat) (a b : P) : ℝ := a.x * b.x + a.y * b.y + (if dim = 3 then a.z * b.z else 0)

/-- the constants of L2367 -/
noncomputable def w (i : Nat) : ℝ := match i with
  | 0 => -0.149570044467670
  | 1 => 0.175615257433204
  | 2 => 0.053347235608839
  | _ => 0.077113760890257

/-- the constants of L2368-2374, rows 1 to 3 (row 0 is not used) -/
noncomputable def a (r i : Nat) : ℝ := match r, i with
  | 1, 0 => 0.479308067841923
  | 1, _ => 0.260345966079038
  | 2, 0 => 0.869739794195568
  | 2, _ => 0.065130102902216
  | _, 0 => 0.638444188569809
  | _, 1 => 0.312865496004875
  | _, _ => 0.048690315425316

/-- the point of L2382, L2388, L2395, L2396 -/
def pt (s t : ℝ) (v0 v1 v2 : P) : P := (v0.add (P.mul s (v1.sub v0))).add (P.mul t (v2.sub v0))

/-- `meantri`, L2364-2402 -/
noncomputable def meantri (f : P → ℝ) (v0 v1 v2 : P) : ℝ :=
  let value := w 0 * f (P.mul 0.33333333333333333333 ((v0.add v1).add v2))
  let value := (List.range 3).foldl (fun s i => s + w 1 * f (pt (a 1 i) (a 1 ((i + 1) % 3)) v0 v1 v2)) value
  let value := (List.range 3).foldl (fun s i => s + w 2 * f (pt (a 2 i) (a 2 ((i + 1) % 3)) v0 v1 v2)) value
  (List.range 3).foldl (fun s i => s + w 3 * f (pt (a 3 i) (a 3 ((i + 1) % 3)) v0 v1 v2) + w 3 * f (pt (a 3 ((i + 1) % 3)) (a 3 i) v0 v1 v2)) value

/-- constants of L2407-2412 -/
noncomputable def T5A : ℝ := 0.25
noncomputable def W5A : ℝ := 0.11851851851852
noncomputable def T5B : ℝ := 0.09197107805272
noncomputable def T5C : ℝ := 0.72408676584183
noncomputable def W5B : ℝ := 0.07193708377902
noncomputable def T5D : ℝ := 0.31979362782963
noncomputable def T5E : ℝ := 0.04061911651111
noncomputable def W5C : ℝ := 0.06906820722627
noncomputable def T5F : ℝ := 0.05635083268963
noncomputable def T5G : ℝ := 0.44364916731037
noncomputable def W5D : ℝ := 0.05291005291005

/-- `s (a + b) + t (c + d)` and `s a + t (b + c + d)` of L2418-2433 -/
def two (s t : ℝ) (a b c d : P) : P := (P.mul s (a.add b)).add (P.mul t (c.add d))
def three (s t : ℝ) (a b c d : P) : P := (P.mul s a).add (P.mul t ((b.add c).add d))

/-- `meantet`, L2404-2439 -/
noncomputable def meantet (f : P → ℝ) (v0 v1 v2 v3 : P) : ℝ :=
  ([(W5A, P.mul T5A (((v0.add v1).add v2).add v3)),
    (W5B, three T5C T5B v0 v1 v2 v3), (W5B, three T5C T5B v1 v0 v2 v3), (W5B, three T5C T5B v2 v0 v1 v3), (W5B, three T5C T5B v3 v0 v1 v2),
    (W5C, three T5E T5D v0 v1 v2 v3), (W5C, three T5E T5D v1 v0 v2 v3), (W5C, three T5E T5D v2 v0 v1 v3), (W5C, three T5E T5D v3 v0 v1 v2),
    (W5D, two T5F T5G v0 v1 v2 v3), (W5D, two T5G T5F v0 v1 v2 v3), (W5D, two T5F T5G v0 v3 v1 v2), (W5D, two T5G T5F v0 v3 v1 v2),
    (W5D, two T5F T5G v0 v2 v1 v3), (W5D, two T5G T5F v0 v2 v1 v3)] : List (ℝ × P)).foldl (fun s q => s + q.1 * f q.2) 0

/-- the loop of L2451-2465 over the nodes after the first: `val` and `vol` -/
noncomputable def fan (dim : Nat) (f : P → ℝ) (v0 : P) : List P → ℝ × ℝ → ℝ × ℝ
  | p :: q :: r, acc =>
    let product := cross (p.sub v0) (q.sub v0)
    let tvol := Real.sqrt (dot dim product product) * 0.5
    fan dim f v0 (q :: r) (acc.1 + meantri f v0 p q * tvol, acc.2 + tvol)
  | _, acc => acc

/-- a quotient that is a number -/
noncomputable def quotient (a : ℝ × ℝ) : Option ℝ := if a.2 = 0 then none else some (a.1 / a.2)

/-- `Mean` for elements of dimension 2, L2444-2467 -/
noncomputable def mean2 (dim : Nat) (f : P → ℝ) : List P → Option ℝ
  | [] => none
  | v0 :: r => quotient (fan dim f v0 r (0, 0))

/-- the loop of L2515-2525 over the nodes of a face after the first; `o` is the sign of L2521 -/
noncomputable def fan3 (f : P → ℝ) (x : P) (o : ℝ) (v0 : P) : List P → ℝ × ℝ → ℝ × ℝ
  | p :: q :: r, acc =>
    let tvol := dot 3 (v0.sub x) (cross (p.sub x) (q.sub x)) / 6 * o
    fan3 f x o v0 (q :: r) (acc.1 + meantet f x v0 p q * tvol, acc.2 + tvol)
  | _, acc => acc

/-- the loop of L2513-2527 over faces -/
noncomputable def faces3 (f : P → ℝ) (x : P) : List (Bool × List P) → ℝ × ℝ → ℝ × ℝ
  | [], acc => acc
  | (_, []) :: r, acc => faces3 f x r acc
  | (outside, v0 :: l) :: r, acc => faces3 f x r (fan3 f x (if outside then 1 else -1) v0 l acc)

/-- `det3d` and `det3v`, L73-83 -/
def det (a b c : P) : ℝ := a.x * b.y * c.z - a.z * b.y * c.x + a.y * b.z * c.x - a.x * b.z * c.y + a.z * b.x * c.y - a.y * b.x * c.z

/-- the loop of L2491-2497: `y` and `d` -/
def innerFan (v0 : P) : List P → P × ℝ → P × ℝ
  | p :: q :: r, acc => innerFan v0 (q :: r) (acc.1.add (P.mul (det v0 p q) ((v0.add p).add q)), acc.2 + det v0 p q)
  | _, acc => acc

/-- the loop of L2488-2504: `x` and `vol` before the division -/
def innerFaces : List (Bool × List P) → P × ℝ → P × ℝ
  | [], acc => acc
  | (_, []) :: r, acc => innerFaces r acc
  | (outside, v0 :: l) :: r, acc =>
    let yd := innerFan v0 l (⟨0, 0, 0⟩, 0)
    let o : ℝ := if outside then 1 else -1
    innerFaces r (acc.1.add (P.mul o yd.1), acc.2 + o * yd.2)

/-- the point of L2505-2507 -/
noncomputable def inner (cell : List (Bool × List P)) : Option P :=
  let xv := innerFaces cell (⟨0, 0, 0⟩, 0)
  if xv.2 = 0 then none else some ⟨xv.1.x / (4 * xv.2), xv.1.y / (4 * xv.2), xv.1.z / (4 * xv.2)⟩

/-- `Mean` for cells, L2468-2529 -/
noncomputable def mean3 (f : P → ℝ) (cell : List (Bool × List P)) : Option ℝ :=
  match inner cell with
  | none => none
  | some x => quotient (faces3 f x cell (0, 0))

/-- `Mean` for edges, L2530-2540 -/
noncomputable def mean1 (f : P → ℝ) (x1 x2 : P) : ℝ :=
  (f x1 + 4 * f ⟨(x1.x + x2.x) * 0.5, (x1.y + x2.y) * 0.5, (x1.z + x2.z) * 0.5⟩ + f x2) / 6

/-! ## Specification -/

/-- a linear form -/
def lin (g p : P) : ℝ := g.x * p.x + g.y * p.y + g.z * p.z

/-- parts of an element: the measure of the part and the corners -/
abbrev Parts := List (ℝ × List P)

/-- area of a triangle in space: half of the square root of the sum of squares of its three projections -/
noncomputable def area (a b c : P) : ℝ :=
  Real.sqrt (((b.y - a.y) * (c.z - a.z) - (b.z - a.z) * (c.y - a.y)) ^ 2 + ((b.z - a.z) * (c.x - a.x) - (b.x - a.x) * (c.z - a.z)) ^ 2
    + ((b.x - a.x) * (c.y - a.y) - (b.y - a.y) * (c.x - a.x)) ^ 2) / 2

/-- signed volume of a tetrahedron: a sixth of the determinant of its three edges at the first corner -/
noncomputable def volume (a b c d : P) : ℝ :=
  ((b.x - a.x) * ((c.y - a.y) * (d.z - a.z) - (c.z - a.z) * (d.y - a.y)) - (b.y - a.y) * ((c.x - a.x) * (d.z - a.z) - (c.z - a.z) * (d.x - a.x))
    + (b.z - a.z) * ((c.x - a.x) * (d.y - a.y) - (c.y - a.y) * (d.x - a.x))) / 6

/-- triangles of a polygon from its first node -/
noncomputable def triangles (v0 : P) : List P → Parts
  | p :: q :: r => (area v0 p q, [v0, p, q]) :: triangles v0 (q :: r)
  | _ => []

/-- tetrahedra from the point `x` to the triangles of a face, `o` is the orientation of the face -/
noncomputable def tetrahedra (x : P) (o : ℝ) (v0 : P) : List P → Parts
  | p :: q :: r => (o * volume x v0 p q, [x, v0, p, q]) :: tetrahedra x o v0 (q :: r)
  | _ => []

/-- tetrahedra of a cell -/
noncomputable def cellParts (x : P) (cell : List (Bool × List P)) : Parts :=
  cell.flatMap fun F => match F.2 with
    | [] => []
    | v0 :: l => tetrahedra x (if F.1 then 1 else -1) v0 l

/-- the sum of measures and the sum of their absolute values -/
noncomputable def measure (l : Parts) : ℝ := (l.map Prod.fst).sum
noncomputable def variation (l : Parts) : ℝ := (l.map fun t => |t.1|).sum

/-- the integral of a linear form over the parts: measure times the average over the corners -/
noncomputable def moment (g : P) (l : Parts) : ℝ := (l.map fun t => t.1 * ((t.2.map (lin g)).sum / (t.2.length : ℝ))).sum

/-! ## Helpers -/

theorem tri_affine (c : ℝ) (g v0 v1 v2 : P) (R : ℝ) (h0 : |lin g v0| ≤ R) (h1 : |lin g v1| ≤ R) (h2 : |lin g v2| ≤ R) :
    |meantri (fun p => c + lin g p) v0 v1 v2 - (c + (lin g v0 + lin g v1 + lin g v2) / 3)| ≤ 1e-15 * (|c| + 3 * R) := by
  have e : ∃ S s0 s1 s2 : ℝ, meantri (fun p => c + lin g p) v0 v1 v2 = S * c + s0 * lin g v0 + s1 * lin g v1 + s2 * lin g v2
      ∧ |S - 1| ≤ 1e-15 ∧ |s0 - 1 / 3| ≤ 1e-15 ∧ |s1 - 1 / 3| ≤ 1e-15 ∧ |s2 - 1 / 3| ≤ 1e-15 := by
    refine ⟨w 0 + 3 * w 1 + 3 * w 2 + 6 * w 3,
      w 0 * 0.33333333333333333333 + w 1 * (3 - 2 * (a 1 0 + a 1 1 + a 1 2)) + w 2 * (3 - 2 * (a 2 0 + a 2 1 + a 2 2)) + w 3 * (6 - 4 * (a 3 0 + a 3 1 + a 3 2)),
      w 0 * 0.33333333333333333333 + w 1 * (a 1 0 + a 1 1 + a 1 2) + w 2 * (a 2 0 + a 2 1 + a 2 2) + w 3 * (2 * (a 3 0 + a 3 1 + a 3 2)),
      w 0 * 0.33333333333333333333 + w 1 * (a 1 0 + a 1 1 + a 1 2) + w 2 * (a 2 0 + a 2 1 + a 2 2) + w 3 * (2 * (a 3 0 + a 3 1 + a 3 2)), ?_, ?_, ?_, ?_, ?_⟩
    · simp only [meantri, List.range_succ, List.range_zero, List.nil_append, List.cons_append, List.foldl_cons, List.foldl_nil, pt, P.add, P.sub, P.mul, lin,
        show (0 + 1) % 3 = 1 from rfl, show (1 + 1) % 3 = 2 from rfl, show (2 + 1) % 3 = 0 from rfl]
      ring
    all_goals (simp only [w, a]; rw [abs_le]; constructor <;> norm_num)
  obtain ⟨S, s0, s1, s2, e, b, b0, b1, b2⟩ := e
  rw [e, show S * c + s0 * lin g v0 + s1 * lin g v1 + s2 * lin g v2 - (c + (lin g v0 + lin g v1 + lin g v2) / 3)
    = (S - 1) * c + (s0 - 1 / 3) * lin g v0 + (s1 - 1 / 3) * lin g v1 + (s2 - 1 / 3) * lin g v2 by ring]
  have R0 : 0 ≤ R := le_trans (abs_nonneg _) h0
  have k := mul_le_mul b (le_refl |c|) (abs_nonneg c) (by norm_num)
  have k0 := mul_le_mul b0 h0 (abs_nonneg _) (by norm_num)
  have k1 := mul_le_mul b1 h1 (abs_nonneg _) (by norm_num)
  have k2 := mul_le_mul b2 h2 (abs_nonneg _) (by norm_num)
  rw [← abs_mul] at k k0 k1 k2
  have t1 := abs_add_le ((S - 1) * c + (s0 - 1 / 3) * lin g v0 + (s1 - 1 / 3) * lin g v1) ((s2 - 1 / 3) * lin g v2)
  have t2 := abs_add_le ((S - 1) * c + (s0 - 1 / 3) * lin g v0) ((s1 - 1 / 3) * lin g v1)
  have t3 := abs_add_le ((S - 1) * c) ((s0 - 1 / 3) * lin g v0)
  nlinarith

theorem tet_affine (c : ℝ) (g v0 v1 v2 v3 : P) (R : ℝ) (h0 : |lin g v0| ≤ R) (h1 : |lin g v1| ≤ R) (h2 : |lin g v2| ≤ R) (h3 : |lin g v3| ≤ R) :
    |meantet (fun p => c + lin g p) v0 v1 v2 v3 - (c + (lin g v0 + lin g v1 + lin g v2 + lin g v3) / 4)| ≤ 2e-14 * (|c| + 4 * R) := by
  have e : ∃ S s : ℝ, meantet (fun p => c + lin g p) v0 v1 v2 v3 = S * c + s * (lin g v0 + lin g v1 + lin g v2 + lin g v3)
      ∧ |S - 1| ≤ 2e-14 ∧ |s - 1 / 4| ≤ 2e-14 := by
    refine ⟨W5A + 4 * W5B + 4 * W5C + 6 * W5D, W5A * T5A + W5B * (T5C + 3 * T5B) + W5C * (T5E + 3 * T5D) + 3 * W5D * (T5F + T5G), ?_, ?_, ?_⟩
    · simp only [meantet, List.foldl_cons, List.foldl_nil, two, three, P.add, P.mul, lin]
      ring
    all_goals (simp only [W5A, W5B, W5C, W5D, T5A, T5B, T5C, T5D, T5E, T5F, T5G]; rw [abs_le]; constructor <;> norm_num)
  obtain ⟨S, s, e, b, b0⟩ := e
  rw [e, show S * c + s * (lin g v0 + lin g v1 + lin g v2 + lin g v3) - (c + (lin g v0 + lin g v1 + lin g v2 + lin g v3) / 4)
    = (S - 1) * c + (s - 1 / 4) * (lin g v0 + lin g v1 + lin g v2 + lin g v3) by ring]
  have hs : |lin g v0 + lin g v1 + lin g v2 + lin g v3| ≤ 4 * R := by
    rw [abs_le] at *
    constructor <;> linarith [h0.1, h0.2, h1.1, h1.2, h2.1, h2.2, h3.1, h3.2]
  have k := mul_le_mul b (le_refl |c|) (abs_nonneg c) (by norm_num)
  have k0 := mul_le_mul b0 hs (abs_nonneg _) (by norm_num)
  rw [← abs_mul] at k k0
  have t3 := abs_add_le ((S - 1) * c) ((s - 1 / 4) * (lin g v0 + lin g v1 + lin g v2 + lin g v3))
  linarith

theorem measure_cons (t : ℝ × List P) (l : Parts) : measure (t :: l) = t.1 + measure l := by simp [measure]
theorem variation_cons (t : ℝ × List P) (l : Parts) : variation (t :: l) = |t.1| + variation l := by simp [variation]
theorem moment_cons (g : P) (t : ℝ × List P) (l : Parts) : moment g (t :: l) = t.1 * ((t.2.map (lin g)).sum / (t.2.length : ℝ)) + moment g l := by simp [moment]
theorem measure_append (a b : Parts) : measure (a ++ b) = measure a + measure b := by simp [measure]
theorem variation_append (a b : Parts) : variation (a ++ b) = variation a + variation b := by simp [variation]
theorem moment_append (g : P) (a b : Parts) : moment g (a ++ b) = moment g a + moment g b := by simp [moment]

theorem one_part (t m e K acc val M V : ℝ) (h : |m - e| ≤ K) (ih : |val - (acc + m * t + M)| ≤ K * V) : |val - (acc + (e * t + M))| ≤ K * (|t| + V) := by
  have k := mul_le_mul h (le_refl |t|) (abs_nonneg t) (le_trans (abs_nonneg _) h)
  rw [← abs_mul] at k
  have e1 : val - (acc + (e * t + M)) = (val - (acc + m * t + M)) + (m - e) * t := by ring
  rw [e1]
  have := abs_add_le (val - (acc + m * t + M)) ((m - e) * t)
  linarith

theorem tvol_area (v0 p q : P) : Real.sqrt (dot 3 (cross (p.sub v0) (q.sub v0)) (cross (p.sub v0) (q.sub v0))) * 0.5 = area v0 p q := by
  simp only [dot, cross, P.sub, area, if_true]
  rw [show (0.5 : ℝ) = 1 / 2 by norm_num, mul_one_div]
  congr 2
  ring

theorem tvol_volume (x v0 p q : P) (o : ℝ) : dot 3 (v0.sub x) (cross (p.sub x) (q.sub x)) / 6 * o = o * volume x v0 p q := by
  simp only [dot, cross, P.sub, volume, if_true]
  ring

theorem fan_spec (c : ℝ) (g v0 : P) (R : ℝ) (h0 : |lin g v0| ≤ R) : ∀ (l : List P) (acc : ℝ × ℝ), (∀ p ∈ l, |lin g p| ≤ R) →
    (fan 3 (fun p => c + lin g p) v0 l acc).2 = acc.2 + measure (triangles v0 l)
    ∧ |(fan 3 (fun p => c + lin g p) v0 l acc).1 - (acc.1 + (c * measure (triangles v0 l) + moment g (triangles v0 l)))|
      ≤ 1e-15 * (|c| + 3 * R) * variation (triangles v0 l)
  | [], acc, _ => by simp [fan, triangles, measure, moment, variation]
  | [p], acc, _ => by simp [fan, triangles, measure, moment, variation]
  | p :: q :: r, acc, h => by
    have ih := fan_spec c g v0 R h0 (q :: r) (acc.1 + meantri (fun p => c + lin g p) v0 p q * area v0 p q, acc.2 + area v0 p q) (fun y hy => h y (List.mem_cons_of_mem _ hy))
    have m := tri_affine c g v0 p q R h0 (h p (by simp)) (h q (by simp))
    rw [triangles, measure_cons, moment_cons, variation_cons]
    simp only [fan, tvol_area]
    refine ⟨by rw [ih.1]; ring, ?_⟩
    have := one_part (area v0 p q) _ _ _ acc.1 _ _ _ m ih.2
    refine le_trans (le_of_eq ?_) this
    congr 1
    simp
    ring

theorem fan3_spec (c : ℝ) (g x : P) (o : ℝ) (v0 : P) (R : ℝ) (hx : |lin g x| ≤ R) (h0 : |lin g v0| ≤ R) : ∀ (l : List P) (acc : ℝ × ℝ), (∀ p ∈ l, |lin g p| ≤ R) →
    (fan3 (fun p => c + lin g p) x o v0 l acc).2 = acc.2 + measure (tetrahedra x o v0 l)
    ∧ |(fan3 (fun p => c + lin g p) x o v0 l acc).1 - (acc.1 + (c * measure (tetrahedra x o v0 l) + moment g (tetrahedra x o v0 l)))|
      ≤ 2e-14 * (|c| + 4 * R) * variation (tetrahedra x o v0 l)
  | [], acc, _ => by simp [fan3, tetrahedra, measure, moment, variation]
  | [p], acc, _ => by simp [fan3, tetrahedra, measure, moment, variation]
  | p :: q :: r, acc, h => by
    have ih := fan3_spec c g x o v0 R hx h0 (q :: r)
      (acc.1 + meantet (fun p => c + lin g p) x v0 p q * (o * volume x v0 p q), acc.2 + o * volume x v0 p q) (fun y hy => h y (List.mem_cons_of_mem _ hy))
    have m := tet_affine c g x v0 p q R hx h0 (h p (by simp)) (h q (by simp))
    rw [tetrahedra, measure_cons, moment_cons, variation_cons]
    simp only [fan3, tvol_volume]
    refine ⟨by rw [ih.1]; ring, ?_⟩
    have := one_part (o * volume x v0 p q) _ _ _ acc.1 _ _ _ m ih.2
    refine le_trans (le_of_eq ?_) this
    congr 1
    simp
    ring

theorem cellParts_cons (x : P) (b : Bool) (v0 : P) (l : List P) (r : List (Bool × List P)) :
    cellParts x ((b, v0 :: l) :: r) = tetrahedra x (if b then 1 else -1) v0 l ++ cellParts x r := by
  simp [cellParts]

theorem cellParts_nil (x : P) (b : Bool) (r : List (Bool × List P)) : cellParts x ((b, []) :: r) = cellParts x r := by
  simp [cellParts]

theorem faces3_spec (c : ℝ) (g x : P) (R : ℝ) (hx : |lin g x| ≤ R) : ∀ (cell : List (Bool × List P)) (acc : ℝ × ℝ), (∀ F ∈ cell, ∀ p ∈ F.2, |lin g p| ≤ R) →
    (faces3 (fun p => c + lin g p) x cell acc).2 = acc.2 + measure (cellParts x cell)
    ∧ |(faces3 (fun p => c + lin g p) x cell acc).1 - (acc.1 + (c * measure (cellParts x cell) + moment g (cellParts x cell)))|
      ≤ 2e-14 * (|c| + 4 * R) * variation (cellParts x cell)
  | [], acc, _ => by simp [faces3, cellParts, measure, moment, variation]
  | (b, []) :: r, acc, h => by
    rw [cellParts_nil]
    exact faces3_spec c g x R hx r acc (fun F hF => h F (List.mem_cons_of_mem _ hF))
  | (b, v0 :: l) :: r, acc, h => by
    have hh := h (b, v0 :: l) (by simp)
    have f := fan3_spec c g x (if b then 1 else -1) v0 R hx (hh v0 (by simp)) l acc (fun p hp => hh p (by simp [hp]))
    have ih := faces3_spec c g x R hx r (fan3 (fun p => c + lin g p) x (if b then 1 else -1) v0 l acc) (fun F hF => h F (List.mem_cons_of_mem _ hF))
    rw [cellParts_cons, measure_append, moment_append, variation_append]
    simp only [faces3]
    refine ⟨by rw [ih.1, f.1]; ring, ?_⟩
    have t := abs_add_le _ _ |>.trans (add_le_add ih.2 f.2)
    refine le_trans (le_of_eq ?_) (t.trans (le_of_eq ?_))
    · congr 1; ring
    · ring

theorem quotient_spec {val vol c M K : ℝ} (h0 : vol ≠ 0) (h : |val - (c * vol + M)| ≤ K) : |val / vol - (c + M / vol)| ≤ K / |vol| := by
  have : val / vol - (c + M / vol) = (val - (c * vol + M)) / vol := by field_simp
  rw [this, abs_div]
  exact div_le_div_of_nonneg_right h (abs_nonneg _)

theorem area_nonneg (a b c : P) : 0 ≤ area a b c := by unfold area; positivity

theorem triangles_variation (v0 : P) : ∀ l, variation (triangles v0 l) = measure (triangles v0 l)
  | [] => by simp [triangles, measure, variation]
  | [p] => by simp [triangles, measure, variation]
  | p :: q :: r => by rw [triangles, measure_cons, variation_cons, triangles_variation v0 (q :: r), abs_of_nonneg (area_nonneg _ _ _)]

theorem fan3_const (c : ℝ) (x : P) (o : ℝ) (v0 : P) : ∀ (l : List P) (acc : ℝ × ℝ),
    (fan3 (fun _ => c) x o v0 l acc).2 = acc.2 + measure (tetrahedra x o v0 l)
    ∧ (fan3 (fun _ => c) x o v0 l acc).1 = acc.1 + meantet (fun _ => c) x x x x * measure (tetrahedra x o v0 l)
  | [], acc => by simp [fan3, tetrahedra, measure]
  | [p], acc => by simp [fan3, tetrahedra, measure]
  | p :: q :: r, acc => by
    have ih := fan3_const c x o v0 (q :: r) (acc.1 + meantet (fun _ => c) x v0 p q * (o * volume x v0 p q), acc.2 + o * volume x v0 p q)
    rw [tetrahedra, measure_cons]
    simp only [fan3, tvol_volume]
    have : meantet (fun _ => c) x v0 p q = meantet (fun _ => c) x x x x := by simp only [meantet, List.foldl_cons, List.foldl_nil]
    refine ⟨by rw [ih.1]; ring, ?_⟩
    rw [ih.2, this]; ring

theorem faces3_const (c : ℝ) (x : P) : ∀ (cell : List (Bool × List P)) (acc : ℝ × ℝ),
    (faces3 (fun _ => c) x cell acc).2 = acc.2 + measure (cellParts x cell)
    ∧ (faces3 (fun _ => c) x cell acc).1 = acc.1 + meantet (fun _ => c) x x x x * measure (cellParts x cell)
  | [], acc => by simp [faces3, cellParts, measure]
  | (b, []) :: r, acc => by
    rw [cellParts_nil]
    exact faces3_const c x r acc
  | (b, v0 :: l) :: r, acc => by
    have f := fan3_const c x (if b then 1 else -1) v0 l acc
    have ih := faces3_const c x r (fan3 (fun _ => c) x (if b then 1 else -1) v0 l acc)
    rw [cellParts_cons, measure_append]
    simp only [faces3]
    exact ⟨by rw [ih.1, f.1]; ring, by rw [ih.2, f.2]; ring⟩

/-! ## C155 -/

/-- Mean over an edge: exact for every function that is a cubic polynomial along the edge. -/
theorem C155_edge (f : P → ℝ) (x1 x2 : P) (k0 k1 k2 k3 : ℝ)
    (h : ∀ t : ℝ, f ⟨x1.x + t * (x2.x - x1.x), x1.y + t * (x2.y - x1.y), x1.z + t * (x2.z - x1.z)⟩ = k0 + k1 * t + k2 * t ^ 2 + k3 * t ^ 3) :
    mean1 f x1 x2 = ∫ t in (0 : ℝ)..1, f ⟨x1.x + t * (x2.x - x1.x), x1.y + t * (x2.y - x1.y), x1.z + t * (x2.z - x1.z)⟩ := by
  have i : (∫ t in (0 : ℝ)..1, k0 + k1 * t + k2 * t ^ 2 + k3 * t ^ 3) = k0 + k1 / 2 + k2 / 3 + k3 / 4 := by
    rw [intervalIntegral.integral_eq_sub_of_hasDerivAt (f := fun t => k0 * t + k1 / 2 * t ^ 2 + k2 / 3 * t ^ 3 + k3 / 4 * t ^ 4)]
    · norm_num
    · intro t _
      have := ((((hasDerivAt_id t).const_mul k0).add ((hasDerivAt_pow 2 t).const_mul (k1 / 2))).add ((hasDerivAt_pow 3 t).const_mul (k2 / 3))).add
        ((hasDerivAt_pow 4 t).const_mul (k3 / 4))
      refine HasDerivAt.congr_deriv (f := fun t => k0 * t + k1 / 2 * t ^ 2 + k2 / 3 * t ^ 3 + k3 / 4 * t ^ 4) this ?_
      push_cast
      ring
    · exact Continuous.intervalIntegrable (by fun_prop) _ _
  simp only [h]
  rw [i]
  have a0 := h 0
  have a1 := h 1
  have a2 := h (1 / 2)
  rw [show (⟨x1.x + 0 * (x2.x - x1.x), x1.y + 0 * (x2.y - x1.y), x1.z + 0 * (x2.z - x1.z)⟩ : P) = x1 by simp] at a0
  rw [show (⟨x1.x + 1 * (x2.x - x1.x), x1.y + 1 * (x2.y - x1.y), x1.z + 1 * (x2.z - x1.z)⟩ : P) = x2 by simp] at a1
  rw [show (⟨x1.x + 1 / 2 * (x2.x - x1.x), x1.y + 1 / 2 * (x2.y - x1.y), x1.z + 1 / 2 * (x2.z - x1.z)⟩ : P)
    = ⟨(x1.x + x2.x) * 0.5, (x1.y + x2.y) * 0.5, (x1.z + x2.z) * 0.5⟩ by simp only [P.mk.injEq]; refine ⟨?_, ?_, ?_⟩ <;> norm_num <;> ring] at a2
  rw [mean1, a0, a1, a2]
  ring

/-- a cubic function along an edge -/
example : ∀ t : ℝ, (fun p : P => p.x ^ 3 + p.y) ⟨0 + t * (2 - 0), 1 + t * (3 - 1), 0 + t * (0 - 0)⟩ = 1 + 2 * t + 0 * t ^ 2 + 8 * t ^ 3 := by
  intro t; simp only; ring

/-- Mean over a face in space of an affine function is its value at the centre of the triangles from the first node, weighted with their areas,
up to the rounding of the decimal constants. -/
theorem C155_face_partial (c : ℝ) (g : P) (R : ℝ) (v0 : P) (l : List P) (h : ∀ p ∈ v0 :: l, |lin g p| ≤ R) (ha : measure (triangles v0 l) ≠ 0) :
    ∃ m, mean2 3 (fun p => c + lin g p) (v0 :: l) = some m
      ∧ |m - (c + moment g (triangles v0 l) / measure (triangles v0 l))| ≤ 1e-15 * (|c| + 3 * R) := by
  have f := fan_spec c g v0 R (h v0 (by simp)) l (0, 0) (fun p hp => h p (by simp [hp]))
  simp only [zero_add] at f
  refine ⟨_, by rw [mean2, quotient, if_neg (by rw [f.1]; exact ha)], ?_⟩
  have q := quotient_spec ha f.2
  rw [f.1]
  refine le_trans q (le_of_eq ?_)
  have pos : |measure (triangles v0 l)| = variation (triangles v0 l) := by
    rw [← triangles_variation]
    exact abs_of_nonneg (List.sum_nonneg (by simp only [List.mem_map]; rintro _ ⟨t, _, rfl⟩; exact abs_nonneg _))
  rw [pos]
  have : variation (triangles v0 l) ≠ 0 := by rw [triangles_variation]; exact ha
  field_simp

/-- Mean over a triangle of a product of two linear functions is a twelfth of the sum of products over pairs of corners plus a twelfth of the sum of products at corners,
which is the integral over the triangle divided by its area, up to the rounding of the constants. -/
theorem C155_triangle_quadratic (g h v0 v1 v2 : P) (R Q : ℝ) (hg : ∀ p ∈ [v0, v1, v2], |lin g p| ≤ R) (hh : ∀ p ∈ [v0, v1, v2], |lin h p| ≤ Q) (ha : area v0 v1 v2 ≠ 0) :
    ∃ m, mean2 3 (fun p => lin g p * lin h p) [v0, v1, v2] = some m
      ∧ |m - ((lin g v0 + lin g v1 + lin g v2) * (lin h v0 + lin h v1 + lin h v2) + lin g v0 * lin h v0 + lin g v1 * lin h v1 + lin g v2 * lin h v2) / 12| ≤ 1e-14 * (R * Q) := by
  refine ⟨meantri (fun p => lin g p * lin h p) v0 v1 v2, ?_, ?_⟩
  · simp only [mean2, fan, tvol_area, quotient, zero_add, if_neg ha]
    rw [mul_div_assoc, div_self ha, mul_one]
  have e : ∃ a00 a01 a02 a10 a11 a12 a20 a21 a22 : ℝ, meantri (fun p => lin g p * lin h p) v0 v1 v2 = a00 * (lin g v0 * lin h v0) + a01 * (lin g v0 * lin h v1) + a02 * (lin g v0 * lin h v2) + a10 * (lin g v1 * lin h v0) + a11 * (lin g v1 * lin h v1) + a12 * (lin g v1 * lin h v2) + a20 * (lin g v2 * lin h v0) + a21 * (lin g v2 * lin h v1) + a22 * (lin g v2 * lin h v2)
      ∧ |a00 - 1 / 6| ≤ 1e-15 ∧ |a01 - 1 / 12| ≤ 1e-15 ∧ |a02 - 1 / 12| ≤ 1e-15 ∧ |a10 - 1 / 12| ≤ 1e-15 ∧ |a11 - 1 / 6| ≤ 1e-15 ∧ |a12 - 1 / 12| ≤ 1e-15 ∧ |a20 - 1 / 12| ≤ 1e-15 ∧ |a21 - 1 / 12| ≤ 1e-15 ∧ |a22 - 1 / 6| ≤ 1e-15 := by
    refine ⟨166666666666667218644304641431607626669001093221728137 / 1000000000000000000000000000000000000000000000000000000, 83333333333333399626937012636421753332163627221728137 / 1000000000000000000000000000000000000000000000000000000, 83333333333333399626937012636421753332163627221728137 / 1000000000000000000000000000000000000000000000000000000, 83333333333333399626937012636421753332163627221728137 / 1000000000000000000000000000000000000000000000000000000, 166666666666666867413789775023432011411567889221728137 / 1000000000000000000000000000000000000000000000000000000, 83333333333333224011679579432597368589596831221728137 / 1000000000000000000000000000000000000000000000000000000, 83333333333333399626937012636421753332163627221728137 / 1000000000000000000000000000000000000000000000000000000, 83333333333333224011679579432597368589596831221728137 / 1000000000000000000000000000000000000000000000000000000, 166666666666666867413789775023432011411567889221728137 / 1000000000000000000000000000000000000000000000000000000, ?_, ?_, ?_, ?_, ?_, ?_, ?_, ?_, ?_, ?_⟩
    · simp only [meantri, List.range_succ, List.range_zero, List.nil_append, List.cons_append, List.foldl_cons, List.foldl_nil, pt, P.add, P.sub, P.mul, lin,
        show (0 + 1) % 3 = 1 from rfl, show (1 + 1) % 3 = 2 from rfl, show (2 + 1) % 3 = 0 from rfl, w, a]
      ring
    all_goals (rw [abs_le]; constructor <;> norm_num)
  obtain ⟨a00, a01, a02, a10, a11, a12, a20, a21, a22, e, ba00, ba01, ba02, ba10, ba11, ba12, ba20, ba21, ba22⟩ := e
  have R0 : 0 ≤ R := le_trans (abs_nonneg _) (hg v0 (by simp))
  have Q0 : 0 ≤ Q := le_trans (abs_nonneg _) (hh v0 (by simp))
  have term : ∀ (c d : ℝ) (p q : P), |c - d| ≤ 1e-15 → p ∈ [v0, v1, v2] → q ∈ [v0, v1, v2] → |(c - d) * (lin g p * lin h q)| ≤ 1e-15 * (R * Q) := by
    intro c d p q hc hp hq
    rw [abs_mul, abs_mul]
    exact mul_le_mul hc (mul_le_mul (hg p hp) (hh q hq) (abs_nonneg _) R0) (by positivity) (by norm_num)
  have t00 := abs_le.1 (term _ _ v0 v0 ba00 (by simp) (by simp))
  have t01 := abs_le.1 (term _ _ v0 v1 ba01 (by simp) (by simp))
  have t02 := abs_le.1 (term _ _ v0 v2 ba02 (by simp) (by simp))
  have t10 := abs_le.1 (term _ _ v1 v0 ba10 (by simp) (by simp))
  have t11 := abs_le.1 (term _ _ v1 v1 ba11 (by simp) (by simp))
  have t12 := abs_le.1 (term _ _ v1 v2 ba12 (by simp) (by simp))
  have t20 := abs_le.1 (term _ _ v2 v0 ba20 (by simp) (by simp))
  have t21 := abs_le.1 (term _ _ v2 v1 ba21 (by simp) (by simp))
  have t22 := abs_le.1 (term _ _ v2 v2 ba22 (by simp) (by simp))
  have RQ : 0 ≤ R * Q := mul_nonneg R0 Q0
  rw [e, abs_le]
  constructor <;> nlinarith

example : area ⟨0, 0, 0⟩ ⟨4, 0, 0⟩ ⟨1, 1, 0⟩ ≠ 0 := by
  have : area ⟨0, 0, 0⟩ ⟨4, 0, 0⟩ ⟨1, 1, 0⟩ = 2 := by unfold area; rw [show ((0 - 0) * (0 - 0) - (0 - 0) * (1 - 0) : ℝ) ^ 2 + ((0 - 0) * (1 - 0) - (4 - 0) * (0 - 0)) ^ 2
    + ((4 - 0) * (1 - 0) - (0 - 0) * (1 - 0)) ^ 2 = 4 * 4 by norm_num, Real.sqrt_mul_self (by norm_num)]; norm_num
  rw [this]; norm_num

/-- Mean over a cell of an affine function is its value at the centre of the tetrahedra, weighted with their signed volumes, up to the rounding of the constants. -/
theorem C155_cell_partial (c : ℝ) (g : P) (R : ℝ) (cell : List (Bool × List P)) (x : P) (hi : inner cell = some x) (hx : |lin g x| ≤ R)
    (h : ∀ F ∈ cell, ∀ p ∈ F.2, |lin g p| ≤ R) (hv : measure (cellParts x cell) ≠ 0) :
    ∃ m, mean3 (fun p => c + lin g p) cell = some m
      ∧ |m - (c + moment g (cellParts x cell) / measure (cellParts x cell))| ≤ 2e-14 * (|c| + 4 * R) * variation (cellParts x cell) / |measure (cellParts x cell)| := by
  have f := faces3_spec c g x R hx cell (0, 0) h
  simp only [zero_add] at f
  refine ⟨_, by rw [mean3, hi]; simp only; rw [quotient, if_neg (by rw [f.1]; exact hv)], ?_⟩
  rw [f.1]
  exact quotient_spec hv f.2

/-- Mean of a constant over any cell of nonzero volume is the constant, up to the rounding of the weights, whatever signs the tetrahedra have. -/
theorem C155_cell_constant (c : ℝ) (cell : List (Bool × List P)) (x : P) (hi : inner cell = some x) (hv : measure (cellParts x cell) ≠ 0) :
    ∃ m, mean3 (fun _ => c) cell = some m ∧ |m - c| ≤ 2e-14 * |c| := by
  have f := faces3_const c x cell (0, 0)
  simp only [zero_add] at f
  refine ⟨_, by rw [mean3, hi]; simp only; rw [quotient, if_neg (by rw [f.1]; exact hv)], ?_⟩
  rw [f.1, f.2, mul_div_assoc, div_self hv, mul_one]
  have := tet_affine c ⟨0, 0, 0⟩ x x x x 0 (by simp [lin]) (by simp [lin]) (by simp [lin]) (by simp [lin])
  simpa [lin] using this

/-- the unit tetrahedron -/
noncomputable def unitTet : List (Bool × List P) :=
  [(true, [⟨0, 0, 0⟩, ⟨0, 1, 0⟩, ⟨1, 0, 0⟩]), (false, [⟨0, 0, 0⟩, ⟨0, 0, 1⟩, ⟨1, 0, 0⟩]), (true, [⟨0, 0, 0⟩, ⟨0, 0, 1⟩, ⟨0, 1, 0⟩]), (true, [⟨1, 0, 0⟩, ⟨0, 1, 0⟩, ⟨0, 0, 1⟩])]

example : inner unitTet = some ⟨1 / 4, 1 / 4, 1 / 4⟩ := by
  simp [inner, unitTet, innerFaces, innerFan, det, P.add, P.mul]

example : measure (cellParts ⟨1 / 4, 1 / 4, 1 / 4⟩ unitTet) = 1 / 6 ∧ variation (cellParts ⟨1 / 4, 1 / 4, 1 / 4⟩ unitTet) = 1 / 6 := by
  simp [measure, variation, cellParts, unitTet, tetrahedra, volume]
  norm_num

/-- With two dimensions the code takes two of three components of the normal, which are zero: the mean over every polygon is `0/0`. -/
theorem C155_plane_fails (f : P → ℝ) (l : List P) (h : ∀ p ∈ l, p.z = 0) : mean2 2 f l = none := by
  have aux : ∀ (v0 : P) (_ : v0.z = 0) (l : List P) (acc : ℝ × ℝ), (∀ p ∈ l, p.z = 0) → (fan 2 f v0 l acc).2 = acc.2 := by
    intro v0 h0 l
    induction l with
    | nil => intro acc _; rfl
    | cons p r ih =>
      intro acc hl
      cases r with
      | nil => rfl
      | cons q r =>
        have hp := hl p (by simp)
        have hq := hl q (by simp)
        rw [fan, ih _ (fun y hy => hl y (List.mem_cons_of_mem _ hy))]
        simp [dot, cross, P.sub, h0, hp, hq]
  cases l with
  | nil => rfl
  | cons v0 r => rw [mean2, quotient, if_pos (aux v0 (h v0 (by simp)) r (0, 0) (fun p hp => h p (by simp [hp])))]

theorem sqrt_sq_num (a b : ℝ) (h : 0 ≤ b) (e : a = b * b) : Real.sqrt a = b := by rw [e, Real.sqrt_mul_self h]

/-- The areas of triangles of a face have no sign: for a polygon that is not convex the mean depends on its first node. -/
theorem C155_nonconvex_fails : ∃ m m', mean2 3 (fun p => 0 + lin ⟨1, 0, 0⟩ p) [⟨0, 0, 0⟩, ⟨4, 0, 0⟩, ⟨1, 1, 0⟩, ⟨0, 4, 0⟩] = some m
    ∧ mean2 3 (fun p => 0 + lin ⟨1, 0, 0⟩ p) [⟨4, 0, 0⟩, ⟨1, 1, 0⟩, ⟨0, 4, 0⟩, ⟨0, 0, 0⟩] = some m' ∧ |m - 1| ≤ 1e-13 ∧ |m' - 13 / 9| ≤ 1e-13 := by
  have A1 : area ⟨0, 0, 0⟩ ⟨4, 0, 0⟩ ⟨1, 1, 0⟩ = 2 := by unfold area; rw [sqrt_sq_num _ 4] <;> norm_num
  have A2 : area ⟨0, 0, 0⟩ ⟨1, 1, 0⟩ ⟨0, 4, 0⟩ = 2 := by unfold area; rw [sqrt_sq_num _ 4] <;> norm_num
  have B1 : area ⟨4, 0, 0⟩ ⟨1, 1, 0⟩ ⟨0, 4, 0⟩ = 4 := by unfold area; rw [sqrt_sq_num _ 8] <;> norm_num
  have B2 : area ⟨4, 0, 0⟩ ⟨0, 4, 0⟩ ⟨0, 0, 0⟩ = 8 := by unfold area; rw [sqrt_sq_num _ 16] <;> norm_num
  obtain ⟨m, e, b⟩ := C155_face_partial 0 ⟨1, 0, 0⟩ 4 ⟨0, 0, 0⟩ [⟨4, 0, 0⟩, ⟨1, 1, 0⟩, ⟨0, 4, 0⟩] (by simp [lin])
    (by simp only [triangles, measure, A1, A2, List.map_cons, List.map_nil, List.sum_cons, List.sum_nil]; norm_num)
  obtain ⟨m', e', b'⟩ := C155_face_partial 0 ⟨1, 0, 0⟩ 4 ⟨4, 0, 0⟩ [⟨1, 1, 0⟩, ⟨0, 4, 0⟩, ⟨0, 0, 0⟩] (by simp [lin])
    (by simp only [triangles, measure, B1, B2, List.map_cons, List.map_nil, List.sum_cons, List.sum_nil]; norm_num)
  refine ⟨m, m', e, e', ?_, ?_⟩
  · simp only [triangles, measure, moment, A1, A2, List.map_cons, List.map_nil, List.sum_cons, List.sum_nil, lin, List.length_cons, List.length_nil] at b
    norm_num at b ⊢
    exact le_trans b (by norm_num)
  · simp only [triangles, measure, moment, B1, B2, List.map_cons, List.map_nil, List.sum_cons, List.sum_nil, lin, List.length_cons, List.length_nil] at b'
    norm_num at b' ⊢
    exact le_trans b' (by norm_num)

end Verif.Geometry.Mean
