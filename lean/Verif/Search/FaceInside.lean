import Verif.Search.Ray

/-!
Test of a point in a face, `Face::Inside`, geometry.cpp L285-342, in exact arithmetic.
-/

namespace Verif.FaceInside

open Verif.Ray

/-- One triangle, L329-338; `c` is the centre of the face. -/
def side (p c a b : V) : Bool :=
  let d3 := sub p c
  let d4 := sub p a
  let d5 := sub p b
  let d6 := cross d3 d4
  let d7 := cross d4 d5
  let d8 := cross d5 d3
  decide (dot d6 d7 ≥ 0 ∧ dot d7 d8 ≥ 0 ∧ dot d8 d6 ≥ 0)

/-- The part for faces with an area, L312-341, three dimensions. `nrm` is the result of
`UnitNormal`, `cnt` the result of `Centroid`. -/
def inside (eps : ℚ) (nrm cnt : V) (nodes : List V) (p : V) : Bool :=
  let v := sub cnt p
  let d := dot nrm v
  if |d| > eps then false
  else (List.range nodes.length).any fun i => side p cnt (at' nodes i) (at' nodes ((i + 1) % nodes.length))

/-- The part for edges, L292-310, three dimensions; the comparison `area / len > eps` of L307-308 is
written without roots. `none` is the failed assertion of L304. -/
def insideEdge (eps : ℚ) (v1 v2 p : V) : Option Bool :=
  let r1 := sub p v1
  let r2 := sub p v2
  let v12 := sub v2 v1
  let nrm := cross r1 v12
  if dot v12 v12 > (1 / 10 ^ 20) ^ 2 then
    if dot nrm nrm > eps ^ 2 * dot v12 v12 then some false
    else some (decide (dot r1 r2 ≤ 0))
  else none

/-- The same part with two dimensions. The third entries of `r1` and `v12` are not set by `vec_diff`,
they have the values `g1` and `g2` that were in memory; `vec_len(nrm,dim)` takes the first two entries. -/
def insideEdge2 (g1 g2 eps : ℚ) (v1 v2 p : ℚ × ℚ) : Option Bool :=
  let r1 : V := ⟨p.1 - v1.1, p.2 - v1.2, g1⟩
  let r2 : ℚ × ℚ := (p.1 - v2.1, p.2 - v2.2)
  let v12 : V := ⟨v2.1 - v1.1, v2.2 - v1.2, g2⟩
  let nrm := cross r1 v12
  let len2 := v12.x * v12.x + v12.y * v12.y
  if len2 > (1 / 10 ^ 20) ^ 2 then
    if nrm.x * nrm.x + nrm.y * nrm.y > eps ^ 2 * len2 then some false
    else some (decide (r1.x * r2.1 + r1.y * r2.2 ≤ 0))
  else none

/-! ## Lemmas -/

/-- Three vectors orthogonal to a vector that is not zero. -/
theorem det_zero (n a b c : V) (hn : n ≠ ⟨0, 0, 0⟩) (ha : dot n a = 0) (hb : dot n b = 0) (hc : dot n c = 0) : dot (cross a b) c = 0 := by
  have hx : dot (cross a b) c * n.x = 0 := by
    simp only [dot, cross] at *
    linear_combination (b.y * c.z - b.z * c.y) * ha + (c.y * a.z - c.z * a.y) * hb + (a.y * b.z - a.z * b.y) * hc
  have hy : dot (cross a b) c * n.y = 0 := by
    simp only [dot, cross] at *
    linear_combination (b.z * c.x - b.x * c.z) * ha + (c.z * a.x - c.x * a.z) * hb + (a.z * b.x - a.x * b.z) * hc
  have hz : dot (cross a b) c * n.z = 0 := by
    simp only [dot, cross] at *
    linear_combination (b.x * c.y - b.y * c.x) * ha + (c.x * a.y - c.y * a.x) * hb + (a.x * b.y - a.y * b.x) * hc
  by_contra h
  exact hn (V.ext ((mul_eq_zero.1 hx).resolve_left h) ((mul_eq_zero.1 hy).resolve_left h) ((mul_eq_zero.1 hz).resolve_left h))

theorem dot_self_pos {w : V} (h : w ≠ ⟨0, 0, 0⟩) : 0 < dot w w := by
  have hx := mul_self_nonneg w.x
  have hy := mul_self_nonneg w.y
  have hz := mul_self_nonneg w.z
  rcases lt_or_eq_of_le (show 0 ≤ dot w w by simp only [dot]; linarith) with h' | h'
  · exact h'
  · simp only [dot] at h'
    exact absurd (V.ext (mul_self_eq_zero.1 (by linarith)) (mul_self_eq_zero.1 (by linarith)) (mul_self_eq_zero.1 (by linarith))) h

theorem signs {u v w G : ℚ} (hG : 0 < G) (h : u + v + w = 1) : (v * w * G ≥ 0 ∧ w * u * G ≥ 0 ∧ u * v * G ≥ 0) ↔ 0 ≤ u ∧ 0 ≤ v ∧ 0 ≤ w := by
  constructor
  · rintro ⟨h1, h2, h3⟩
    have h1 : 0 ≤ v * w := nonneg_of_mul_nonneg_left h1 hG
    have h2 : 0 ≤ w * u := nonneg_of_mul_nonneg_left h2 hG
    have h3 : 0 ≤ u * v := nonneg_of_mul_nonneg_left h3 hG
    refine ⟨?_, ?_, ?_⟩
    · nlinarith [mul_self_nonneg u]
    · nlinarith [mul_self_nonneg v]
    · nlinarith [mul_self_nonneg w]
  · rintro ⟨h1, h2, h3⟩
    exact ⟨mul_nonneg (mul_nonneg h2 h3) hG.le, mul_nonneg (mul_nonneg h3 h1) hG.le, mul_nonneg (mul_nonneg h1 h2) hG.le⟩

theorem side_iff {p c a b : V} {u v : ℚ} (h : Combination c a b u v p) (hG : 0 < dot (cross (sub a c) (sub b c)) (cross (sub a c) (sub b c))) :
    side p c a b = true ↔ 0 ≤ u ∧ 0 ≤ v ∧ 0 ≤ 1 - u - v := by
  obtain ⟨c1, c2, c3⟩ := h
  have e6 : cross (sub p c) (sub p a) = ⟨v * (cross (sub a c) (sub b c)).x, v * (cross (sub a c) (sub b c)).y, v * (cross (sub a c) (sub b c)).z⟩ := by
    simp only [cross, sub, c1, c2, c3]
    congr 1 <;> ring
  have e7 : cross (sub p a) (sub p b) =
      ⟨(1 - u - v) * (cross (sub a c) (sub b c)).x, (1 - u - v) * (cross (sub a c) (sub b c)).y, (1 - u - v) * (cross (sub a c) (sub b c)).z⟩ := by
    simp only [cross, sub, c1, c2, c3]
    congr 1 <;> ring
  have e8 : cross (sub p b) (sub p c) = ⟨u * (cross (sub a c) (sub b c)).x, u * (cross (sub a c) (sub b c)).y, u * (cross (sub a c) (sub b c)).z⟩ := by
    simp only [cross, sub, c1, c2, c3]
    congr 1 <;> ring
  rw [← signs hG (by ring : u + v + (1 - u - v) = 1)]
  unfold side
  simp only [e6, e7, e8, decide_eq_true_eq]
  simp only [dot]
  constructor
  · rintro ⟨h1, h2, h3⟩
    exact ⟨by linarith, by linarith, by linarith⟩
  · rintro ⟨h1, h2, h3⟩
    exact ⟨by linarith, by linarith, by linarith⟩

/-! ## Properties -/

/-- C161, full claim: `Inside` holds for a point of the plane of a face exactly if the point lies in
the face, which is the union of the triangles of the centre with the sides. Proved for plane faces
whose centre is not on the line of a side. -/
theorem C161_plane_partial (eps : ℚ) (he : 0 ≤ eps) (nrm cnt : V) (nodes : List V) (D : ℚ) (p : V) (hn : nrm ≠ ⟨0, 0, 0⟩)
    (hplane : ∀ x ∈ p :: cnt :: nodes, dot nrm x = D)
    (hside : ∀ q a b, IsNode nodes q a → IsNode nodes ((q + 1) % nodes.length) b → cross (sub a cnt) (sub b cnt) ≠ ⟨0, 0, 0⟩) :
    inside eps nrm cnt nodes p = true ↔ ∃ q, InTriangle cnt nodes q p := by
  have hp := hplane p List.mem_cons_self
  have hc := hplane cnt (by simp)
  have hd : dot nrm (sub cnt p) = 0 := by
    simp only [dot, sub] at *
    linear_combination hc - hp
  have key : ∀ q, q < nodes.length → (side p cnt (at' nodes q) (at' nodes ((q + 1) % nodes.length)) = true ↔ InTriangle cnt nodes q p) := by
    intro q hq
    have ia := node_at hq
    have ib := node_at (nodes := nodes) (i := (q + 1) % nodes.length) (Nat.mod_lt _ (by omega))
    generalize ea : at' nodes q = a at *
    generalize eb : at' nodes ((q + 1) % nodes.length) = b at *
    have ha := hplane a (List.mem_cons_of_mem _ (List.mem_cons_of_mem _ (List.mem_of_getElem? ia)))
    have hb := hplane b (List.mem_cons_of_mem _ (List.mem_cons_of_mem _ (List.mem_of_getElem? ib)))
    have hG := dot_self_pos (hside q a b ia ib)
    have hgram : dot (sub a cnt) (sub a cnt) * dot (sub b cnt) (sub b cnt) - dot (sub a cnt) (sub b cnt) * dot (sub a cnt) (sub b cnt) ≠ 0 := by
      refine fun h => hG.ne' (Eq.trans ?_ h)
      simp only [dot, cross, sub]
      ring
    have hdet : dot (cross (sub a cnt) (sub b cnt)) (sub p cnt) = 0 := by
      refine det_zero nrm _ _ _ hn ?_ ?_ ?_
      · simp only [dot, sub] at *
        linear_combination ha - hc
      · simp only [dot, sub] at *
        linear_combination hb - hc
      · simp only [dot, sub] at *
        linear_combination hp - hc
    constructor
    · intro h
      have hcomb := combination_of_plane cnt a b p _ rfl hgram hdet
      obtain ⟨h1, h2, h3⟩ := (side_iff hcomb hG).1 h
      exact ⟨a, b, _, _, ia, ib, h1, h2, by linarith, hcomb⟩
    · rintro ⟨a', b', u, v, ja, jb, h1, h2, h3, hcomb⟩
      obtain rfl : a = a' := Option.some.inj (ia.symm.trans ja)
      obtain rfl : b = b' := Option.some.inj (ib.symm.trans jb)
      exact (side_iff hcomb hG).2 ⟨h1, h2, by linarith⟩
  unfold inside
  simp only
  rw [hd, abs_zero, if_neg (not_lt.2 he), List.any_eq_true]
  constructor
  · rintro ⟨q, hq, h⟩
    exact ⟨q, (key q (List.mem_range.1 hq)).1 h⟩
  · rintro ⟨q, h⟩
    have hq : q < nodes.length := by
      obtain ⟨a, _, _, _, ha, _⟩ := h
      exact (List.getElem?_eq_some_iff.1 ha).1
    exact ⟨q, List.mem_range.2 hq, (key q hq).2 h⟩

/-- C161: a point farther from the plane than the tolerance is outside. -/
theorem C161_far (eps : ℚ) (nrm cnt : V) (nodes : List V) (p : V) (h : eps < |dot nrm (sub p cnt)|) : inside eps nrm cnt nodes p = false := by
  have : dot nrm (sub cnt p) = -dot nrm (sub p cnt) := by
    simp only [dot, sub]
    ring
  unfold inside
  simp only
  rw [this, abs_neg, if_pos h]

/-- C161: with zero tolerance and three dimensions, a point is inside of an edge exactly if it lies between its ends. -/
theorem C161_edge (v1 v2 p : V) (hlen : (1 / 10 ^ 20) ^ 2 < dot (sub v2 v1) (sub v2 v1)) :
    ∃ r, insideEdge 0 v1 v2 p = some r ∧
      (r = true ↔ ∃ s : ℚ, 0 ≤ s ∧ s ≤ 1 ∧ p = ⟨v1.x + s * (v2.x - v1.x), v1.y + s * (v2.y - v1.y), v1.z + s * (v2.z - v1.z)⟩) := by
  have hL : 0 < dot (sub v2 v1) (sub v2 v1) := lt_trans (by norm_num) hlen
  unfold insideEdge
  simp only
  rw [if_pos hlen]
  by_cases hw : cross (sub p v1) (sub v2 v1) = ⟨0, 0, 0⟩
  · rw [if_neg (by rw [hw]; simp [dot])]
    refine ⟨_, rfl, ?_⟩
    rw [decide_eq_true_eq]
    have hx := congrArg V.x hw
    have hy := congrArg V.y hw
    have hz := congrArg V.z hw
    simp only [cross, sub] at hx hy hz
    have hs : p = ⟨v1.x + dot (sub p v1) (sub v2 v1) / dot (sub v2 v1) (sub v2 v1) * (v2.x - v1.x),
        v1.y + dot (sub p v1) (sub v2 v1) / dot (sub v2 v1) (sub v2 v1) * (v2.y - v1.y),
        v1.z + dot (sub p v1) (sub v2 v1) / dot (sub v2 v1) (sub v2 v1) * (v2.z - v1.z)⟩ := by
      have hL' := hL.ne'
      generalize hD : dot (sub v2 v1) (sub v2 v1) = L at *
      ext
      all_goals
        simp only
        field_simp
        rw [← hD]
        simp only [dot, sub]
      · linear_combination (v2.z - v1.z) * (-hy) + (v2.y - v1.y) * hz
      · linear_combination (v2.x - v1.x) * (-hz) + (v2.z - v1.z) * hx
      · linear_combination (v2.y - v1.y) * (-hx) + (v2.x - v1.x) * hy
    have hdot : ∀ s : ℚ, p = ⟨v1.x + s * (v2.x - v1.x), v1.y + s * (v2.y - v1.y), v1.z + s * (v2.z - v1.z)⟩ →
        dot (sub p v1) (sub p v2) = s * (s - 1) * dot (sub v2 v1) (sub v2 v1) := by
      rintro s rfl
      simp only [dot, sub]
      ring
    constructor
    · intro h
      rw [hdot _ hs] at h
      have h' : dot (sub p v1) (sub v2 v1) / dot (sub v2 v1) (sub v2 v1) * (dot (sub p v1) (sub v2 v1) / dot (sub v2 v1) (sub v2 v1) - 1) ≤ 0 := by
        by_contra hcon
        exact absurd h (not_le.2 (mul_pos (not_le.1 hcon) hL))
      refine ⟨_, ?_, ?_, hs⟩
      · nlinarith
      · nlinarith
    · rintro ⟨s, h1, h2, rfl⟩
      rw [hdot s rfl]
      nlinarith [mul_nonneg (mul_nonneg h1 (sub_nonneg.2 h2)) hL.le]
  · rw [if_pos (by have := dot_self_pos hw; linarith)]
    refine ⟨_, rfl, iff_of_false (by simp) ?_⟩
    rintro ⟨s, _, _, rfl⟩
    refine hw ?_
    simp only [cross, sub]
    ext <;> ring

/-- A square in the plane and its centre meet the hypotheses of C161. -/
example : (⟨0, 0, 1⟩ : V) ≠ ⟨0, 0, 0⟩ ∧ (∀ x ∈ (⟨1 / 4, 1 / 3, 0⟩ : V) :: ⟨1 / 2, 1 / 2, 0⟩ :: square, dot ⟨0, 0, 1⟩ x = 0) ∧
    inside 0 ⟨0, 0, 1⟩ ⟨1 / 2, 1 / 2, 0⟩ square ⟨1 / 4, 1 / 3, 0⟩ = true ∧ inside 0 ⟨0, 0, 1⟩ ⟨1 / 2, 1 / 2, 0⟩ square ⟨5 / 4, 1 / 3, 0⟩ = false := by
  refine ⟨by simp, ?_, by decide +kernel, by decide +kernel⟩
  intro p hp
  simp only [square, List.mem_cons, List.not_mem_nil, or_false] at hp
  rcases hp with rfl | rfl | rfl | rfl | rfl | rfl <;> norm_num [dot]

example : cross (sub ⟨0, 0, 0⟩ ⟨1 / 2, 1 / 2, 0⟩) (sub ⟨1, 0, 0⟩ ⟨1 / 2, 1 / 2, 0⟩) ≠ ⟨0, 0, 0⟩ := by norm_num [cross, sub]

/-- A face of the form of the letter L, with its centre of mass (1, 3/2, 0) on the line of a side. -/
def ell : List V := [⟨0, 0, 0⟩, ⟨3, 0, 0⟩, ⟨3, 1, 0⟩, ⟨1, 1, 0⟩, ⟨1, 4, 0⟩, ⟨0, 4, 0⟩]

/-- C161 fails if the centre is on the line of a side: all points of this line are inside, also far from the face. -/
theorem C161_line_fails : inside 0 ⟨0, 0, 1⟩ ⟨1, 3 / 2, 0⟩ ell ⟨1, 1000, 0⟩ = true ∧
    ¬ ∃ q, InTriangle ⟨1, 3 / 2, 0⟩ ell q ⟨1, 1000, 0⟩ := by
  refine ⟨by decide +kernel, ?_⟩
  rintro ⟨q, a, b, u, v, ha, hb, h1, h2, h3, _, h5, _⟩
  have hy : ∀ w : V, w ∈ ell → w.y ≤ 4 := by
    intro w hw
    simp only [ell, List.mem_cons, List.not_mem_nil, or_false] at hw
    rcases hw with rfl | rfl | rfl | rfl | rfl | rfl <;> norm_num
  have ya := hy a (List.mem_of_getElem? ha)
  have yb := hy b (List.mem_of_getElem? hb)
  simp only at h5
  nlinarith [mul_nonneg h1 (sub_nonneg.2 ya), mul_nonneg h2 (sub_nonneg.2 yb)]

/-- C161 fails with two dimensions: if the entries that are not set happen to be zero, the distance
to the line is not tested, and a point at distance 1 of the edge is inside. -/
theorem C161_two_dimensions_fails : insideEdge2 0 0 0 (0, 0) (2, 0) (1, 1) = some true := by decide +kernel

end Verif.FaceInside
