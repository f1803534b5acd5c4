import Verif.Search.Spec
import Mathlib.Tactic.Linarith
import Mathlib.Tactic.NormNum
import Mathlib.Tactic.Ring
import Mathlib.Tactic.FieldSimp
import Mathlib.Tactic.LinearCombination

/-!
# Points in triangles
-/

namespace Verif.Search

variable {K : Type} [Field K] [LinearOrder K] [IsStrictOrderedRing K]

/-- A normal of the triangle. -/
def normal (a b c : V K) : V K := cross (sub b a) (sub c a)

theorem V.ext_iff' {a b : V K} : a = b ↔ a.x = b.x ∧ a.y = b.y ∧ a.z = b.z := by
  cases a; cases b; simp

theorem dot_self_nonneg (a : V K) : 0 ≤ dot a a := by
  simp only [dot]; nlinarith [mul_self_nonneg a.x, mul_self_nonneg a.y, mul_self_nonneg a.z]

/-- The three coefficients of a point of the plane add up to one. -/
theorem coef_sum (a b c o : V K) : dot (triQ o b c) (normal a b c) + dot (triQ o c a) (normal a b c) +
    dot (triQ o a b) (normal a b c) = dot (normal a b c) (normal a b c) := by
  simp only [dot, triQ, normal, cross, sub]; ring

theorem coef_point (a b c o : V K) (h : dot (normal a b c) (sub o a) = 0) :
    smul (dot (normal a b c) (normal a b c)) o =
      comb (dot (triQ o b c) (normal a b c)) (dot (triQ o c a) (normal a b c))
        (dot (triQ o a b) (normal a b c)) a b c := by
  rw [V.ext_iff']
  refine ⟨?_, ?_, ?_⟩
  · simp only [smul, comb, dot, triQ, normal, cross, sub] at h ⊢
    linear_combination ((b.y - a.y) * (c.z - a.z) - (b.z - a.z) * (c.y - a.y)) * h
  · simp only [smul, comb, dot, triQ, normal, cross, sub] at h ⊢
    linear_combination ((b.z - a.z) * (c.x - a.x) - (b.x - a.x) * (c.z - a.z)) * h
  · simp only [smul, comb, dot, triQ, normal, cross, sub] at h ⊢
    linear_combination ((b.x - a.x) * (c.y - a.y) - (b.y - a.y) * (c.x - a.x)) * h

theorem lagrange (p q n : V K) : dot p q * dot n n = dot p n * dot q n + dot (cross p n) (cross q n) := by
  simp only [dot, cross]; ring

theorem dot_comm (p q : V K) : dot p q = dot q p := by simp only [dot]; ring

theorem q1_cross (a b c o : V K) (h : dot (normal a b c) (sub o a) = 0) :
    cross (triQ o a b) (normal a b c) = ⟨0, 0, 0⟩ := by
  rw [V.ext_iff']
  refine ⟨?_, ?_, ?_⟩
  · simp only [dot, triQ, normal, cross, sub] at h ⊢
    linear_combination (-(b.x - a.x)) * h
  · simp only [dot, triQ, normal, cross, sub] at h ⊢
    linear_combination (-(b.y - a.y)) * h
  · simp only [dot, triQ, normal, cross, sub] at h ⊢
    linear_combination (-(b.z - a.z)) * h

theorem q2_cross (a b c o : V K) (h : dot (normal a b c) (sub o a) = 0) :
    cross (triQ o b c) (normal a b c) = ⟨0, 0, 0⟩ := by
  rw [V.ext_iff']
  refine ⟨?_, ?_, ?_⟩
  · simp only [dot, triQ, normal, cross, sub] at h ⊢
    linear_combination (b.x - c.x) * h
  · simp only [dot, triQ, normal, cross, sub] at h ⊢
    linear_combination (b.y - c.y) * h
  · simp only [dot, triQ, normal, cross, sub] at h ⊢
    linear_combination (b.z - c.z) * h

theorem dot_zero (p : V K) : dot ⟨0, 0, 0⟩ p = 0 := by simp [dot]

/-- The signs of the products of the three vectors tell whether a point of the plane is in the
triangle. -/
theorem inTriangle_iff {a b c o : V K} (hn : dot (normal a b c) (normal a b c) ≠ 0)
    (h : dot (normal a b c) (sub o a) = 0) :
    (dot (triQ o a b) (triQ o b c) ≥ 0 ∧ dot (triQ o b c) (triQ o c a) ≥ 0 ∧
      dot (triQ o a b) (triQ o c a) ≥ 0) ↔ InTriangle 0 a b c o := by
  have hN : 0 < dot (normal a b c) (normal a b c) := lt_of_le_of_ne (dot_self_nonneg _) (Ne.symm hn)
  constructor
  · rintro ⟨h12, h23, h13⟩
    have e12 := lagrange (triQ o a b) (triQ o b c) (normal a b c)
    have e23 := lagrange (triQ o b c) (triQ o c a) (normal a b c)
    have e13 := lagrange (triQ o a b) (triQ o c a) (normal a b c)
    rw [q1_cross a b c o h, dot_zero, add_zero] at e12 e13
    rw [q2_cross a b c o h, dot_zero, add_zero] at e23
    have p12 := mul_nonneg h12 hN.le
    have p23 := mul_nonneg h23 hN.le
    have p13 := mul_nonneg h13 hN.le
    rw [e12] at p12; rw [e23] at p23; rw [e13] at p13
    have hs := coef_sum a b c o
    have hp := coef_point a b c o h
    generalize dot (triQ o b c) (normal a b c) = α at *
    generalize dot (triQ o c a) (normal a b c) = β at *
    generalize dot (triQ o a b) (normal a b c) = γ at *
    generalize dot (normal a b c) (normal a b c) = N at *
    have ha : 0 ≤ α := by
      by_contra hc
      have hc := not_le.1 hc
      have h1 : β ≤ 0 := by
        by_contra hb; have := mul_neg_of_neg_of_pos hc (not_le.1 hb); linarith
      have h2 : γ ≤ 0 := by
        by_contra hb; have := mul_neg_of_pos_of_neg (not_le.1 hb) hc; linarith
      linarith
    have hb : 0 ≤ β := by
      by_contra hc
      have hc := not_le.1 hc
      have h1 : α ≤ 0 := by
        by_contra hb; have := mul_neg_of_pos_of_neg (not_le.1 hb) hc; linarith
      have h2 : γ ≤ 0 := by
        by_contra hb; have := mul_neg_of_pos_of_neg (not_le.1 hb) hc; linarith
      linarith
    have hg : 0 ≤ γ := by
      by_contra hc
      have hc := not_le.1 hc
      have h1 : α ≤ 0 := by
        by_contra hb; have := mul_neg_of_neg_of_pos hc (not_le.1 hb); linarith
      have h2 : β ≤ 0 := by
        by_contra hb; have := mul_neg_of_neg_of_pos hc (not_le.1 hb); linarith
      linarith
    refine ⟨α / N, β / N, γ / N, ?_, ?_, ?_, ?_, ?_⟩
    · rw [neg_zero]; exact div_nonneg ha hN.le
    · rw [neg_zero]; exact div_nonneg hb hN.le
    · rw [neg_zero]; exact div_nonneg hg hN.le
    · rw [← add_div, ← add_div, hs]; exact div_self hn
    · rw [V.ext_iff'] at hp ⊢
      obtain ⟨p1, p2, p3⟩ := hp
      simp only [smul, comb] at p1 p2 p3 ⊢
      refine ⟨?_, ?_, ?_⟩ <;> field_simp <;> linarith
  · rintro ⟨u, v, w, hu, hv, hw, hs, hX⟩
    rw [neg_zero] at hu hv hw
    have e : u = 1 - v - w := by linarith
    have e1 : triQ o a b = smul w (normal a b c) := by
      rw [V.ext_iff', hX, e]
      refine ⟨?_, ?_, ?_⟩ <;> simp only [triQ, comb, smul, normal, cross, sub] <;> ring
    have e2 : triQ o b c = smul u (normal a b c) := by
      rw [V.ext_iff', hX, e]
      refine ⟨?_, ?_, ?_⟩ <;> simp only [triQ, comb, smul, normal, cross, sub] <;> ring
    have e3 : triQ o c a = smul v (normal a b c) := by
      rw [V.ext_iff', hX, e]
      refine ⟨?_, ?_, ?_⟩ <;> simp only [triQ, comb, smul, normal, cross, sub] <;> ring
    have hd : ∀ s t : K, dot (smul s (normal a b c)) (smul t (normal a b c)) =
        s * t * dot (normal a b c) (normal a b c) := by
      intro s t; simp only [dot, smul]; ring
    rw [e1, e2, e3, hd, hd, hd]
    exact ⟨mul_nonneg (mul_nonneg hw hu) hN.le, mul_nonneg (mul_nonneg hu hv) hN.le,
      mul_nonneg (mul_nonneg hw hv) hN.le⟩

end Verif.Search
