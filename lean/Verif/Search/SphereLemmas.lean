import Verif.Search.SegLemmas

/-!
# Distances
-/

namespace Verif.Search

variable {K : Type} [Field K] [LinearOrder K] [IsStrictOrderedRing K]

theorem dist2_nonneg (a b : V K) : 0 ≤ dist2 a b := by
  have := mul_self_nonneg (a.x - b.x)
  have := mul_self_nonneg (a.y - b.y)
  have := mul_self_nonneg (a.z - b.z)
  simp only [dist2]; linarith

/-- The distance does not exceed `r`. -/
theorem distance_le {sq : K → K} (h : IsSqrt sq) {a p : V K} {r : K} :
    distance sq a p ≤ r ↔ 0 ≤ r ∧ dist2 a p ≤ r * r := by
  obtain ⟨h1, h2⟩ := h _ (dist2_nonneg a p)
  have e : distance sq a p = sq (dist2 a p) := rfl
  rw [e]
  constructor
  · intro hr
    have h0 := le_trans h1 hr
    refine ⟨h0, ?_⟩
    rw [← h2]
    exact mul_le_mul hr hr h1 h0
  · rintro ⟨h0, hr⟩
    rw [← h2] at hr
    by_contra hc
    have hc := not_le.1 hc
    have := mul_lt_mul'' hc hc h0 h0
    linarith

/-- The foot of the perpendicular is the closest point of the segment, when it falls on the segment. -/
theorem segDist_le {sq : K → K} (h : IsSqrt sq) {a b p : V K} {r : K} :
    segDist sq a b p ≤ r ↔ 0 ≤ r ∧ ∃ X, OnSegment 0 a b X ∧ dist2 X p ≤ r * r := by
  simp only [segDist]
  have hd0 : 0 ≤ (sub b a).x * (sub b a).x + (sub b a).y * (sub b a).y + (sub b a).z * (sub b a).z := by
    have := mul_self_nonneg (sub b a).x
    have := mul_self_nonneg (sub b a).y
    have := mul_self_nonneg (sub b a).z
    linarith
  have hon : ∀ k : K, 0 ≤ k → k ≤ 1 → OnSegment 0 a b (add a (smul k (sub b a))) :=
    fun k h0 h1 => ⟨k, by simpa using h0, by simpa using h1, rfl⟩
  have ha : OnSegment 0 a b a := ⟨0, by simp, by simp, by rw [V.ext_iff']; simp⟩
  have hb : OnSegment 0 a b b := ⟨1, by simp, by simp, by rw [V.ext_iff']; simp⟩
  split
  · next hd =>
    rw [distance_le h]
    refine and_congr_right fun _ => ⟨fun hr => ⟨a, ha, hr⟩, ?_⟩
    rintro ⟨X, ⟨k, _, _, rfl⟩, hX⟩
    have hx : (sub b a).x * (sub b a).x = 0 := by
      linarith [mul_self_nonneg (sub b a).x, mul_self_nonneg (sub b a).y, mul_self_nonneg (sub b a).z]
    have hy : (sub b a).y * (sub b a).y = 0 := by
      linarith [mul_self_nonneg (sub b a).x, mul_self_nonneg (sub b a).y, mul_self_nonneg (sub b a).z]
    have hz : (sub b a).z * (sub b a).z = 0 := by
      linarith [mul_self_nonneg (sub b a).x, mul_self_nonneg (sub b a).y, mul_self_nonneg (sub b a).z]
    have hx : b.x - a.x = 0 := mul_self_eq_zero.1 hx
    have hy : b.y - a.y = 0 := mul_self_eq_zero.1 hy
    have hz : b.z - a.z = 0 := mul_self_eq_zero.1 hz
    simpa [hx, hy, hz, dist2] using hX
  · next hd =>
    have hdp := lt_of_le_of_ne hd0 (Ne.symm hd)
    generalize hD : (sub b a).x * (sub b a).x + (sub b a).y * (sub b a).y + (sub b a).z * (sub b a).z = D at hdp ⊢
    generalize hE : (sub b a).x * (p.x - a.x) + (sub b a).y * (p.y - a.y) + (sub b a).z * (p.z - a.z) = E
    have key : ∀ k : K, dist2 (⟨a.x + k * (b.x - a.x), a.y + k * (b.y - a.y), a.z + k * (b.z - a.z)⟩ : V K) p =
        dist2 a p - 2 * k * E + k * k * D := by
      intro k
      rw [← hD, ← hE]
      simp only [dist2, sub]; ring
    have hED : E = E / D * D := by field_simp
    generalize ht : E / D = t at hED ⊢
    have key2 : ∀ k : K, dist2 (⟨a.x + k * (b.x - a.x), a.y + k * (b.y - a.y), a.z + k * (b.z - a.z)⟩ : V K) p =
        dist2 a p - t * t * D + (k - t) * (k - t) * D := by
      intro k; rw [key, hED]; ring
    split
    · next h01 =>
      rw [distance_le h]
      refine and_congr_right fun _ => ⟨fun hr => ⟨_, hon t h01.1 h01.2, hr⟩, ?_⟩
      rintro ⟨X, ⟨k, _, _, rfl⟩, hX⟩
      refine le_trans ?_ hX
      have e : dist2 (add a (smul t (sub b a))) p = dist2 a p - t * t * D := by
        have := key2 t
        simp only [sub_self, zero_mul, add_zero] at this
        exact this
      rw [e, key2]
      have := mul_nonneg (mul_self_nonneg (k - t)) hdp.le
      linarith
    · next h01 =>
      split
      · next ht0 =>
        rw [distance_le h]
        refine and_congr_right fun _ => ⟨fun hr => ⟨a, ha, hr⟩, ?_⟩
        rintro ⟨X, ⟨k, hk, _, rfl⟩, hX⟩
        refine le_trans ?_ hX
        rw [key2]
        rw [neg_zero] at hk
        have : t * t * D ≤ (k - t) * (k - t) * D := by
          apply mul_le_mul_of_nonneg_right _ hdp.le
          nlinarith
        linarith
      · next ht0 =>
        have ht1 : 1 < t := by
          by_contra hc
          exact h01 ⟨not_lt.1 ht0, not_lt.1 hc⟩
        rw [distance_le h]
        refine and_congr_right fun _ => ⟨fun hr => ⟨b, hb, hr⟩, ?_⟩
        rintro ⟨X, ⟨k, _, hk, rfl⟩, hX⟩
        refine le_trans ?_ hX
        rw [add_zero] at hk
        have e : dist2 b p = dist2 a p - t * t * D + (1 - t) * (1 - t) * D := by
          rw [← key2 1]; simp [dist2]
        rw [key2, e]
        have : (1 - t) * (1 - t) * D ≤ (k - t) * (k - t) * D := by
          apply mul_le_mul_of_nonneg_right _ hdp.le
          nlinarith
        linarith

/-- On the way from a point of the triangle to a point outside there is a point of a side. -/
theorem leave_triangle {u0 v0 w0 u v w : K} (hu0 : 0 ≤ u0) (hv0 : 0 ≤ v0) (hw0 : 0 ≤ w0)
    (h : ¬ (0 ≤ u ∧ 0 ≤ v ∧ 0 ≤ w)) : ∃ s, 0 ≤ s ∧ s ≤ 1 ∧ 0 ≤ u0 + s * (u - u0) ∧ 0 ≤ v0 + s * (v - v0) ∧
      0 ≤ w0 + s * (w - w0) ∧ (u0 + s * (u - u0) = 0 ∨ v0 + s * (v - v0) = 0 ∨ w0 + s * (w - w0) = 0) := by
  have one : ∀ x0 x : K, 0 ≤ x0 → ∃ s, 0 ≤ s ∧ s ≤ 1 ∧ (∀ k, 0 ≤ k → k ≤ s → 0 ≤ x0 + k * (x - x0)) ∧
      (x < 0 → x0 + s * (x - x0) = 0) ∧ (0 ≤ x → s = 1) ∧ (x < 0 → s < 1) := by
    intro x0 x hx0
    by_cases hx : x < 0
    · have hp : 0 < x0 - x := by linarith
      have e : x0 / (x0 - x) * (x0 - x) = x0 := by field_simp
      generalize x0 / (x0 - x) = s at e
      have hs0 : 0 ≤ s := by
        by_contra hc
        have := mul_neg_of_neg_of_pos (not_le.1 hc) hp
        linarith
      have hs1 : s < 1 := by
        by_contra hc
        have := mul_le_mul_of_nonneg_right (not_lt.1 hc) hp.le
        linarith
      refine ⟨s, hs0, hs1.le, ?_, fun _ => by linear_combination -e, fun h => absurd hx (not_lt.2 h), fun _ => hs1⟩
      intro k _ hk
      have := mul_le_mul_of_nonneg_right hk hp.le
      linarith
    · refine ⟨1, zero_le_one, le_rfl, ?_, fun h => absurd h hx, fun _ => rfl, fun h => absurd h hx⟩
      intro k hk0 hk1
      have hx := not_lt.1 hx
      have := mul_nonneg hk0 hx
      have := mul_nonneg (sub_nonneg.2 hk1) hx0
      linarith
  obtain ⟨a, a0, a1, a2, a3, a4, a5⟩ := one u0 u hu0
  obtain ⟨b, b0, b1, b2, b3, b4, b5⟩ := one v0 v hv0
  obtain ⟨c, c0, c1, c2, c3, c4, c5⟩ := one w0 w hw0
  have hlt : min a (min b c) < 1 := by
    by_contra hc
    have hc := not_lt.1 hc
    have ha := le_trans hc (min_le_left _ _)
    have hb := le_trans hc (le_trans (min_le_right _ _) (min_le_left _ _))
    have hcc := le_trans hc (le_trans (min_le_right _ _) (min_le_right _ _))
    apply h
    refine ⟨?_, ?_, ?_⟩
    · by_contra hn; exact absurd (a5 (not_le.1 hn)) (not_lt.2 ha)
    · by_contra hn; exact absurd (b5 (not_le.1 hn)) (not_lt.2 hb)
    · by_contra hn; exact absurd (c5 (not_le.1 hn)) (not_lt.2 hcc)
  have hm0 : 0 ≤ min a (min b c) := le_min a0 (le_min b0 c0)
  refine ⟨min a (min b c), hm0, hlt.le, a2 _ hm0 (min_le_left _ _),
    b2 _ hm0 (le_trans (min_le_right _ _) (min_le_left _ _)),
    c2 _ hm0 (le_trans (min_le_right _ _) (min_le_right _ _)), ?_⟩
  rcases min_choice a (min b c) with h1 | h1
  · left
    rw [h1] at hlt ⊢
    exact a3 (by by_contra hn; rw [a4 (not_lt.1 hn)] at hlt; exact lt_irrefl _ hlt)
  · rcases min_choice b c with h2 | h2
    · right; left
      rw [h1, h2] at hlt ⊢
      exact b3 (by by_contra hn; rw [b4 (not_lt.1 hn)] at hlt; exact lt_irrefl _ hlt)
    · right; right
      rw [h1, h2] at hlt ⊢
      exact c3 (by by_contra hn; rw [c4 (not_lt.1 hn)] at hlt; exact lt_irrefl _ hlt)

/-- A point of a side is a point of the triangle. -/
theorem side_in {a b c X : V K} : (OnSegment 0 a b X ∨ OnSegment 0 b c X ∨ OnSegment 0 c a X) → InTriangle 0 a b c X := by
  rintro (⟨k, h0, h1, rfl⟩ | ⟨k, h0, h1, rfl⟩ | ⟨k, h0, h1, rfl⟩) <;> rw [neg_zero] at h0 <;> rw [add_zero] at h1
  · refine ⟨1 - k, k, 0, ?_, ?_, ?_, by ring, ?_⟩ <;> first | linarith | (rw [V.ext_iff']; simp only [comb]; refine ⟨?_, ?_, ?_⟩ <;> ring)
  · refine ⟨0, 1 - k, k, ?_, ?_, ?_, by ring, ?_⟩ <;> first | linarith | (rw [V.ext_iff']; simp only [comb]; refine ⟨?_, ?_, ?_⟩ <;> ring)
  · refine ⟨k, 0, 1 - k, ?_, ?_, ?_, by ring, ?_⟩ <;> first | linarith | (rw [V.ext_iff']; simp only [comb]; refine ⟨?_, ?_, ?_⟩ <;> ring)

/-- The sides consist of the points of the triangle that have a zero coefficient. -/
theorem in_side {a b c : V K} {u v w : K} (hu : 0 ≤ u) (hv : 0 ≤ v) (hw : 0 ≤ w) (hs : u + v + w = 1)
    (hz : u = 0 ∨ v = 0 ∨ w = 0) : OnSegment 0 a b (comb u v w a b c) ∨ OnSegment 0 b c (comb u v w a b c) ∨
      OnSegment 0 c a (comb u v w a b c) := by
  rcases hz with h | h | h
  · right; left
    have e : v = 1 - w := by linarith
    refine ⟨w, by simpa using hw, by linarith, ?_⟩
    subst h e
    rw [V.ext_iff']; simp only [comb]; refine ⟨?_, ?_, ?_⟩ <;> ring
  · right; right
    have e : w = 1 - u := by linarith
    refine ⟨u, by simpa using hu, by linarith, ?_⟩
    subst h e
    rw [V.ext_iff']; simp only [comb]; refine ⟨?_, ?_, ?_⟩ <;> ring
  · left
    have e : u = 1 - v := by linarith
    refine ⟨v, by simpa using hv, by linarith, ?_⟩
    subst h e
    rw [V.ext_iff']; simp only [comb]; refine ⟨?_, ?_, ?_⟩ <;> ring

/-- The normal of the triangle, of length `l`, divided by `l`. -/
theorem unit_normal {sq : K → K} (h : IsSqrt sq) {N : V K} (hN : N ≠ ⟨0, 0, 0⟩) :
    ∃ l, 0 < l ∧ l * l = dot N N ∧ unit sq N = smul (1 / l) N := by
  have h0 := dot_self_nonneg N
  have hpos : 0 < dot N N := by
    rcases lt_or_eq_of_le h0 with h1 | h1
    · exact h1
    · exfalso
      apply hN
      simp only [dot] at h1
      have hx : N.x * N.x = 0 := by linarith [mul_self_nonneg N.x, mul_self_nonneg N.y, mul_self_nonneg N.z]
      have hy : N.y * N.y = 0 := by linarith [mul_self_nonneg N.x, mul_self_nonneg N.y, mul_self_nonneg N.z]
      have hz : N.z * N.z = 0 := by linarith [mul_self_nonneg N.x, mul_self_nonneg N.y, mul_self_nonneg N.z]
      rw [V.ext_iff']
      exact ⟨mul_self_eq_zero.1 hx, mul_self_eq_zero.1 hy, mul_self_eq_zero.1 hz⟩
  obtain ⟨h1, h2⟩ := h _ h0
  have hl : sq (dot N N) ≠ 0 := by
    intro hc; rw [hc] at h2; simp at h2; linarith
  refine ⟨sq (dot N N), lt_of_le_of_ne h1 (Ne.symm hl), h2, ?_⟩
  rw [unit]
  simp only [if_pos hl]
  rw [V.ext_iff']
  simp only [smul]
  refine ⟨?_, ?_, ?_⟩ <;> field_simp

/-- The projection of `p` to the plane of the triangle. -/
def foot (n : V K) (a p : V K) : V K :=
  ⟨p.x + ((a.x - p.x) * n.x + (a.y - p.y) * n.y + (a.z - p.z) * n.z) * n.x,
   p.y + ((a.x - p.x) * n.x + (a.y - p.y) * n.y + (a.z - p.z) * n.z) * n.y,
   p.z + ((a.x - p.x) * n.x + (a.y - p.y) * n.y + (a.z - p.z) * n.z) * n.z⟩

/-- Pythagoras. -/
theorem foot_dist {n a p X : V K} (hn : dot n n = 1) (hX : dot n (sub X a) = 0) :
    dist2 X p = dist2 X (foot n a p) + ((a.x - p.x) * n.x + (a.y - p.y) * n.y + (a.z - p.z) * n.z) *
      ((a.x - p.x) * n.x + (a.y - p.y) * n.y + (a.z - p.z) * n.z) := by
  simp only [dot, sub] at hn hX
  simp only [dist2, foot]
  generalize ht : (a.x - p.x) * n.x + (a.y - p.y) * n.y + (a.z - p.z) * n.z = t
  linear_combination (-(t * t)) * hn + (2 * t) * hX + 2 * t * ht

theorem foot_plane {n a p : V K} (hn : dot n n = 1) : dot n (sub (foot n a p) a) = 0 := by
  simp only [dot] at hn
  simp only [dot, sub, foot]
  linear_combination ((a.x - p.x) * n.x + (a.y - p.y) * n.y + (a.z - p.z) * n.z) * hn

/-- A point of the plane of the triangle has coefficients. -/
theorem plane_comb {a b c o : V K} (hN : cross (sub b a) (sub c a) ≠ ⟨0, 0, 0⟩)
    (ho : dot (cross (sub b a) (sub c a)) (sub o a) = 0) :
    ∃ u v w : K, u + v + w = 1 ∧ o = comb u v w a b c := by
  generalize hNe : cross (sub b a) (sub c a) = N at hN ho
  have hpos : dot N N ≠ 0 := by
    intro h1
    apply hN
    simp only [dot] at h1
    have hx : N.x * N.x = 0 := by linarith [mul_self_nonneg N.x, mul_self_nonneg N.y, mul_self_nonneg N.z]
    have hy : N.y * N.y = 0 := by linarith [mul_self_nonneg N.x, mul_self_nonneg N.y, mul_self_nonneg N.z]
    have hz : N.z * N.z = 0 := by linarith [mul_self_nonneg N.x, mul_self_nonneg N.y, mul_self_nonneg N.z]
    rw [V.ext_iff']
    exact ⟨mul_self_eq_zero.1 hx, mul_self_eq_zero.1 hy, mul_self_eq_zero.1 hz⟩
  have ev : dot (cross (sub o a) (sub c a)) N / dot N N * dot N N = dot (cross (sub o a) (sub c a)) N := by field_simp
  have ew : dot (cross (sub b a) (sub o a)) N / dot N N * dot N N = dot (cross (sub b a) (sub o a)) N := by field_simp
  generalize dot (cross (sub o a) (sub c a)) N / dot N N = v at ev
  generalize dot (cross (sub b a) (sub o a)) N / dot N N = w at ew
  refine ⟨1 - v - w, v, w, by ring, ?_⟩
  have hx : (o.x - a.x - v * (b.x - a.x) - w * (c.x - a.x)) * dot N N = 0 := by
    subst hNe
    simp only [dot, cross, sub] at ev ew ho ⊢
    linear_combination (-(b.x - a.x)) * ev - (c.x - a.x) * ew + ((b.y - a.y) * (c.z - a.z) - (b.z - a.z) * (c.y - a.y)) * ho
  have hy : (o.y - a.y - v * (b.y - a.y) - w * (c.y - a.y)) * dot N N = 0 := by
    subst hNe
    simp only [dot, cross, sub] at ev ew ho ⊢
    linear_combination (-(b.y - a.y)) * ev - (c.y - a.y) * ew + ((b.z - a.z) * (c.x - a.x) - (b.x - a.x) * (c.z - a.z)) * ho
  have hz : (o.z - a.z - v * (b.z - a.z) - w * (c.z - a.z)) * dot N N = 0 := by
    subst hNe
    simp only [dot, cross, sub] at ev ew ho ⊢
    linear_combination (-(b.z - a.z)) * ev - (c.z - a.z) * ew + ((b.x - a.x) * (c.y - a.y) - (b.y - a.y) * (c.x - a.x)) * ho
  have hx := (mul_eq_zero.1 hx).resolve_right hpos
  have hy := (mul_eq_zero.1 hy).resolve_right hpos
  have hz := (mul_eq_zero.1 hz).resolve_right hpos
  rw [V.ext_iff']
  simp only [comb]
  refine ⟨?_, ?_, ?_⟩ <;> linarith

/-- The tests of `triangle_distance` say that the coefficients have the same sign. -/
theorem triQ_comb {u v w : K} {a b c : V K} (h : u + v + w = 1) :
    triQ (comb u v w a b c) a b = smul w (cross (sub b a) (sub c a)) ∧
    triQ (comb u v w a b c) b c = smul u (cross (sub b a) (sub c a)) ∧
    triQ (comb u v w a b c) c a = smul v (cross (sub b a) (sub c a)) := by
  have e : u = 1 - v - w := by linarith
  subst e
  refine ⟨?_, ?_, ?_⟩ <;> rw [V.ext_iff'] <;> simp only [triQ, comb, smul, cross, sub] <;> refine ⟨?_, ?_, ?_⟩ <;> ring

theorem dot_smul (k l : K) (N : V K) : dot (smul k N) (smul l N) = k * l * dot N N := by
  simp only [dot, smul]; ring

/-- The distance to a triangle that is not degenerate. -/
theorem triDist_le {sq : K → K} (h : IsSqrt sq) {a b c p : V K} {r : K}
    (hN : cross (sub b a) (sub c a) ≠ ⟨0, 0, 0⟩) :
    triDist sq a b c p ≤ r ↔ 0 ≤ r ∧ ∃ X, InTriangle 0 a b c X ∧ dist2 X p ≤ r * r := by
  obtain ⟨l, hl, hll, hun⟩ := unit_normal h hN
  have hNN : 0 < dot (cross (sub b a) (sub c a)) (cross (sub b a) (sub c a)) := by rw [← hll]; positivity
  have hn1 : dot (smul (1 / l) (cross (sub b a) (sub c a))) (smul (1 / l) (cross (sub b a) (sub c a))) = 1 := by
    rw [dot_smul, ← hll]; field_simp
  have hplane : ∀ X, InTriangle 0 a b c X ∨ (∃ u v w : K, u + v + w = 1 ∧ X = comb u v w a b c) →
      dot (smul (1 / l) (cross (sub b a) (sub c a))) (sub X a) = 0 := by
    intro X hX
    have : ∃ u v w : K, u + v + w = 1 ∧ X = comb u v w a b c := by
      rcases hX with ⟨u, v, w, _, _, _, hs, e⟩ | hX
      · exact ⟨u, v, w, hs, e⟩
      · exact hX
    obtain ⟨u, v, w, hs, rfl⟩ := this
    have e : u = 1 - v - w := by linarith
    subst e
    simp only [dot, smul, cross, sub, comb]; ring
  have hdef : triDist sq a b c p =
      (let n := smul (1 / l) (cross (sub b a) (sub c a))
       let t := (a.x - p.x) * n.x + (a.y - p.y) * n.y + (a.z - p.z) * n.z
       let o := foot n a p
       if dot (triQ o a b) (triQ o b c) ≥ 0 ∧ dot (triQ o b c) (triQ o c a) ≥ 0 ∧ dot (triQ o a b) (triQ o c a) ≥ 0 then |t|
       else min (min (segDist sq a b p) (segDist sq b c p)) (segDist sq c a p)) := by
    rw [← hun]; rfl
  rw [hdef]
  dsimp only
  have hfp := foot_plane (a := a) (p := p) hn1
  have hfd := fun X hX => foot_dist (X := X) (p := p) hn1 (hplane X hX)
  generalize hng : smul (1 / l) (cross (sub b a) (sub c a)) = n at hn1 hplane hfp hfd ⊢
  generalize ht : (a.x - p.x) * n.x + (a.y - p.y) * n.y + (a.z - p.z) * n.z = t at hfd ⊢
  have hfp' : dot (cross (sub b a) (sub c a)) (sub (foot n a p) a) = 0 := by
    have e : dot n (sub (foot n a p) a) = 1 / l * dot (cross (sub b a) (sub c a)) (sub (foot n a p) a) := by
      rw [← hng]; simp only [dot, smul]; ring
    rw [e] at hfp
    exact (mul_eq_zero.1 hfp).resolve_left (by positivity)
  obtain ⟨u, v, w, hs, ho⟩ := plane_comb hN hfp'
  generalize foot n a p = o at hfd ho ⊢
  subst ho
  obtain ⟨q1, q2, q3⟩ := triQ_comb (a := a) (b := b) (c := c) hs
  rw [q1, q2, q3, dot_smul, dot_smul, dot_smul]
  generalize hD : dot (cross (sub b a) (sub c a)) (cross (sub b a) (sub c a)) = D at hNN
  have hsign : (w * u * D ≥ 0 ∧ u * v * D ≥ 0 ∧ w * v * D ≥ 0) ↔ (0 ≤ u ∧ 0 ≤ v ∧ 0 ≤ w) := by
    constructor
    · rintro ⟨h1, h2, h3⟩
      have h1 : 0 ≤ w * u := nonneg_of_mul_nonneg_left h1 hNN
      have h2 : 0 ≤ u * v := nonneg_of_mul_nonneg_left h2 hNN
      have h3 : 0 ≤ w * v := nonneg_of_mul_nonneg_left h3 hNN
      refine ⟨?_, ?_, ?_⟩
      · nlinarith [mul_self_nonneg u]
      · nlinarith [mul_self_nonneg v]
      · nlinarith [mul_self_nonneg w]
    · rintro ⟨h1, h2, h3⟩
      exact ⟨by positivity, by positivity, by positivity⟩
  split
  · next hc =>
    obtain ⟨hu, hv, hw⟩ := hsign.1 hc
    have hoT : InTriangle 0 a b c (comb u v w a b c) := ⟨u, v, w, by simpa using hu, by simpa using hv, by simpa using hw, hs, rfl⟩
    have ho : dist2 (comb u v w a b c) p = t * t := by
      rw [hfd _ (.inl hoT)]
      simp [dist2]
    constructor
    · intro hr
      have h0 := le_trans (abs_nonneg t) hr
      refine ⟨h0, _, hoT, ?_⟩
      rw [ho, ← abs_mul_abs_self]
      exact mul_le_mul hr hr (abs_nonneg _) h0
    · rintro ⟨h0, X, hX, hr⟩
      rw [hfd X (.inl hX)] at hr
      have := dist2_nonneg X (comb u v w a b c)
      have h2 : t * t ≤ r * r := by linarith
      have := abs_le_iff_mul_self_le.2 h2
      rwa [abs_of_nonneg h0] at this
  · next hc =>
    have hout : ¬ (0 ≤ u ∧ 0 ≤ v ∧ 0 ≤ w) := fun h => hc (hsign.2 h)
    rw [min_le_iff, min_le_iff, segDist_le h, segDist_le h, segDist_le h]
    constructor
    · rintro ((⟨h0, X, hX, hr⟩ | ⟨h0, X, hX, hr⟩) | ⟨h0, X, hX, hr⟩)
      · exact ⟨h0, X, side_in (.inl hX), hr⟩
      · exact ⟨h0, X, side_in (.inr (.inl hX)), hr⟩
      · exact ⟨h0, X, side_in (.inr (.inr hX)), hr⟩
    · rintro ⟨h0, X, hX, hr⟩
      obtain ⟨u0, v0, w0, hu0, hv0, hw0, hs0, rfl⟩ := hX
      rw [neg_zero] at hu0 hv0 hw0
      obtain ⟨s, s0, s1, k1, k2, k3, hz⟩ := leave_triangle hu0 hv0 hw0 hout
      have hss : (u0 + s * (u - u0)) + (v0 + s * (v - v0)) + (w0 + s * (w - w0)) = 1 := by
        linear_combination (1 - s) * hs0 + s * hs
      have hY := in_side (a := a) (b := b) (c := c) k1 k2 k3 hss hz
      have hd : dist2 (comb (u0 + s * (u - u0)) (v0 + s * (v - v0)) (w0 + s * (w - w0)) a b c) p ≤ r * r := by
        refine le_trans ?_ hr
        rw [hfd _ (.inr ⟨_, _, _, hss, rfl⟩), hfd _ (.inr ⟨_, _, _, hs0, rfl⟩)]
        have e : dist2 (comb (u0 + s * (u - u0)) (v0 + s * (v - v0)) (w0 + s * (w - w0)) a b c) (comb u v w a b c) =
            (1 - s) * (1 - s) * dist2 (comb u0 v0 w0 a b c) (comb u v w a b c) := by
          simp only [dist2, comb]; ring
        rw [e]
        have h1 : (1 - s) * (1 - s) ≤ 1 := by nlinarith
        have := mul_le_mul_of_nonneg_right h1 (dist2_nonneg (comb u0 v0 w0 a b c) (comb u v w a b c))
        linarith
      rcases hY with hY | hY | hY
      · exact .inl (.inl ⟨h0, _, hY, hd⟩)
      · exact .inl (.inr ⟨h0, _, hY, hd⟩)
      · exact .inr ⟨h0, _, hY, hd⟩

end Verif.Search
