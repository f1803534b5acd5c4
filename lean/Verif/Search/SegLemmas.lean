import Verif.Search.HitLemmas

/-!
# Segments, triangles and boxes
-/

namespace Verif.Search

variable {K : Type} [Field K] [LinearOrder K] [IsStrictOrderedRing K]

theorem slab_keeps {lo hi p1 p2 k : K} {st : K × K} (h0 : 0 ≤ k) (h1 : k ≤ 1) (ha : st.1 ≤ k) (hb : k ≤ st.2)
    (hx : lo - tol ≤ p1 + k * (p2 - p1) ∧ p1 + k * (p2 - p1) ≤ hi + tol)
    (hp : |p2 - p1| < 1 / 10 ^ 15 → lo - tol ≤ p1 ∧ p1 ≤ hi + tol) :
    ∃ st', slab lo hi p1 p2 st = some st' ∧ st'.1 ≤ k ∧ k ≤ st'.2 := by
  rw [slab]
  by_cases hs : |p2 - p1| < 1 / 10 ^ 15
  · rw [if_pos hs, if_neg (by intro h; rcases h with h | h <;> linarith [(hp hs).1, (hp hs).2])]
    exact ⟨st, rfl, ha, hb⟩
  · rw [if_neg hs]
    have hne : p2 - p1 ≠ 0 := by
      intro h; rw [h] at hs; apply hs; simp
    simp only []
    have key : ∃ ts : K × K, (if (lo - tol - p1) / (p2 - p1) > (hi + tol - p1) / (p2 - p1) then
        ((hi + tol - p1) / (p2 - p1), (lo - tol - p1) / (p2 - p1)) else
        ((lo - tol - p1) / (p2 - p1), (hi + tol - p1) / (p2 - p1))) = ts ∧ ts.1 ≤ k ∧ k ≤ ts.2 := by
      refine ⟨_, rfl, ?_⟩
      rcases lt_or_gt_of_ne hne with hneg | hpos
      · have a1 : k ≤ (lo - tol - p1) / (p2 - p1) := by rw [le_div_iff_of_neg hneg]; linarith [hx.1]
        have a2 : (hi + tol - p1) / (p2 - p1) ≤ k := by rw [div_le_iff_of_neg hneg]; linarith [hx.2]
        split
        · exact ⟨a2, a1⟩
        · next h => exact ⟨(not_lt.1 h).trans a2, a1.trans (not_lt.1 h)⟩
      · have a1 : (lo - tol - p1) / (p2 - p1) ≤ k := by rw [div_le_iff₀ hpos]; linarith [hx.1]
        have a2 : k ≤ (hi + tol - p1) / (p2 - p1) := by rw [le_div_iff₀ hpos]; linarith [hx.2]
        split
        · next h => exact ⟨(le_of_lt h).trans a1, a2.trans (le_of_lt h)⟩
        · exact ⟨a1, a2⟩
    obtain ⟨ts, e, b1, b2⟩ := key
    rw [e]
    have c1 : (if ts.1 > st.1 then ts.1 else st.1) ≤ k := by split <;> assumption
    have c2 : k ≤ (if ts.2 < st.2 then ts.2 else st.2) := by split <;> assumption
    generalize (if ts.1 > st.1 then ts.1 else st.1) = tn at *
    generalize (if ts.2 < st.2 then ts.2 else st.2) = tf at *
    rw [if_neg (by linarith), if_neg (by linarith), if_neg (by linarith)]
    exact ⟨_, rfl, c1, c2⟩

/-- A box that holds a point of the segment up to a part of the tolerance is not pruned. -/
theorem segBox_keeps {p1 p2 : V K} {b : Box K} {k d : K} (h0 : 0 ≤ k) (h1 : k ≤ 1) (hd : d + 1 / 10 ^ 15 ≤ tol)
    (hx : b.lo.x - d ≤ p1.x + k * (p2.x - p1.x) ∧ p1.x + k * (p2.x - p1.x) ≤ b.hi.x + d)
    (hy : b.lo.y - d ≤ p1.y + k * (p2.y - p1.y) ∧ p1.y + k * (p2.y - p1.y) ≤ b.hi.y + d)
    (hz : b.lo.z - d ≤ p1.z + k * (p2.z - p1.z) ∧ p1.z + k * (p2.z - p1.z) ≤ b.hi.z + d) :
    segBox p1 p2 b = true := by
  have small : ∀ lo hi q1 q2 : K, lo - d ≤ q1 + k * (q2 - q1) ∧ q1 + k * (q2 - q1) ≤ hi + d →
      (lo - tol ≤ q1 + k * (q2 - q1) ∧ q1 + k * (q2 - q1) ≤ hi + tol) ∧
      (|q2 - q1| < 1 / 10 ^ 15 → lo - tol ≤ q1 ∧ q1 ≤ hi + tol) := by
    intro lo hi q1 q2 h
    have hpos : (0 : K) < 1 / 10 ^ 15 := by positivity
    refine ⟨⟨by linarith [h.1], by linarith [h.2]⟩, fun hs => ?_⟩
    have hk : |k * (q2 - q1)| ≤ 1 / 10 ^ 15 := by
      rw [abs_mul, abs_of_nonneg h0]
      calc k * |q2 - q1| ≤ 1 * |q2 - q1| := mul_le_mul_of_nonneg_right h1 (abs_nonneg _)
        _ ≤ 1 / 10 ^ 15 := by rw [one_mul]; exact hs.le
    have := abs_le.1 hk
    exact ⟨by linarith [h.1, this.2], by linarith [h.2, this.1]⟩
  rw [segBox]
  have hbig : (1 : K) ≤ big := by simp only [big]; norm_num
  obtain ⟨sx, ex, ax, bx⟩ := slab_keeps (st := ((-big : K), big)) h0 h1 (by simp only []; linarith) (by simp only []; linarith)
    (small _ _ _ _ hx).1 (small _ _ _ _ hx).2
  obtain ⟨sy, ey, ay, by'⟩ := slab_keeps (st := sx) h0 h1 ax bx (small _ _ _ _ hy).1 (small _ _ _ _ hy).2
  obtain ⟨sz, ez, _⟩ := slab_keeps (st := sy) h0 h1 ay by' (small _ _ _ _ hz).1 (small _ _ _ _ hz).2
  rw [ex]; simp only []
  rw [ey]; simp only []
  rw [ez]; rfl

/-! ## Triangles -/

theorem unit_eq (sq : K → K) (n : V K) : ∃ c : K, c ≠ 0 ∧ unit sq n = smul c n := by
  rw [unit]
  by_cases h : sq (dot n n) ≠ 0
  · rw [if_pos h]
    refine ⟨1 / sq (dot n n), one_div_ne_zero h, ?_⟩
    rw [V.ext_iff']
    simp only [smul]
    refine ⟨?_, ?_, ?_⟩ <;> ring
  · rw [if_neg h]
    exact ⟨1, one_ne_zero, by cases n; simp [smul]⟩

theorem gram (a b c : V K) (h : dot (cross a b) c = 0) :
    smul (dot a a * dot b b - dot a b * dot a b) c =
      add (smul (dot b b * dot a c - dot a b * dot b c) a) (smul (dot a a * dot b c - dot a b * dot a c) b) := by
  rw [V.ext_iff']
  simp only [smul, add]
  refine ⟨?_, ?_, ?_⟩
  · simp only [dot, cross] at h ⊢
    linear_combination (a.y * b.z - a.z * b.y) * h
  · simp only [dot, cross] at h ⊢
    linear_combination (a.z * b.x - a.x * b.z) * h
  · simp only [dot, cross] at h ⊢
    linear_combination (a.x * b.y - a.y * b.x) * h

/-- A triangle that is found to be hit has a common point with the segment, up to the tolerances. -/
theorem segTri_sound {sq : K → K} {t0 t1 t2 p1 p2 : V K} (h : segTri sq t0 t1 t2 p1 p2 = true) :
    ∃ X, OnSegment (1 / 10 ^ 10) p1 p2 X ∧ InTriangle (1 / 10 ^ 7) t0 t1 t2 X := by
  simp only [segTri] at h
  obtain ⟨c0, hc0, hu⟩ := unit_eq sq (cross (sub t0 t2) (sub t1 t2))
  rw [hu] at h
  split at h
  · cases h
  next hm =>
  split at h
  · cases h
  next hk =>
  split at h
  · cases h
  split at h
  · cases h
  next hinv =>
  have h := of_decide_eq_true h
  have hm0 : dot (smul c0 (cross (sub t0 t2) (sub t1 t2))) (sub p2 p1) ≠ 0 := by
    intro h0
    rw [h0] at hm
    apply hm; simp
  generalize hkdef : -(-dot (smul c0 (cross (sub t0 t2) (sub t1 t2))) t2 +
    dot (smul c0 (cross (sub t0 t2) (sub t1 t2))) p1) /
      dot (smul c0 (cross (sub t0 t2) (sub t1 t2))) (sub p2 p1) = k at *
  have hk1 := not_lt.1 (fun h => hk (.inl h))
  have hk2 := not_lt.1 (fun h => hk (.inr h))
  let X : V K := add p1 (smul k (sub p2 p1))
  have hplane : dot (cross (sub t0 t2) (sub t1 t2)) (sub X t2) = 0 := by
    rw [div_eq_iff hm0] at hkdef
    have : c0 * dot (cross (sub t0 t2) (sub t1 t2)) (sub X t2) = 0 := by
      simp only [X, dot, smul, add, sub] at hkdef ⊢
      linear_combination -hkdef
    exact (mul_eq_zero.1 this).resolve_left hc0
  have hg := gram _ _ _ hplane
  change ((dot (sub t1 t2) (sub t1 t2) * dot (sub t0 t2) (sub X t2) -
      dot (sub t0 t2) (sub t1 t2) * dot (sub t1 t2) (sub X t2)) /
      (dot (sub t0 t2) (sub t0 t2) * dot (sub t1 t2) (sub t1 t2) - dot (sub t0 t2) (sub t1 t2) * dot (sub t0 t2) (sub t1 t2))
      ≥ _) ∧ _ at h
  generalize hI : dot (sub t0 t2) (sub t0 t2) * dot (sub t1 t2) (sub t1 t2) -
    dot (sub t0 t2) (sub t1 t2) * dot (sub t0 t2) (sub t1 t2) = I at *
  change _ ∧ ((dot (sub t0 t2) (sub t0 t2) * dot (sub t1 t2) (sub X t2) -
      dot (sub t0 t2) (sub t1 t2) * dot (sub t0 t2) (sub X t2)) / I ≥ _) ∧ _ at h
  change _ ∧ _ ∧ (1 - ((dot (sub t1 t2) (sub t1 t2) * dot (sub t0 t2) (sub X t2) -
      dot (sub t0 t2) (sub t1 t2) * dot (sub t1 t2) (sub X t2)) / I + (dot (sub t0 t2) (sub t0 t2) * dot (sub t1 t2) (sub X t2) -
      dot (sub t0 t2) (sub t1 t2) * dot (sub t0 t2) (sub X t2)) / I) ≥ _) at h
  generalize dot (sub t1 t2) (sub t1 t2) * dot (sub t0 t2) (sub X t2) -
      dot (sub t0 t2) (sub t1 t2) * dot (sub t1 t2) (sub X t2) = U at *
  generalize dot (sub t0 t2) (sub t0 t2) * dot (sub t1 t2) (sub X t2) -
      dot (sub t0 t2) (sub t1 t2) * dot (sub t0 t2) (sub X t2) = W at *
  obtain ⟨h1, h2, h3⟩ := h
  refine ⟨X, ⟨k, hk1, hk2, rfl⟩, U / I, W / I, 1 - (U / I + W / I), h1, h2, h3, by ring, ?_⟩
  rw [V.ext_iff'] at hg ⊢
  obtain ⟨g1, g2, g3⟩ := hg
  simp only [smul, sub, add, comb] at g1 g2 g3 ⊢
  have r1 : X.x - t2.x = (U * (t0.x - t2.x) + W * (t1.x - t2.x)) / I := by rw [eq_div_iff hinv]; linarith
  have r2 : X.y - t2.y = (U * (t0.y - t2.y) + W * (t1.y - t2.y)) / I := by rw [eq_div_iff hinv]; linarith
  have r3 : X.z - t2.z = (U * (t0.z - t2.z) + W * (t1.z - t2.z)) / I := by rw [eq_div_iff hinv]; linarith
  refine ⟨?_, ?_, ?_⟩
  · linear_combination r1
  · linear_combination r2
  · linear_combination r3

theorem segTri_complete {sq : K → K} (hsq : IsSqrt sq) {t0 t1 t2 p1 p2 X : V K}
    (ht : Transversal t0 t1 t2 p1 p2) (hX : OnSegment 0 p1 p2 X) (hT : InTriangle 0 t0 t1 t2 X) :
    segTri sq t0 t1 t2 p1 p2 = true := by
  obtain ⟨hN, hM⟩ := ht
  obtain ⟨k, hk0, hk1, rfl⟩ := hX
  obtain ⟨u, v, w, hu, hv, hw, hs, hX⟩ := hT
  rw [neg_zero] at hk0 hu hv hw
  rw [add_zero] at hk1
  have p25 : (0 : K) < 1 / 10 ^ 25 := by positivity
  have p50 : (0 : K) < 1 / 10 ^ 50 := by positivity
  generalize ha : sub t0 t2 = a at *
  generalize hb : sub t1 t2 = b at *
  generalize hr : sub p2 p1 = r at *
  have hNpos : 0 < dot (cross a b) (cross a b) := lt_of_lt_of_le p25 hN
  obtain ⟨hl0, hl⟩ := hsq _ hNpos.le
  have hlne : sq (dot (cross a b) (cross a b)) ≠ 0 := by
    intro h; rw [h] at hl; simp at hl; linarith
  have hun : unit sq (cross a b) = smul (1 / sq (dot (cross a b) (cross a b))) (cross a b) := by
    rw [unit]; rw [if_pos hlne]
    rw [V.ext_iff']; simp only [smul]; refine ⟨?_, ?_, ?_⟩ <;> ring
  generalize sq (dot (cross a b) (cross a b)) = l at *
  have hlpos : 0 < l := lt_of_le_of_ne hl0 (Ne.symm hlne)
  have hlne : l ≠ 0 := hlpos.ne'
  have dsm : ∀ x : V K, dot (smul (1 / l) (cross a b)) x = dot (cross a b) x / l := by
    intro x; simp only [dot, smul]; ring
  have hw' : w = 1 - u - v := by linarith
  have hXa : add p1 (smul k r) = add t2 (add (smul u a) (smul v b)) := by
    rw [V.ext_iff'] at hX ⊢
    obtain ⟨x1, x2, x3⟩ := hX
    subst ha hb hr
    simp only [add, smul, sub, comb] at x1 x2 x3 ⊢
    refine ⟨?_, ?_, ?_⟩
    · rw [x1, hw']; ring
    · rw [x2, hw']; ring
    · rw [x3, hw']; ring
  have hm0 : dot (cross a b) r ≠ 0 := by
    intro h; rw [h] at hM; simp at hM
    have := mul_pos p50 hNpos
    norm_num at this hM
    linarith
  have hm : ¬ |dot (cross a b) r / l| < 1 / 10 ^ 25 := by
    rw [not_lt]
    have hsq2 : (1 / 10 ^ 25 : K) * (1 / 10 ^ 25) ≤ dot (cross a b) r / l * (dot (cross a b) r / l) := by
      rw [div_mul_div_comm (dot (cross a b) r), hl, le_div_iff₀ hNpos]
      calc (1 / 10 ^ 25 : K) * (1 / 10 ^ 25) * dot (cross a b) (cross a b) =
          1 / 10 ^ 50 * dot (cross a b) (cross a b) := by norm_num
        _ ≤ _ := hM
    have := abs_le_iff_mul_self_le.2 hsq2
    rw [abs_of_pos p25] at this
    exact this
  have hkk : -(-dot (smul (1 / l) (cross a b)) t2 + dot (smul (1 / l) (cross a b)) p1) /
      dot (smul (1 / l) (cross a b)) r = k := by
    rw [div_eq_iff (by rw [dsm]; exact div_ne_zero hm0 hlne), dsm, dsm, dsm]
    have e : dot (cross a b) (add p1 (smul k r)) = dot (cross a b) (add t2 (add (smul u a) (smul v b))) := by rw [hXa]
    have e2 : dot (cross a b) p1 + k * dot (cross a b) r = dot (cross a b) t2 := by
      simp only [dot, add, smul, cross] at e ⊢
      linear_combination e
    linear_combination (-(1 / l)) * e2
  simp only [segTri]
  rw [ha, hb, hr, hun]
  rw [if_neg (by rw [dsm]; exact hm), hkk]
  rw [if_neg (by
    rintro (h | h)
    · have : (0 : K) < 1 / 10 ^ 10 := by positivity
      linarith
    · have : (0 : K) < 1 / 10 ^ 10 := by positivity
      linarith)]
  have hc : sub (add p1 (smul k r)) t2 = add (smul u a) (smul v b) := by
    rw [hXa, V.ext_iff']; simp only [sub, add]; refine ⟨?_, ?_, ?_⟩ <;> ring
  rw [hc]
  have hI : dot a a * dot b b - dot a b * dot a b = dot (cross a b) (cross a b) := by
    simp only [dot, cross]; ring
  have hU : dot b b * dot a (add (smul u a) (smul v b)) - dot a b * dot b (add (smul u a) (smul v b)) =
      u * dot (cross a b) (cross a b) := by
    rw [← hI]; simp only [dot, add, smul]; ring
  have hV : dot a a * dot b (add (smul u a) (smul v b)) - dot a b * dot a (add (smul u a) (smul v b)) =
      v * dot (cross a b) (cross a b) := by
    rw [← hI]; simp only [dot, add, smul]; ring
  rw [hI, hU, hV]
  rw [if_neg (by rw [abs_of_pos hNpos]; intro h; linarith [h.1]), if_neg hNpos.ne',
    mul_div_cancel_right₀ _ hNpos.ne', mul_div_cancel_right₀ _ hNpos.ne']
  have : (0 : K) < 1 / 10 ^ 7 := by positivity
  rw [decide_eq_true_eq]
  refine ⟨?_, ?_, ?_⟩ <;> linarith

end Verif.Search
