import Verif.Dense.DetLemmas
import Mathlib.LinearAlgebra.Matrix.AbsoluteValue
import Mathlib.Algebra.Order.Ring.Int
import Mathlib.Tactic.Positivity

/-! # The numbers tested by `Det` are quotients of minors -/

namespace Verif.Dense.Det

variable {K : Type} [Field K] [LinearOrder K]

/-- The matrix of chosen rows and columns. -/
def minor {R : Type} {k : Nat} (A : Nat → Nat → R) (v g : Fin k → Nat) : Matrix (Fin k) (Fin k) R := Matrix.of fun i j => A (v i) (g j)

theorem search_mem {small : K → Bool} {d : Nat} {s : St K} (fuel : Nat) : ∀ r sign t, ∀ x ∈ (search small d s fuel r sign t).2.2,
    x ∈ t ∨ ∃ i, r ≤ i ∧ i < r + fuel ∧ s.visited i = false ∧ x = s.A i d := by
  induction fuel with
  | zero => intro r sign t x hx; exact Or.inl hx
  | succ fuel ih =>
    intro r sign t x hx
    rw [search] at hx
    by_cases hv : s.visited r = true
    · simp only [hv, if_true] at hx
      rcases ih _ _ _ x hx with h | ⟨i, h1, h2, h3⟩
      · exact Or.inl h
      · exact Or.inr ⟨i, by omega, by omega, h3⟩
    · have hv' : s.visited r = false := by simpa using hv
      simp only [hv, if_false, Bool.false_eq_true] at hx
      have hhead : x ∈ s.A r d :: t → x ∈ t ∨ ∃ i, r ≤ i ∧ i < r + (fuel + 1) ∧ s.visited i = false ∧ x = s.A i d := by
        intro h
        rcases List.mem_cons.1 h with h | h
        · exact Or.inr ⟨r, le_refl _, by omega, hv', h⟩
        · exact Or.inl h
      by_cases hsm : small (s.A r d) = true
      · simp only [hsm, if_true] at hx
        rcases ih _ _ _ x hx with h | ⟨i, h1, h2, h3⟩
        · exact hhead h
        · exact Or.inr ⟨i, by omega, by omega, h3⟩
      · simp only [hsm, if_false, Bool.false_eq_true] at hx
        exact hhead hx

theorem eliminate_mem {n d r : Nat} {s : St K} (hr : s.visited r = true) : ∀ x ∈ (eliminate (fun x => decide (x ≠ 0)) n d r s).tested,
    x ∈ s.tested ∨ ∃ i, i < n ∧ s.visited i = false ∧ x = s.A i d / s.A r d := by
  have key := forRange_rule (fun m (B : St K) => B.visited = s.visited ∧ (∀ i j, m ≤ i ∨ s.visited i = true → B.A i j = s.A i j) ∧
    ∀ x ∈ B.tested, x ∈ s.tested ∨ ∃ i, i < n ∧ s.visited i = false ∧ x = s.A i d / s.A r d) 0 n (Nat.zero_le _)
    (elimStep (fun x => decide (x ≠ 0)) n d r) s ?_ ?_
  · exact key.2.2
  · exact ⟨rfl, fun _ _ _ => rfl, fun x h => Or.inl h⟩
  · rintro m B _ hm ⟨h1, h2, h3⟩
    unfold elimStep
    by_cases hv : B.visited m = true
    · simp only [hv, if_true]
      exact ⟨h1, fun i j h => h2 i j (h.imp (fun h => by omega) id), h3⟩
    · simp only [hv, if_false, Bool.false_eq_true]
      have hvm : s.visited m = false := by rw [← h1]; simpa using hv
      have hmr : m ≠ r := by rintro rfl; rw [hr] at hvm; cases hvm
      have ht : ∀ x ∈ B.A m d / B.A r d :: B.tested, x ∈ s.tested ∨ ∃ i, i < n ∧ s.visited i = false ∧ x = s.A i d / s.A r d := by
        intro x hx
        rcases List.mem_cons.1 hx with h | h
        · exact Or.inr ⟨m, hm, hvm, by rw [h, h2 m d (Or.inl (le_refl _)), h2 r d (Or.inr hr)]⟩
        · exact h3 x h
      have hA : ∀ i, m + 1 ≤ i ∨ s.visited i = true → i ≠ m := by
        rintro i (h | h) rfl
        · omega
        · rw [hvm] at h; cases h
      split
      · refine ⟨h1, fun i j h => ?_, ht⟩
        rw [row_spec n m r _ hmr]
        exact (if_neg (fun hc => hA i h hc.1)).trans (h2 i j (h.imp (fun h => by omega) id))
      · exact ⟨h1, fun i j h => h2 i j (h.imp (fun h => by omega) id), ht⟩

/-- A row of the current matrix is a combination of rows of the original one, with zeros in the columns that are done. -/
structure Rows {k : Nat} (n : Nat) (A0 : Nat → Nat → K) (s : St K) (v g : Fin k → Nat) : Prop where
  lt : ∀ t, g t < n
  ltv : ∀ t, v t < n
  det : (minor A0 v g).det ≠ 0
  comb : ∀ i, i < n → s.visited i = false → ∃ c : Fin k → K, ∀ j, j < n → s.A i j = A0 i j + ∑ t, c t * A0 (v t) j
  zero : ∀ i, i < n → s.visited i = false → ∀ t, s.A i (g t) = 0

/-- An element of the current matrix is the quotient of two minors. -/
theorem minor_succ {k n : Nat} {A0 : Nat → Nat → K} {s : St K} {v g : Fin k → Nat} (h : Rows n A0 s v g) {i j : Nat} (hi : i < n)
    (hv : s.visited i = false) (hj : j < n) : (minor A0 (Fin.cons i v) (Fin.cons j g)).det = s.A i j * (minor A0 v g).det := by
  obtain ⟨c, hc⟩ := h.comb i hi hv
  have h1 := Matrix.det_updateRow_sum (minor A0 (Fin.cons i v) (Fin.cons j g)) 0 (Fin.cons 1 c)
  rw [Fin.cons_zero, one_smul] at h1
  rw [← h1, Matrix.det_succ_row_zero, Finset.sum_eq_single 0]
  · have e1 : (∑ t, (Fin.cons 1 c : Fin (k + 1) → K) t • (minor A0 (Fin.cons i v) (Fin.cons j g)) t) 0 = s.A i j := by
      rw [Finset.sum_apply, Fin.sum_univ_succ, hc j hj]
      simp [minor]
    rw [Matrix.updateRow_self, e1]
    have e2 : ((minor A0 (Fin.cons i v) (Fin.cons j g)).updateRow 0
        (∑ t, (Fin.cons 1 c : Fin (k + 1) → K) t • (minor A0 (Fin.cons i v) (Fin.cons j g)) t)).submatrix Fin.succ (Fin.succAbove 0) =
        minor A0 v g := by
      ext a b
      rw [Matrix.submatrix_apply, Matrix.updateRow_ne (Fin.succ_ne_zero a)]
      simp [minor]
    rw [e2]
    simp
  · intro t _ ht
    obtain ⟨t, rfl⟩ := Fin.exists_succ_eq.2 ht
    have e1 : (∑ t, (Fin.cons 1 c : Fin (k + 1) → K) t • (minor A0 (Fin.cons i v) (Fin.cons j g)) t) t.succ = s.A i (g t) := by
      rw [Finset.sum_apply, Fin.sum_univ_succ, hc _ (h.lt t)]
      simp [minor]
    rw [Matrix.updateRow_self, e1, h.zero i hi hv t]
    ring
  · intro h; exact absurd (Finset.mem_univ _) h

/-- All tested numbers are quotients of minors of size at most `n`. -/
theorem run_minors {n : Nat} {A0 : Nat → Nat → K} (m : Nat) : ∀ d (s : St K) (v g : Fin d → Nat), d + m = n → Rows n A0 s v g →
    ∀ x ∈ (run (fun x => decide (x = 0)) (fun x => decide (x ≠ 0)) n m d s).2, x ∈ s.tested ∨
      ∃ a b, a ≤ n ∧ b ≤ n ∧ ∃ (v g : Fin a → Nat) (v' g' : Fin b → Nat), (∀ t, v' t < n) ∧ (∀ t, g' t < n) ∧
        (minor A0 v' g').det ≠ 0 ∧ x = (minor A0 v g).det / (minor A0 v' g').det := by
  induction m with
  | zero => intro d s v g _ _ x hx; exact Or.inl hx
  | succ m ih =>
    intro d s v g hd hR x hx
    have hs := search_spec (small := fun x : K => decide (x = 0)) (d := d) (s := s) n 0 1 s.tested
    have hm := search_mem (small := fun x : K => decide (x = 0)) (d := d) (s := s) n 0 1 s.tested
    have hpiv : ∀ i, i < n → s.visited i = false → ∃ a b, a ≤ n ∧ b ≤ n ∧ ∃ (v g : Fin a → Nat) (v' g' : Fin b → Nat),
        (∀ t, v' t < n) ∧ (∀ t, g' t < n) ∧ (minor A0 v' g').det ≠ 0 ∧ s.A i d = (minor A0 v g).det / (minor A0 v' g').det := by
      intro i hi hv
      refine ⟨d + 1, d, by omega, by omega, Fin.cons i v, Fin.cons d g, v, g, hR.ltv, hR.lt, hR.det, ?_⟩
      rw [minor_succ hR hi hv (by omega), mul_div_cancel_right₀ _ hR.det]
    rcases he : search (fun x : K => decide (x = 0)) d s n 0 1 s.tested with ⟨_ | r, sign, t⟩
    · rw [run_none he] at hx
      rw [he] at hm
      rcases hm x hx with h | ⟨i, _, h2, h3, h4⟩
      · exact Or.inl h
      · exact Or.inr (h4 ▸ hpiv i (by omega) h3)
    · rw [he] at hs hm
      obtain ⟨_, hrn, hrv, hr0, _, _⟩ := hs
      rw [Nat.zero_add] at hrn
      rw [run_some he] at hx
      have hp0 : s.A r d ≠ 0 := by simpa using hr0
      have hcv : (chosen d s r sign t).visited r = true := by simp [chosen, updV]
      obtain ⟨e1, e2, e3⟩ := eliminate_spec (n := n) (d := d) (s := chosen d s r sign t) hcv
      have hmem := eliminate_mem (n := n) (d := d) (s := chosen d s r sign t) hcv
      have hne : ∀ i, (chosen d s r sign t).visited i = false → i ≠ r ∧ s.visited i = false := by
        intro i h
        simp only [chosen, updV] at h
        by_cases hir : i = r
        · simp [hir] at h
        · simp only [hir, if_false] at h
          exact ⟨hir, h⟩
      have hdet : (minor A0 (Fin.cons r v) (Fin.cons d g)).det ≠ 0 := by
        rw [minor_succ hR hrn hrv (by omega)]
        exact mul_ne_zero hp0 hR.det
      have hR' : Rows n A0 (eliminate (fun x => decide (x ≠ 0)) n d r (chosen d s r sign t)) (Fin.cons r v : Fin (d + 1) → Nat) (Fin.cons d g) := by
        refine ⟨?_, ?_, hdet, ?_, ?_⟩
        · intro t
          refine Fin.cases ?_ (fun t => ?_) t
          · rw [Fin.cons_zero]; omega
          · rw [Fin.cons_succ]; exact hR.lt t
        · intro t
          refine Fin.cases ?_ (fun t => ?_) t
          · rw [Fin.cons_zero]; omega
          · rw [Fin.cons_succ]; exact hR.ltv t
        · intro i hi hv
          rw [e1] at hv
          obtain ⟨hir, hv'⟩ := hne i hv
          obtain ⟨c, hc⟩ := hR.comb i hi hv'
          obtain ⟨c', hc'⟩ := hR.comb r hrn hrv
          refine ⟨Fin.cons (-(s.A i d / s.A r d)) (fun t => c t - s.A i d / s.A r d * c' t), fun j hj => ?_⟩
          rw [e3, if_pos ⟨hv, hi, hj⟩, Fin.sum_univ_succ]
          simp only [chosen, Fin.cons_zero, Fin.cons_succ]
          rw [hc j hj, hc' j hj]
          simp only [sub_mul, Finset.sum_sub_distrib, mul_assoc, ← Finset.mul_sum]
          ring
        · intro i hi hv
          rw [e1] at hv
          obtain ⟨hir, hv'⟩ := hne i hv
          intro t
          refine Fin.cases ?_ (fun t => ?_) t
          · rw [Fin.cons_zero, e3, if_pos ⟨hv, hi, by omega⟩]
            simp only [chosen]
            field_simp
            ring
          · rw [Fin.cons_succ, e3, if_pos ⟨hv, hi, hR.lt t⟩]
            simp only [chosen]
            rw [hR.zero i hi hv' t, hR.zero r hrn hrv t]
            ring
      rcases ih (d + 1) _ _ _ (by omega) hR' x hx with h | h
      · rcases hmem x h with h | ⟨i, hi, hv, h⟩
        · rcases hm x h with h | ⟨i, _, h2, h3, h4⟩
          · exact Or.inl h
          · exact Or.inr (h4 ▸ hpiv i (by omega) h3)
        · right
          obtain ⟨hir, hv'⟩ := hne i hv
          refine ⟨d + 1, d + 1, by omega, by omega, Fin.cons i v, Fin.cons d g, Fin.cons r v, Fin.cons d g, hR'.ltv, hR'.lt, hdet, ?_⟩
          rw [minor_succ hR hi hv' (by omega), minor_succ hR hrn hrv (by omega), mul_div_mul_right _ _ hR.det, h]
          rfl
      · exact Or.inr h

/-- For integer entries bounded by `B ≥ 1` all tested numbers are zero or at least `1 / (n! B^n)`. -/
theorem tested_lower [IsStrictOrderedRing K] {n B : Nat} (hB : 1 ≤ B) {A : Nat → Nat → ℤ} (hA : ∀ i < n, ∀ j < n, |A i j| ≤ B) :
    ∀ x ∈ (run (fun x => decide (x = 0)) (fun x => decide (x ≠ 0)) n n 0 (start fun i j => (A i j : K))).2,
      x = 0 ∨ 1 / ((n.factorial * B ^ n : Nat) : K) ≤ |x| := by
  intro x hx
  have hR : Rows n (fun i j => (A i j : K)) (start fun i j => (A i j : K)) (Fin.elim0 : Fin 0 → Nat) Fin.elim0 := by
    refine ⟨fun t => t.elim0, fun t => t.elim0, by simp, fun i _ _ => ⟨Fin.elim0, fun j _ => by simp [start]⟩, fun i _ _ t => t.elim0⟩
  rcases run_minors n 0 _ _ _ (by omega) hR x hx with h | ⟨a, b, ha, hb, v, g, v', g', hv', hg', h0, rfl⟩
  · cases h
  · have hcast : ∀ {k : Nat} (v g : Fin k → Nat), (minor (fun i j => (A i j : K)) v g).det = ((minor A v g).det : K) := by
      intro k v g
      rw [Int.cast_det]
      rfl
    rw [hcast] at h0
    rw [hcast, hcast]
    have h0' : (minor A v' g').det ≠ 0 := by rintro h; rw [h] at h0; simp at h0
    by_cases hz : (minor A v g).det = 0
    · left; rw [hz]; simp
    · right
      have hbound : |(minor A v' g').det| ≤ ((n.factorial * B ^ n : Nat) : ℤ) := by
        have := Matrix.det_le (abv := AbsoluteValue.abs) (A := minor A v' g') (x := (B : ℤ)) (fun i j => hA _ (hv' i) _ (hg' j))
        rw [Fintype.card_fin] at this
        refine (this.trans ?_)
        rw [nsmul_eq_mul]
        push_cast
        have h1 : (b.factorial : ℤ) ≤ n.factorial := by exact_mod_cast Nat.factorial_le hb
        have h2 : (B : ℤ) ^ b ≤ B ^ n := pow_le_pow_right₀ (by exact_mod_cast hB) hb
        exact mul_le_mul h1 h2 (by positivity) (by positivity)
      have hp : (1 : K) ≤ |((minor A v g).det : K)| := by
        rw [← Int.cast_abs]
        exact_mod_cast Int.one_le_abs hz
      have hq : |((minor A v' g').det : K)| ≤ ((n.factorial * B ^ n : Nat) : K) := by
        rw [← Int.cast_abs]
        exact_mod_cast hbound
      have hq0 : (0 : K) < |((minor A v' g').det : K)| := abs_pos.2 h0
      rw [abs_div]
      exact div_le_div₀ (by positivity) hp hq0 hq

end Verif.Dense.Det
