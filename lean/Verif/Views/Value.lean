import Verif.Views.Spec

/-!
# Elements of expressions
-/

namespace Verif.Views

variable {R : Type}

theorem shows_size [Zero R] {s : State R} {v : Lv} {T : Table R} (h : Shows s v T) : v.rows s = T.n ∧ v.cols s = T.m := by
  induction h with
  | mat h => exact ⟨h.1.symm, h.2.1.symm⟩
  | sub _ h _ =>
    obtain ⟨h1, _, h2, _, _⟩ := h
    refine ⟨?_, ?_⟩
    · show _ - _ = _; omega
    · show _ - _ = _; omega
  | block _ h _ => exact ⟨h.1.symm, h.2.1.symm⟩
  | tr _ h ih => exact ⟨ih.2.trans h.1.symm, ih.1.trans h.2.1.symm⟩
  | catR _ _ h ih1 ih2 =>
    refine ⟨?_, ih1.2.trans h.2.2.1.symm⟩
    show _ + _ = _
    rw [ih1.1, ih2.1, h.2.1]
  | catC _ _ h ih1 ih2 =>
    refine ⟨ih1.1.trans h.2.1.symm, ?_⟩
    show Lv.cols _ _ + Lv.cols _ _ = _
    rw [ih1.2, ih2.2, h.2.2.1]
  | repack _ h _ => exact ⟨h.1.symm, h.2.1.symm⟩

theorem shows_ok [Zero R] {s : State R} {v : Lv} {T : Table R} (h : Shows s v T) : v.ok s = true := by
  induction h with
  | mat h => rfl
  | sub _ _ ih => exact ih
  | block _ _ ih => exact ih
  | tr _ _ ih => exact ih
  | catR h1 h2 h ih1 ih2 =>
    simp only [Lv.ok, ih1, ih2, Bool.and_true, Bool.true_and, beq_iff_eq]
    rw [(shows_size h1).2, (shows_size h2).2, h.1]
  | catC h1 h2 h ih1 ih2 =>
    simp only [Lv.ok, ih1, ih2, Bool.and_true, Bool.true_and, beq_iff_eq]
    rw [(shows_size h1).1, (shows_size h2).1, h.1]
  | repack h1 h ih =>
    simp only [Lv.ok, ih, Bool.true_and, beq_iff_eq]
    rw [(shows_size h1).1, (shows_size h1).2, h.2.2.1]

theorem repack_index {n m n' m' i j : Nat} (h : n' * m' = n * m) (hi : i < n) (hj : j < m) :
    m' ≠ 0 ∧ (i * m + j) / m' < n' ∧ (i * m + j) % m' < m' ∧ i * m + j = (i * m + j) / m' * m' + (i * m + j) % m' := by
  have h1 : i * m + j < n' * m' := by
    rw [h]
    calc i * m + j < i * m + m := by omega
      _ = (i + 1) * m := by rw [Nat.add_mul, Nat.one_mul]
      _ ≤ n * m := Nat.mul_le_mul_right _ hi
  have h0 : m' ≠ 0 := by
    intro h0
    rw [h0] at h1
    omega
  refine ⟨h0, ?_, Nat.mod_lt _ (Nat.pos_of_ne_zero h0), ?_⟩
  · rw [Nat.div_lt_iff_lt_mul (Nat.pos_of_ne_zero h0)]; exact h1
  · exact (Nat.div_add_mod' _ _).symm

theorem shows_get [Zero R] {s : State R} {v : Lv} {T : Table R} (hz : s.zero = 0) (h : Shows s v T) :
    ∀ i < T.n, ∀ j < T.m, v.get s i j = some (T.A i j) := by
  induction h with
  | @mat k S h =>
    intro i hi j hj
    obtain ⟨h1, h2, _, h3⟩ := h
    simp only [Lv.get, Lv.ref]
    rw [if_pos ⟨by omega, by omega⟩]
    exact h3 i hi j hj
  | @sub v T S brow erow bcol ecol _ h ih =>
    intro i hi j hj
    obtain ⟨h1, h2, h3, h4, h5⟩ := h
    rw [h5 i hi j hj, ← ih (brow + i) (by omega) (bcol + j) (by omega)]
    simp only [Lv.get, Lv.ref]
    rw [if_pos ⟨by omega, by omega⟩, Nat.add_comm i, Nat.add_comm j]
  | @block v T S nrows ncols orow ocol hv h ih =>
    intro i hi j hj
    obtain ⟨h1, h2, h3, h4⟩ := h
    simp only [Lv.get, Lv.ref]
    rw [if_pos ⟨by omega, by omega⟩, (shows_size hv).1, (shows_size hv).2]
    by_cases hc : i < orow ∨ i ≥ orow + T.n ∨ j < ocol ∨ j ≥ ocol + T.m
    · rw [if_pos hc]
      show some s.zero = _
      rw [h4 i (by omega) j (by omega) (by rintro ⟨i', hi', j', hj', e1, e2⟩; omega), hz]
    · rw [if_neg hc]
      have := h3 (i - orow) (by omega) (j - ocol) (by omega) (by omega) (by omega)
      rw [show orow + (i - orow) = i by omega, show ocol + (j - ocol) = j by omega] at this
      rw [this]
      exact ih (i - orow) (by omega) (j - ocol) (by omega)
  | @tr v T S _ h ih =>
    intro i hi j hj
    rw [h.2.2 i hi j hj, ← ih j (h.2.1 ▸ hj) i (h.1 ▸ hi)]
    rfl
  | @catR v w T U S h1 h2 h ih1 ih2 =>
    intro i hi j hj
    obtain ⟨e1, e2, e3, e4, e5⟩ := h
    simp only [Lv.get, Lv.ref]
    rw [(shows_size h1).1]
    by_cases hc : i < T.n
    · rw [if_pos hc, e4 i hc j (by omega)]
      exact ih1 i hc j (by omega)
    · rw [if_neg hc]
      have := e5 (i - T.n) (by omega) j (by omega)
      rw [show T.n + (i - T.n) = i by omega] at this
      rw [this]
      exact ih2 _ (by omega) j (by omega)
  | @catC v w T U S h1 h2 h ih1 ih2 =>
    intro i hi j hj
    obtain ⟨e1, e2, e3, e4, e5⟩ := h
    simp only [Lv.get, Lv.ref]
    rw [(shows_size h1).2]
    by_cases hc : j < T.m
    · rw [if_pos hc, e4 i (by omega) j hc]
      exact ih1 i (by omega) j hc
    · rw [if_neg hc]
      have := e5 i (by omega) (j - T.m) (by omega)
      rw [show T.m + (j - T.m) = j by omega] at this
      rw [this]
      exact ih2 i (by omega) _ (by omega)
  | @repack v T S n m hv h ih =>
    intro i hi j hj
    obtain ⟨e1, e2, e3, e4⟩ := h
    obtain ⟨a1, a2, a3, a4⟩ := repack_index e3 (i := i) (j := j) (by omega) (by omega)
    simp only [Lv.get, Lv.ref]
    rw [(shows_size hv).2, if_neg a1, e4 i (by omega) j (by omega) _ a2 _ a3 a4]
    exact ih _ a2 _ a3

theorem shows_cget [Zero R] {s : State R} {v : Lv} {T : Table R} (hz : s.zero = 0) (h : Shows s v T) :
    ∀ i < T.n, ∀ j < T.m, v.cget s i j = some (T.A i j) := by
  intro i hi j hj
  rw [← shows_get hz h i hi j hj]
  cases v with
  | block v nrows ncols orow ocol =>
    simp only [Lv.cget, Lv.get, Lv.ref]
    split
    · split
      · rw [← hz]; rfl
      · rfl
    · rfl
  | _ => rfl

variable [CommRing R] [Div R]

theorem means_size {s : State R} {e : Ex R} {T : Table R} (h : Means s e T) : e.rows s = T.n ∧ e.cols s = T.m := by
  induction h with
  | lv h => simpa only [Ex.rows, Ex.cols] using shows_size h
  | lit h => exact ⟨by rw [Ex.rows]; exact h.1.symm, by rw [Ex.cols]; exact h.2.1.symm⟩
  | unit h1 h2 _ => exact ⟨by rw [Ex.rows, h1], by rw [Ex.cols, h2]⟩
  | row h1 h2 _ => exact ⟨by rw [Ex.rows, h1], by rw [Ex.cols, h2]⟩
  | col h1 h2 _ => exact ⟨by rw [Ex.rows, h1], by rw [Ex.cols, h2]⟩
  | diag h1 h2 _ _ => exact ⟨by rw [Ex.rows, h1], by rw [Ex.cols, h2]⟩
  | sum _ _ h ih1 ih2 => exact ⟨by rw [Ex.rows, ih1.1, h.2.2.1], by rw [Ex.cols, ih1.2, h.2.2.2.1]⟩
  | diff _ _ h ih1 ih2 => exact ⟨by rw [Ex.rows, ih1.1, h.2.2.1], by rw [Ex.cols, ih1.2, h.2.2.2.1]⟩
  | neg _ h ih => exact ⟨by rw [Ex.rows, ih.1, h.1], by rw [Ex.cols, ih.2, h.2.1]⟩
  | tr _ h ih => exact ⟨by rw [Ex.rows, ih.2, h.1], by rw [Ex.cols, ih.1, h.2.1]⟩
  | catR _ _ h ih1 ih2 => exact ⟨by rw [Ex.rows, ih1.1, ih2.1, h.2.1], by rw [Ex.cols, ih1.2, h.2.2.1]⟩
  | catC _ _ h ih1 ih2 => exact ⟨by rw [Ex.rows, ih1.1, h.2.1], by rw [Ex.cols, ih1.2, ih2.2, h.2.2.1]⟩
  | repack _ h _ => exact ⟨by rw [Ex.rows, h.1], by rw [Ex.cols, h.2.1]⟩
  | sub _ h _ =>
    obtain ⟨h1, _, h2, _, _⟩ := h
    exact ⟨by rw [Ex.rows]; omega, by rw [Ex.cols]; omega⟩
  | block _ h _ => exact ⟨by rw [Ex.rows, h.1], by rw [Ex.cols, h.2.1]⟩
  | scale _ h ih => exact ⟨by rw [Ex.rows, ih.1, h.1], by rw [Ex.cols, ih.2, h.2.1]⟩
  | quot _ h ih => exact ⟨by rw [Ex.rows, ih.1, h.1], by rw [Ex.cols, ih.2, h.2.1]⟩
  | kron _ _ h ih1 ih2 => exact ⟨by rw [Ex.rows, ih1.1, ih2.1, h.1], by rw [Ex.cols, ih1.2, ih2.2, h.2.1]⟩

theorem means_ok {s : State R} {e : Ex R} {T : Table R} (h : Means s e T) : e.ok s = true := by
  induction h with
  | lv h => exact shows_ok h
  | lit h => rfl
  | unit _ _ _ => rfl
  | row _ _ _ => rfl
  | col _ _ _ => rfl
  | diag _ _ _ _ => rfl
  | sum h1 h2 h ih1 ih2 =>
    simp only [Ex.ok, ih1, ih2, Bool.and_true, Bool.true_and, Bool.and_eq_true, beq_iff_eq]
    exact ⟨by rw [(means_size h1).1, (means_size h2).1, h.1], by rw [(means_size h1).2, (means_size h2).2, h.2.1]⟩
  | diff h1 h2 h ih1 ih2 =>
    simp only [Ex.ok, ih1, ih2, Bool.and_true, Bool.true_and, Bool.and_eq_true, beq_iff_eq]
    exact ⟨by rw [(means_size h1).1, (means_size h2).1, h.1], by rw [(means_size h1).2, (means_size h2).2, h.2.1]⟩
  | neg _ _ ih => exact ih
  | tr _ _ ih => exact ih
  | catR h1 h2 h ih1 ih2 =>
    simp only [Ex.ok, ih1, ih2, Bool.and_true, Bool.true_and, beq_iff_eq]
    rw [(means_size h1).2, (means_size h2).2, h.1]
  | catC h1 h2 h ih1 ih2 =>
    simp only [Ex.ok, ih1, ih2, Bool.and_true, Bool.true_and, beq_iff_eq]
    rw [(means_size h1).1, (means_size h2).1, h.1]
  | repack h1 h ih =>
    simp only [Ex.ok, ih, Bool.true_and, beq_iff_eq]
    rw [(means_size h1).1, (means_size h1).2, h.2.2.1]
  | sub _ _ ih => exact ih
  | block _ _ ih => exact ih
  | scale _ _ ih => exact ih
  | quot _ _ ih => exact ih
  | kron h1 h2 h ih1 ih2 => simp only [Ex.ok, ih1, ih2, Bool.and_self]

theorem mat_get {M : Mat R} {S : Table R} (h : IsMat M S) : ∀ i < S.n, ∀ j < S.m, M.get i j = some (S.A i j) := by
  intro i hi j hj
  obtain ⟨h1, h2, _, h3⟩ := h
  rw [Mat.get, if_pos ⟨by omega, by omega⟩]
  exact h3 i hi j hj

/-- The pairs of indices of a product of Kronecker. -/
theorem kron_index {n p i : Nat} (h : i < n * p) : p ≠ 0 ∧ i / p < n ∧ i % p < p ∧ i = i / p * p + i % p := by
  have h0 : p ≠ 0 := by
    intro h0
    rw [h0] at h
    omega
  refine ⟨h0, ?_, Nat.mod_lt _ (Nat.pos_of_ne_zero h0), ?_⟩
  · rw [Nat.div_lt_iff_lt_mul (Nat.pos_of_ne_zero h0)]; exact h
  · exact (Nat.div_add_mod' _ _).symm

theorem means_at {s : State R} {e : Ex R} {T : Table R} (hz : s.zero = 0) (h : Means s e T) :
    ∀ i < T.n, ∀ j < T.m, e.at s i j = some (T.A i j) := by
  induction h with
  | lv h => exact shows_cget hz h
  | lit h => exact mat_get h
  | unit h1 h2 h =>
    intro i hi j hj
    rw [Ex.at, h i (by omega) j (by omega)]
  | @row n c S h1 h2 h =>
    intro i hi j hj
    have : i = 0 := by omega
    subst this
    rw [Ex.at, h j (by omega)]
  | @col n c S h1 h2 h =>
    intro i hi j hj
    have : j = 0 := by omega
    subst this
    rw [Ex.at, h i (by omega)]
  | @diag d S h1 h2 h3 h4 =>
    intro i hi j hj
    rw [Ex.at]
    by_cases hij : i = j
    · subst hij
      rw [if_pos rfl, h3 i (by omega), List.getElem?_eq_getElem (by omega)]
    · rw [if_neg hij, h4 i (by omega) j (by omega) hij]
  | sum h1 h2 h ih1 ih2 =>
    intro i hi j hj
    obtain ⟨e1, e2, e3, e4, e5⟩ := h
    rw [Ex.at, ih1 i (by omega) j (by omega), ih2 i (by omega) j (by omega), e5 i hi j hj]
    rfl
  | diff h1 h2 h ih1 ih2 =>
    intro i hi j hj
    obtain ⟨e1, e2, e3, e4, e5⟩ := h
    rw [Ex.at, ih1 i (by omega) j (by omega), ih2 i (by omega) j (by omega), e5 i hi j hj]
    rfl
  | neg _ h ih =>
    intro i hi j hj
    rw [Ex.at, ih i (h.1 ▸ hi) j (h.2.1 ▸ hj), h.2.2 i hi j hj]
    rfl
  | tr _ h ih =>
    intro i hi j hj
    rw [h.2.2 i hi j hj, Ex.at]
    exact ih j (h.2.1 ▸ hj) i (h.1 ▸ hi)
  | @catR v w T U S h1 h2 h ih1 ih2 =>
    intro i hi j hj
    obtain ⟨e1, e2, e3, e4, e5⟩ := h
    rw [Ex.at, (means_size h1).1]
    by_cases hc : i < T.n
    · rw [if_pos hc, e4 i hc j (by omega)]
      exact ih1 i hc j (by omega)
    · rw [if_neg hc]
      have := e5 (i - T.n) (by omega) j (by omega)
      rw [show T.n + (i - T.n) = i by omega] at this
      rw [this]
      exact ih2 _ (by omega) j (by omega)
  | @catC v w T U S h1 h2 h ih1 ih2 =>
    intro i hi j hj
    obtain ⟨e1, e2, e3, e4, e5⟩ := h
    rw [Ex.at, (means_size h1).2]
    by_cases hc : j < T.m
    · rw [if_pos hc, e4 i (by omega) j hc]
      exact ih1 i (by omega) j hc
    · rw [if_neg hc]
      have := e5 i (by omega) (j - T.m) (by omega)
      rw [show T.m + (j - T.m) = j by omega] at this
      rw [this]
      exact ih2 i (by omega) _ (by omega)
  | @repack v T S n m hv h ih =>
    intro i hi j hj
    obtain ⟨e1, e2, e3, e4⟩ := h
    obtain ⟨a1, a2, a3, a4⟩ := repack_index e3 (i := i) (j := j) (by omega) (by omega)
    rw [Ex.at, (means_size hv).2, if_neg a1, e4 i (by omega) j (by omega) _ a2 _ a3 a4]
    exact ih _ a2 _ a3
  | @sub v T S brow erow bcol ecol _ h ih =>
    intro i hi j hj
    obtain ⟨h1, h2, h3, h4, h5⟩ := h
    rw [h5 i hi j hj, ← ih (brow + i) (by omega) (bcol + j) (by omega), Ex.at, if_pos ⟨by omega, by omega⟩, Nat.add_comm i, Nat.add_comm j]
  | @block v T S nrows ncols orow ocol hv h ih =>
    intro i hi j hj
    obtain ⟨h1, h2, h3, h4⟩ := h
    rw [Ex.at, if_pos ⟨by omega, by omega⟩, (means_size hv).1, (means_size hv).2]
    by_cases hc : i < orow ∨ i ≥ orow + T.n ∨ j < ocol ∨ j ≥ ocol + T.m
    · rw [if_pos hc, h4 i (by omega) j (by omega) (by rintro ⟨i', hi', j', hj', e1, e2⟩; omega)]
    · rw [if_neg hc]
      have := h3 (i - orow) (by omega) (j - ocol) (by omega) (by omega) (by omega)
      rw [show orow + (i - orow) = i by omega, show ocol + (j - ocol) = j by omega] at this
      rw [this]
      exact ih (i - orow) (by omega) (j - ocol) (by omega)
  | scale _ h ih =>
    intro i hi j hj
    rw [Ex.at, ih i (h.1 ▸ hi) j (h.2.1 ▸ hj), h.2.2 i hi j hj]
    rfl
  | quot _ h ih =>
    intro i hi j hj
    rw [Ex.at, ih i (h.1 ▸ hi) j (h.2.1 ▸ hj), h.2.2 i hi j hj]
    rfl
  | @kron a b T U S h1 h2 h ih1 ih2 =>
    intro i hi j hj
    obtain ⟨e1, e2, e3⟩ := h
    rw [e1] at hi
    rw [e2] at hj
    obtain ⟨a1, a2, a3, a4⟩ := kron_index hi
    obtain ⟨b1, b2, b3, b4⟩ := kron_index hj
    rw [Ex.at, (means_size h2).1, (means_size h2).2, if_neg (by omega), ih1 _ a2 _ b2, ih2 _ a3 _ b3]
    have := e3 _ a2 _ b2 _ a3 _ b3
    rw [← a4, ← b4] at this
    rw [this]
    rfl

end Verif.Views
