import Verif.Views.Target

/-!
# C106: expressions of dense matrices give the elements of the mathematical operations

# C107: assignments of expressions of dense matrices

The meaning of expressions is in `Spec.lean`.  All theorems suppose that the variable `zero`, which all objects made by `BlockOf` share, is zero: this
holds when the program starts, and `C107_zero_fails` shows a program that changes it.
-/

namespace Verif.Views

variable {R : Type} [CommRing R] [Div R]

/-- A state with three matrices for the examples: `A` is 2 by 3, `B` is 3 by 2, `C` is 2 by 2. -/
def st : State ℤ where
  mats := fun k => if k = 0 then ⟨2, 3, [1, 2, 3, 4, 5, 6]⟩ else if k = 1 then ⟨3, 2, [7, 8, 9, 10, 11, 12]⟩ else ⟨2, 2, [1, 2, 3, 4]⟩
  zero := 0

def tabA : Table ℤ := ⟨2, 3, fun i j => 3 * i + j + 1⟩
def tabB : Table ℤ := ⟨3, 2, fun i j => 2 * i + j + 7⟩
def tabC : Table ℤ := ⟨2, 2, fun i j => 2 * i + j + 1⟩

theorem showsA : Shows st (.mat 0) tabA := .mat ⟨rfl, rfl, rfl, by decide +kernel⟩
theorem showsB : Shows st (.mat 1) tabB := .mat ⟨rfl, rfl, rfl, by decide +kernel⟩
theorem showsC : Shows st (.mat 2) tabC := .mat ⟨rfl, rfl, rfl, by decide +kernel⟩

/-! ## Elements -/

/-- **C106.** An expression that has a mathematical meaning passes the assertions of its constructors, has the sizes of the result, and each of its
elements is the element of the result. -/
theorem C106_value {s : State R} (hz : s.zero = 0) {e : Ex R} {T : Table R} (h : Means s e T) :
    e.ok s = true ∧ e.rows s = T.n ∧ e.cols s = T.m ∧ ∀ i < T.n, ∀ j < T.m, e.at s i j = some (T.A i j) :=
  ⟨means_ok h, (means_size h).1, (means_size h).2, means_at hz h⟩

/-- The transposed `A` repacked to 2 by 3, plus twice `A`. -/
example : Means st (.sum (.repack (.tr (.lv (.mat 0))) 2 3) (.scale (.lv (.mat 0)) 2))
    ⟨2, 3, fun i j => [[1 + 2, 4 + 4, 2 + 6], [5 + 8, 3 + 10, 6 + 12]][i]![j]!⟩ :=
  .sum (T := ⟨2, 3, fun i j => [[1, 4, 2], [5, 3, 6]][i]![j]!⟩) (U := ⟨2, 3, fun i j => [[2, 4, 6], [8, 10, 12]][i]![j]!⟩)
    (.repack (T := ⟨3, 2, fun i j => [[1, 4], [2, 5], [3, 6]][i]![j]!⟩) (.tr (.lv showsA) ⟨rfl, rfl, by decide +kernel⟩)
      ⟨rfl, rfl, rfl, by decide +kernel⟩)
    (.scale (.lv showsA) ⟨rfl, rfl, by decide +kernel⟩) ⟨rfl, rfl, rfl, rfl, by decide +kernel⟩

/-- A block, a concatenation and a product of Kronecker. -/
example : Means st (.kron (.catC (.lv (.mat 2)) (.block (.lv (.mat 2)) 2 3 1 1)) (.row 2 5))
    ⟨2, 10, fun i j => [[5, 5, 10, 10, 0, 0, 0, 0, 0, 0], [15, 15, 20, 20, 0, 0, 5, 5, 10, 10]][i]![j]!⟩ :=
  .kron (T := ⟨2, 5, fun i j => [[1, 2, 0, 0, 0], [3, 4, 0, 1, 2]][i]![j]!⟩) (U := ⟨1, 2, fun _ _ => 5⟩)
    (.catC (.lv showsC) (.block (S := ⟨2, 3, fun i j => [[0, 0, 0], [0, 1, 2]][i]![j]!⟩) (.lv showsC)
      ⟨rfl, rfl, by decide +kernel, by decide +kernel⟩) ⟨rfl, rfl, rfl, by decide +kernel, by decide +kernel⟩)
    (.row rfl rfl (by decide +kernel)) ⟨rfl, rfl, by decide +kernel⟩

/-- **C106.** A matrix constructed from an expression holds the result. -/
theorem C106_copy {s : State R} (hz : s.zero = 0) {e : Ex R} {T : Table R} (h : Means s e T) : ∃ M, copy s e = some M ∧ IsMat M T :=
  copy_spec hz h

/-- **C106.** The product of two expressions is the product of matrices.  The sum must not be empty, see `C106_mul_empty_fails`. -/
theorem C106_mul_partial {s : State R} (hz : s.zero = 0) {a b : Ex R} {T U S : Table R} (ha : Means s a T) (hb : Means s b U) (h0 : 0 < T.m)
    (h : IsMul T U S) : ∃ M, mul s a b = some M ∧ Means s (.lit M) S :=
  let ⟨M, h1, h2⟩ := mul_spec hz ha hb h0 h
  ⟨M, h1, .lit h2⟩

example : ∃ M, mul st (.lv (.mat 0)) (.lv (.mat 1)) = some M ∧ Means st (.lit M) ⟨2, 2, fun i j => [[58, 64], [139, 154]][i]![j]!⟩ :=
  C106_mul_partial rfl (.lv showsA) (.lv showsB) (by decide) ⟨rfl, rfl, rfl, by decide +kernel⟩

/-- **C106.** The product of a 1 by 0 and a 0 by 1 matrix is not the 1 by 1 zero matrix: an element outside of the matrices is read. -/
theorem C106_mul_empty_fails : ∃ (s : State ℤ) (a b : Ex ℤ) (T U S : Table ℤ), s.zero = 0 ∧ Means s a T ∧ Means s b U ∧ IsMul T U S ∧
    mul s a b = none :=
  ⟨st, .lit ⟨1, 0, []⟩, .lit ⟨0, 1, []⟩, ⟨1, 0, fun _ _ => 0⟩, ⟨0, 1, fun _ _ => 0⟩, ⟨1, 1, fun _ _ => 0⟩, rfl,
    .lit ⟨rfl, rfl, rfl, by decide +kernel⟩, .lit ⟨rfl, rfl, rfl, by decide +kernel⟩, ⟨rfl, rfl, rfl, by decide +kernel⟩, by decide +kernel⟩

/-- **C106.** The trace is the sum of the diagonal elements. -/
theorem C106_trace {s : State R} (hz : s.zero = 0) {e : Ex R} {T : Table R} (h : Means s e T) (hsq : T.n = T.m) :
    trace s e = some (∑ i ∈ Finset.range T.n, T.A i i) := trace_spec hz h hsq

example : trace st (.lv (.mat 2)) = some 5 := C106_trace rfl (.lv showsC) rfl

/-- **C106.** The dot product is the sum of products of all elements. -/
theorem C106_dot {s : State R} (hz : s.zero = 0) {a b : Ex R} {T U : Table R} (ha : Means s a T) (hb : Means s b U) (hn : T.n = U.n)
    (hm : T.m = U.m) : dot s a b = some (∑ i ∈ Finset.range T.n, ∑ j ∈ Finset.range T.m, T.A i j * U.A i j) := dot_spec hz ha hb hn hm

example : dot st (.lv (.mat 2)) (.lv (.mat 2)) = some 30 := C106_dot rfl (.lv showsC) (.lv showsC) rfl rfl

/-! ## Products of matrices of variables -/

section
variable {K : Type} [CommRing K] [Div K] [Div (Var K)]

/-- **C106.** With an automatizator the product of matrices of variables is the product with derivatives if the result has as many columns as the
left matrix, see `C106_mul_variable_fails`.  The same holds when one of the matrices has numbers for elements. -/
theorem C106_mul_variable_partial {s s' : State (Var K)} {r r' : State K} (hs : s.zero = 0) (hs' : s'.zero = 0) (hr : r.zero = 0) (hr' : r'.zero = 0) :
    (∀ {a b : Ex (Var K)} {T U S : Table (Var K)}, Means s a T → Means s' b U → IsMul T U S → U.m = T.m →
      ∃ M, mulMerged bodyVV s s' a b = some M ∧ IsMat M S) ∧
    (∀ {a : Ex K} {b : Ex (Var K)} {T : Table K} {U S : Table (Var K)}, Means r a T → Means s' b U →
      IsMul ⟨T.n, T.m, fun i j => TrivSqZeroExt.inl (T.A i j)⟩ U S → U.m = T.m →
      ∃ M, mulMerged bodyRV r s' a b = some M ∧ IsMat M S) ∧
    (∀ {a : Ex (Var K)} {b : Ex K} {T S : Table (Var K)} {U : Table K}, Means s a T → Means r' b U →
      IsMul T ⟨U.n, U.m, fun i j => TrivSqZeroExt.inl (U.A i j)⟩ S → U.m = T.m →
      ∃ M, mulMerged bodyVR s r' a b = some M ∧ IsMat M S) := by
  refine ⟨?_, ?_, ?_⟩
  · rintro a b T U S ha hb ⟨e1, e2, e3, e4⟩ hm
    obtain ⟨M, h1, h2, h3, h4, h5⟩ := merged_spec adds_VV hs hs' ha hb e1 (by omega)
    refine ⟨M, h1, e2.trans h2, e3.trans h3, h4, fun i hi j hj => ?_⟩
    rw [e4 i hi j hj, ← hm]
    exact h5 i (e2 ▸ hi) j (e3 ▸ hj)
  · rintro a b T U S ha hb ⟨e1, e2, e3, e4⟩ hm
    obtain ⟨M, h1, h2, h3, h4, h5⟩ := merged_spec adds_RV hr hs' ha hb e1 (by omega)
    refine ⟨M, h1, e2.trans h2, e3.trans h3, h4, fun i hi j hj => ?_⟩
    rw [e4 i hi j hj]
    simp only []
    rw [← hm]
    exact h5 i (e2 ▸ hi) j (e3 ▸ hj)
  · rintro a b T S U ha hb ⟨e1, e2, e3, e4⟩ hm
    obtain ⟨M, h1, h2, h3, h4, h5⟩ := merged_spec adds_VR hs hr' ha hb e1 (by omega)
    refine ⟨M, h1, e2.trans h2, e3.trans h3, h4, fun i hi j hj => ?_⟩
    rw [e4 i hi j hj, ← hm]
    exact h5 i (e2 ▸ hi) j (e3 ▸ hj)

end

/-- Numbers as variables without derivatives; some division. -/
instance : Div (Var ℤ) := ⟨fun x _ => x⟩

/-- The state for the examples with variables: a row of two variables, a column of two variables. -/
def vst : State (Var ℤ) where
  mats := fun k => if k = 0 then ⟨1, 2, [((3 : ℤ), fun u => if u = 0 then 1 else 0), (5, fun u => if u = 1 then 1 else 0)]⟩
    else ⟨2, 1, [((1 : ℤ), fun _ => 0), (1, fun _ => 0)]⟩
  zero := 0

/-- **C106.** The product of a row of two variables and a column of two variables with values `(3, 5)` and `(1, 1)` has the value 3 if there is an
automatizator, not 8: the loop over the inner index stops at the number of columns of the result. -/
theorem C106_mul_variable_fails : ∃ (s : State (Var ℤ)) (a b : Ex (Var ℤ)) (T U S : Table (Var ℤ)) (M : Mat (Var ℤ)), s.zero = 0 ∧
    Means s a T ∧ Means s b U ∧ 0 < T.m ∧ IsMul T U S ∧ (S.A 0 0).fst = 8 ∧ mulMerged bodyVV s s a b = some M ∧
    (M.get 0 0).map (·.fst) = some 3 ∧ ¬ IsMat M S := by
  let T : Table (Var ℤ) := ⟨1, 2, fun _ j => (if j = 0 then (3, fun u => if u = 0 then 1 else 0) else (5, fun u => if u = 1 then 1 else 0))⟩
  let U : Table (Var ℤ) := ⟨2, 1, fun _ _ => (1, fun _ => 0)⟩
  let S : Table (Var ℤ) := ⟨1, 1, fun i j => ∑ k ∈ Finset.range 2, T.A i k * U.A k j⟩
  have hT : Means vst (.lv (.mat 0)) T := .lv (.mat ⟨rfl, rfl, rfl, by
    intro i hi j hj
    have hi : i = 0 := by change i < 1 at hi; omega
    have hj : j = 0 ∨ j = 1 := by change j < 2 at hj; omega
    rcases hj with rfl | rfl <;> subst hi <;> rfl⟩)
  have hU : Means vst (.lv (.mat 1)) U := .lv (.mat ⟨rfl, rfl, rfl, by
    intro i hi j hj
    have hj : j = 0 := by change j < 1 at hj; omega
    have hi : i = 0 ∨ i = 1 := by change i < 2 at hi; omega
    rcases hi with rfl | rfl <;> subst hj <;> rfl⟩)
  obtain ⟨M, hM, hS⟩ := merged_spec (K := ℤ) adds_VV (sa := vst) (sb := vst) rfl rfl hT hU rfl (by decide)
  have h8 : (S.A 0 0).fst = 8 := by
    show (∑ k ∈ Finset.range 2, T.A 0 k * U.A k 0).fst = 8
    rw [Finset.sum_range_succ, Finset.sum_range_succ, Finset.sum_range_zero]
    rfl
  have h3 : M.get 0 0 = some (T.A 0 0 * U.A 0 0) := by
    rw [mat_get hS 0 (by decide) 0 (by decide)]
    show some (∑ k ∈ Finset.range 1, T.A 0 k * U.A k 0) = _
    rw [Finset.sum_range_one]
  refine ⟨vst, .lv (.mat 0), .lv (.mat 1), T, U, S, M, rfl, hT, hU, by decide, ⟨rfl, rfl, rfl, fun i _ j _ => rfl⟩, h8, hM, by rw [h3]; rfl, ?_⟩
  intro h
  have := mat_get h 0 (by decide) 0 (by decide)
  rw [h3] at this
  have := congrArg TrivSqZeroExt.fst (Option.some.inj this)
  rw [h8] at this
  revert this
  show ¬ ((3 : ℤ) * 1 = 8)
  decide

/-- **C106.** If the result has more columns than the left matrix, elements outside of the matrices are read. -/
theorem C106_mul_variable_outside_fails : ∃ (s : State (Var ℤ)) (a b : Ex (Var ℤ)) (T U : Table (Var ℤ)), s.zero = 0 ∧
    Means s a T ∧ Means s b U ∧ 0 < T.m ∧ T.m = U.n ∧ mulMerged bodyVV s s a b = none :=
  ⟨vst, .lit ⟨1, 1, [1]⟩, .lit ⟨1, 2, [1, 1]⟩, ⟨1, 1, fun _ _ => 1⟩, ⟨1, 2, fun _ _ => 1⟩, rfl,
    .lit ⟨rfl, rfl, rfl, by
      intro i hi j hj
      have hi : i = 0 := by change i < 1 at hi; omega
      have hj : j = 0 := by change j < 1 at hj; omega
      subst hi hj; rfl⟩,
    .lit ⟨rfl, rfl, rfl, by
      intro i hi j hj
      have hi : i = 0 := by change i < 1 at hi; omega
      have hj : j = 0 ∨ j = 1 := by change j < 2 at hj; omega
      rcases hj with rfl | rfl <;> subst hi <;> rfl⟩, by decide, rfl, rfl⟩

/-! ## Assignments -/

/-- **C107.** `A = e` for a matrix `A`: if `e` uses `A` element by element only, the matrix holds the result of `e`, whatever its sizes were, and the
other matrices do not change. -/
theorem C107_matrix_partial {s : State R} (hz : s.zero = 0) {k : Nat} (hl : (s.mats k).a.length = (s.mats k).n * (s.mats k).m) {e : Ex R}
    {S : Table R} (he : Means s e S) (hp : Pointwise (.mat k) e) :
    ∃ t, assignMat s k e = some t ∧ Shows t (.mat k) S ∧ t.zero = s.zero ∧ ∀ k', k' ≠ k → t.mats k' = s.mats k' :=
  assignMat_spec hz hl he hp

/-- `C = C - C * 3`. -/
example : ∃ t, assignMat st 2 (.diff (.lv (.mat 2)) (.scale (.lv (.mat 2)) 3)) = some t ∧
    Shows t (.mat 2) ⟨2, 2, fun i j => [[-2, -4], [-6, -8]][i]![j]!⟩ :=
  have ⟨t, h1, h2, _⟩ := C107_matrix_partial (s := st) rfl (k := 2) rfl
    (.diff (.lv showsC) (.scale (S := ⟨2, 2, fun i j => [[3, 6], [9, 12]][i]![j]!⟩) (.lv showsC) ⟨rfl, rfl, by decide +kernel⟩)
      (S := ⟨2, 2, fun i j => [[-2, -4], [-6, -8]][i]![j]!⟩) ⟨rfl, rfl, rfl, rfl, by decide +kernel⟩) (.diff .self (.scale .self))
  ⟨t, h1, h2⟩

/-- `C = A` transposed: the matrix is resized. -/
example : ∃ t, assignMat st 2 (.tr (.lv (.mat 0))) = some t ∧ Shows t (.mat 2) ⟨3, 2, fun i j => 3 * j + i + 1⟩ :=
  have ⟨t, h1, h2, _⟩ := C107_matrix_partial (s := st) rfl (k := 2) rfl
    (.tr (S := ⟨3, 2, fun i j => 3 * (j : ℤ) + i + 1⟩) (.lv showsA) ⟨rfl, rfl, by decide +kernel⟩) (.other (by decide))
  ⟨t, h1, h2⟩

/-- **C107.** Assignment to a window of a matrix (a submatrix, transposed or repacked): if the sizes are equal and the right side uses the window element
by element only, the window shows the result, and nothing outside of the window changes. -/
theorem C107_window_partial {s : State R} {v : Lv} (hw : Window v) (hv : ∀ k, v ≠ .mat k) {T S : Table R} (hz : s.zero = 0) (hT : Shows s v T)
    {e : Ex R} (he : Means s e S) (hn : S.n = T.n) (hm : S.m = T.m) (hp : Pointwise v e) :
    ∃ t, assign s v e = some t ∧ Shows t v S ∧ SameSize s t ∧ t.zero = s.zero ∧
      ∀ l, (∀ i < T.n, ∀ j < T.m, v.ref s i j ≠ some l) → load t l = load s l :=
  assign_window_spec hw hv hz hT he hn hm hp

/-- The last two columns of `A`. -/
theorem showsSub : Shows st (.sub (.mat 0) 0 2 1 3) ⟨2, 2, fun i j => 3 * i + j + 2⟩ :=
  .sub showsA ⟨rfl, by decide, rfl, by decide, by decide +kernel⟩

/-- The last two columns of `A` get `C`. -/
example : ∃ t, assign st (.sub (.mat 0) 0 2 1 3) (.lv (.mat 2)) = some t ∧ Shows t (.sub (.mat 0) 0 2 1 3) tabC :=
  have ⟨t, h1, h2, _⟩ := C107_window_partial (.sub _ _ _ _ (.mat 0)) (by intro k h; cases h) rfl showsSub (.lv showsC) rfl rfl (.other (by decide))
  ⟨t, h1, h2⟩

/-- **C107.** `v += e`, `v -= e`: each element is changed by the element of `e`, if `e` uses `v` element by element only. -/
theorem C107_compound_partial {s : State R} {v : Lv} (hw : Window v) {T U S : Table R} (hz : s.zero = 0) (hT : Shows s v T) {e : Ex R}
    (he : Means s e U) (hp : Pointwise v e) :
    (IsMap2 (· + ·) T U S → ∃ t, compound (· + ·) s v e = some t ∧ Shows t v S ∧
      ∀ l, (∀ i < T.n, ∀ j < T.m, v.ref s i j ≠ some l) → load t l = load s l) ∧
    (IsMap2 (· - ·) T U S → ∃ t, compound (· - ·) s v e = some t ∧ Shows t v S ∧
      ∀ l, (∀ i < T.n, ∀ j < T.m, v.ref s i j ≠ some l) → load t l = load s l) :=
  ⟨fun h => let ⟨t, h1, h2, _, _, h3⟩ := compound_spec hw _ hz hT he h hp; ⟨t, h1, h2, h3⟩,
   fun h => let ⟨t, h1, h2, _, _, h3⟩ := compound_spec hw _ hz hT he h hp; ⟨t, h1, h2, h3⟩⟩

example : ∃ t, compound (· - ·) st (.sub (.mat 0) 0 2 1 3) (.lv (.mat 2)) = some t ∧
    Shows t (.sub (.mat 0) 0 2 1 3) ⟨2, 2, fun i _ => i + 1⟩ :=
  have ⟨t, h1, h2, _⟩ := (C107_compound_partial (S := ⟨2, 2, fun i _ => (i : ℤ) + 1⟩) (.sub _ _ _ _ (.mat 0)) rfl showsSub (.lv showsC) (.other (by decide))).2
    ⟨rfl, rfl, rfl, rfl, by decide +kernel⟩
  ⟨t, h1, h2⟩

/-- **C107.** `v *= c`, `v /= c`: each element is multiplied or divided. -/
theorem C107_coefficient {s : State R} {v : Lv} (hw : Window v) {T S : Table R} (hz : s.zero = 0) (hT : Shows s v T) (c : R) :
    (IsMap (· * c) T S → ∃ t, compoundC (· * c) s v = some t ∧ Shows t v S ∧
      ∀ l, (∀ i < T.n, ∀ j < T.m, v.ref s i j ≠ some l) → load t l = load s l) ∧
    (IsMap (· / c) T S → ∃ t, compoundC (· / c) s v = some t ∧ Shows t v S ∧
      ∀ l, (∀ i < T.n, ∀ j < T.m, v.ref s i j ≠ some l) → load t l = load s l) :=
  ⟨fun h => let ⟨t, h1, h2, _, _, h3⟩ := compoundC_spec hw _ hz hT h; ⟨t, h1, h2, h3⟩,
   fun h => let ⟨t, h1, h2, _, _, h3⟩ := compoundC_spec hw _ hz hT h; ⟨t, h1, h2, h3⟩⟩

example : ∃ t, compoundC (· * 2) st (.tr (.mat 0)) = some t ∧ Shows t (.tr (.mat 0)) ⟨3, 2, fun i j => 6 * j + 2 * i + 2⟩ :=
  have ⟨t, h1, h2, _⟩ := (C107_coefficient (S := ⟨3, 2, fun i j => 6 * (j : ℤ) + 2 * i + 2⟩) (.tr (.mat 0)) rfl
    (.tr (S := ⟨3, 2, fun i j => 3 * (j : ℤ) + i + 1⟩) showsA ⟨rfl, rfl, by decide +kernel⟩) 2).1 ⟨rfl, rfl, by decide +kernel⟩
  ⟨t, h1, h2⟩

/-- **C107.** `A *= e` for a matrix `A`: the matrix holds the product, even if `e` uses `A`, and the other matrices do not change. -/
theorem C107_mul_matrix {s : State R} (hz : s.zero = 0) {k : Nat} {T U S : Table R} (hT : Shows s (.mat k) T) {e : Ex R} (he : Means s e U)
    (h0 : 0 < T.m) (h : IsMul T U S) :
    ∃ t, mulAssign s (.mat k) e = some t ∧ Shows t (.mat k) S ∧ ∀ k', k' ≠ k → t.mats k' = s.mats k' := by
  obtain ⟨M, h1, h2⟩ := mul_spec hz (.lv hT) he h0 h
  obtain ⟨t, e1, e2, _, e4⟩ := assign_mat_spec (s := s) (k := k) hz (.lit h2) (by simp [Ex.mats])
  exact ⟨t, by rw [mulAssign, h1]; exact e1, e2, e4⟩

/-- `C *= C` and `A *= B`. -/
example : (∃ t, mulAssign st (.mat 2) (.lv (.mat 2)) = some t ∧ Shows t (.mat 2) ⟨2, 2, fun i j => [[7, 10], [15, 22]][i]![j]!⟩) ∧
    ∃ t, mulAssign st (.mat 0) (.lv (.mat 1)) = some t ∧ Shows t (.mat 0) ⟨2, 2, fun i j => [[58, 64], [139, 154]][i]![j]!⟩ :=
  ⟨have ⟨t, h1, h2, _⟩ := C107_mul_matrix (S := ⟨2, 2, fun i j => [[7, 10], [15, 22]][i]![j]!⟩) rfl showsC (.lv showsC) (by decide) ⟨rfl, rfl, rfl, by decide +kernel⟩; ⟨t, h1, h2⟩,
   have ⟨t, h1, h2, _⟩ := C107_mul_matrix (S := ⟨2, 2, fun i j => [[58, 64], [139, 154]][i]![j]!⟩) rfl showsA (.lv showsB) (by decide) ⟨rfl, rfl, rfl, by decide +kernel⟩; ⟨t, h1, h2⟩⟩

/-- **C107.** `v *= e` for a window of a matrix, if the product has the size of the window. -/
theorem C107_mul_window {s : State R} {v : Lv} (hw : Window v) (hv : ∀ k, v ≠ .mat k) (hz : s.zero = 0) {T U S : Table R} (hT : Shows s v T)
    {e : Ex R} (he : Means s e U) (h0 : 0 < T.m) (h : IsMul T U S) (hm : U.m = T.m) :
    ∃ t, mulAssign s v e = some t ∧ Shows t v S ∧ ∀ l, (∀ i < T.n, ∀ j < T.m, v.ref s i j ≠ some l) → load t l = load s l := by
  obtain ⟨M, h1, h2⟩ := mul_spec hz (.lv hT) he h0 h
  obtain ⟨t, e1, e2, _, _, e4⟩ := assign_window_spec hw hv hz hT (.lit h2) h.2.1 (by rw [h.2.2.1, hm]) (.other (by simp [Ex.mats]))
  exact ⟨t, by rw [mulAssign, h1]; exact e1, e2, e4⟩

example : ∃ t, mulAssign st (.sub (.mat 0) 0 2 1 3) (.lv (.sub (.mat 0) 0 2 1 3)) = some t ∧
    Shows t (.sub (.mat 0) 0 2 1 3) ⟨2, 2, fun i j => [[19, 24], [40, 51]][i]![j]!⟩ :=
  have ⟨t, h1, h2, _⟩ := C107_mul_window (S := ⟨2, 2, fun i j => [[19, 24], [40, 51]][i]![j]!⟩) (.sub _ _ _ _ (.mat 0))
    (by intro k h; cases h) rfl showsSub (.lv showsSub) (by decide) ⟨rfl, rfl, rfl, by decide +kernel⟩ rfl
  ⟨t, h1, h2⟩

/-! ## Assignments that do not give the result -/

/-- The elements of a matrix after an operation. -/
def after (t : Option (State ℤ)) (k : Nat) : Option (Nat × Nat × List ℤ) := t.map fun t => ((t.mats k).n, (t.mats k).m, (t.mats k).a)

/-- **C107.** `A = A.Transpose()` for the square matrix `[1 2; 3 4]` gives `[1 3; 3 4]`, and for a matrix of two rows and three columns it leaves the array
of elements. -/
theorem C107_transpose_fails : (∃ (s : State ℤ) (S : Table ℤ), s.zero = 0 ∧ Means s (.lv (.tr (.mat 2))) S ∧
    after (assignMat s 2 (.lv (.tr (.mat 2)))) 2 = some (2, 2, [1, 3, 3, 4]) ∧ S.A 1 0 = 2) ∧
    ∃ (s : State ℤ) (S : Table ℤ), s.zero = 0 ∧ Means s (.lv (.tr (.mat 0))) S ∧ assignMat s 0 (.lv (.tr (.mat 0))) = none :=
  ⟨⟨st, ⟨2, 2, fun i j => 2 * j + i + 1⟩, rfl, .lv (.tr showsC ⟨rfl, rfl, by decide +kernel⟩), by decide +kernel, by decide⟩,
   ⟨st, ⟨3, 2, fun i j => 3 * j + i + 1⟩, rfl, .lv (.tr showsA ⟨rfl, rfl, by decide +kernel⟩), by
    have : (assignMat st 0 (.lv (.tr (.mat 0)))).isNone = true := by decide +kernel
    simpa using this⟩⟩

/-- **C107.** `A += A.Transpose()` gives a matrix that is not symmetric: `[2 5; 8 8]` in place of `[2 5; 5 8]`. -/
theorem C107_symmetrize_fails : ∃ (s : State ℤ) (U : Table ℤ), s.zero = 0 ∧ Means s (.lv (.tr (.mat 2))) U ∧
    after (compound (· + ·) s (.mat 2) (.lv (.tr (.mat 2)))) 2 = some (2, 2, [2, 5, 8, 8]) ∧ tabC.A 1 0 + U.A 1 0 = 5 :=
  ⟨st, ⟨2, 2, fun i j => 2 * j + i + 1⟩, rfl, .lv (.tr showsC ⟨rfl, rfl, by decide +kernel⟩), by decide +kernel, by decide⟩

/-- **C107.** Assignment between overlapping submatrices: moving the columns 0 and 1 of `[1 2 3; 4 5 6]` to the columns 1 and 2 repeats the column 0. -/
theorem C107_overlap_fails : ∃ (s : State ℤ) (S : Table ℤ), s.zero = 0 ∧ Means s (.lv (.sub (.mat 0) 0 2 0 2)) S ∧
    after (assign s (.sub (.mat 0) 0 2 1 3) (.lv (.sub (.mat 0) 0 2 0 2))) 0 = some (2, 3, [1, 1, 1, 4, 4, 4]) ∧ S.A 0 1 = 2 :=
  ⟨st, ⟨2, 2, fun i j => 3 * i + j + 1⟩, rfl, .lv (.sub showsA ⟨rfl, by decide, rfl, by decide, by decide +kernel⟩), by decide +kernel, by decide⟩

/-- An assignment of a 3 by 3 matrix to the block that contains `C`. -/
def toBlock : Option (State ℤ) := assign st (.block (.mat 2) 3 3 0 0) (.lit ⟨3, 3, [1, 2, 3, 4, 5, 6, 7, 8, 9]⟩)

theorem toBlock_some : toBlock.isSome = true := by decide +kernel

/-- **C107.** `C.BlockOf(3,3,0,0) = D` changes the zero outside of the block: afterwards the element (2,2) of the block of another matrix, read
through the operator without `const`, is not zero. -/
theorem C107_zero_fails : ∃ (s t : State ℤ) (D S : Table ℤ), s.zero = 0 ∧ Means s (.lit ⟨3, 3, [1, 2, 3, 4, 5, 6, 7, 8, 9]⟩) D ∧
    assign s (.block (.mat 2) 3 3 0 0) (.lit ⟨3, 3, [1, 2, 3, 4, 5, 6, 7, 8, 9]⟩) = some t ∧
    Shows t (.block (.mat 0) 3 3 0 0) S ∧ S.A 2 2 = 0 ∧ Lv.get t (.block (.mat 0) 3 3 0 0) 2 2 = some 9 :=
  ⟨st, toBlock.get toBlock_some, ⟨3, 3, fun i j => 3 * i + j + 1⟩, ⟨3, 3, fun i j => if i < 2 then 3 * i + j + 1 else 0⟩, rfl,
    .lit ⟨rfl, rfl, rfl, by decide +kernel⟩, (Option.some_get toBlock_some).symm,
    .block (T := tabA) (.mat ⟨by decide +kernel, by decide +kernel, by decide +kernel, by decide +kernel⟩)
      ⟨rfl, rfl, by decide +kernel, by decide +kernel⟩, by decide, by decide +kernel⟩

/-- The assignment of a named submatrix of `A` to a named submatrix of `C`. -/
def toNamed : Option (State ℤ × Lv) := assignSame st (.sub (.mat 2) 0 1 0 1) (.sub (.mat 0) 0 1 0 1)

theorem toNamed_some : toNamed.isSome = true := by decide +kernel

/-- **C107.** `S = T` for two named objects `SubMatrix` of the same type: the elements are copied, but `S` then refers to the matrix of `T`, and the next
assignment to `S` changes that matrix. -/
theorem C107_rebind_fails : ∃ (s t : State ℤ) (v' : Lv), s.zero = 0 ∧
    assignSame s (.sub (.mat 2) 0 1 0 1) (.sub (.mat 0) 0 1 0 1) = some (t, v') ∧
    after (assign t v' (.lit ⟨1, 1, [100]⟩)) 2 = some (2, 2, [1, 2, 3, 4]) ∧
    after (assign t v' (.lit ⟨1, 1, [100]⟩)) 0 = some (2, 3, [100, 2, 3, 4, 5, 6]) :=
  ⟨st, (toNamed.get toNamed_some).1, (toNamed.get toNamed_some).2, rfl, (Option.some_get toNamed_some).symm, by decide +kernel, by decide +kernel⟩

/-- **C107.** `C.Transpose() = D` stores `D` itself, not its transpose, in `C`. -/
theorem C107_target_fails : ∃ (s : State ℤ), s.zero = 0 ∧ s.mats 3 = ⟨2, 2, [1, 2, 3, 4]⟩ ∧
    (assignTransposed (s.set 2 ⟨2, 2, [0, 0, 0, 0]⟩) 2 3).map (fun r => (r.1.mats 2).a) = some [1, 2, 3, 4] :=
  ⟨st, rfl, rfl, by decide +kernel⟩

end Verif.Views
