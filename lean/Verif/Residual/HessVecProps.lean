import Verif.Residual.HessVecModel
import Verif.Autodiff.HessProps
import Verif.Autodiff.Props

/-!
# C110: products of Hessian matrices

A row of second derivatives holds the quadratic form `quad H` (specification of C31); its product with a vector `u` is the
linear form `v ↦ polar H u v` where `polar` is the symmetric bilinear form with `polar H v v = quad H v`.
-/

namespace Verif.Residual

open Verif.Sparse Verif.Autodiff

/-- The symmetric bilinear form of a quadratic form. -/
noncomputable def polar (H : HRow) (u v : Nat → ℝ) : ℝ :=
  (quad H (fun i => u i + v i) - quad H u - quad H v) / 2

theorem scaleFirst_all (beta : ℝ) (r : Row ℝ) : scaleFirst beta r.length r = some (r.map fun e => (e.1, e.2 * beta)) := by
  induction r with
  | nil => rfl
  | cons e r ih => rw [List.length_cons, scaleFirst, ih]; rfl

theorem scaleFirst_short (beta : ℝ) (n : Nat) (r : Row ℝ) (h : r.length < n) : scaleFirst beta n r = none := by
  induction r generalizing n with
  | nil => cases n with
    | zero => simp at h
    | succ n => rfl
  | cons e r ih =>
    cases n with
    | zero => simp at h
    | succ n => rw [scaleFirst, ih n (by simpa using h)]; rfl

theorem addLoop_all (alpha : ℝ) (U : Row ℝ) (H : HRow) (J : Row ℝ) :
    addLoop alpha U H.length H J = some (H.foldl (addEntry alpha U) J) := by
  induction H generalizing J with
  | nil => rfl
  | cons h H ih => rw [List.length_cons, addLoop, ih]; rfl

theorem addLoop_short (alpha : ℝ) (U : Row ℝ) (n : Nat) (H : HRow) (J : Row ℝ) (h : H.length < n) :
    addLoop alpha U n H J = none := by
  induction H generalizing n J with
  | nil => cases n with
    | zero => simp at h
    | succ n => rfl
  | cons e H ih =>
    cases n with
    | zero => simp at h
    | succ n => rw [addLoop, ih n _ (by simpa using h)]

theorem addEntry_distinct (alpha : ℝ) (U J : Row ℝ) (h : HIdx × ℝ) (hd : Distinct J) : Distinct (addEntry alpha U J h) := by
  unfold addEntry
  simp only
  split
  · exact distinct_access _ _ _ hd
  · exact distinct_access _ _ _ (distinct_access _ _ _ hd)

theorem addEntry_dot (alpha : ℝ) (U J : Row ℝ) (h : HIdx × ℝ) (v : Nat → ℝ) :
    dot (addEntry alpha U J h) v = dot J v + alpha * (h.2 * (if (ofLex h.1).1 = (ofLex h.1).2
      then getSafe U (ofLex h.1).1 * v (ofLex h.1).1
      else getSafe U (ofLex h.1).2 * v (ofLex h.1).1 + getSafe U (ofLex h.1).1 * v (ofLex h.1).2)) := by
  unfold addEntry
  simp only
  split
  · rw [dot_access]; ring
  · rw [dot_access, dot_access]; ring

/-- Products of a row with entries stored once: each entry off the diagonal counts for both of its places. -/
noncomputable def once (H : HRow) (u v : Nat → ℝ) : ℝ :=
  (H.map fun h => h.2 * (if (ofLex h.1).1 = (ofLex h.1).2 then u (ofLex h.1).1 * v (ofLex h.1).1
      else u (ofLex h.1).2 * v (ofLex h.1).1 + u (ofLex h.1).1 * v (ofLex h.1).2)).sum

theorem fold_spec (alpha : ℝ) (U : Row ℝ) (H : HRow) (J : Row ℝ) (hd : Distinct J) :
    Distinct (H.foldl (addEntry alpha U) J) ∧
    ∀ v, dot (H.foldl (addEntry alpha U) J) v = dot J v + alpha * once H (getSafe U) v := by
  induction H generalizing J with
  | nil => exact ⟨hd, fun v => by simp [once]⟩
  | cons h H ih =>
    obtain ⟨h1, h2⟩ := ih _ (addEntry_distinct alpha U J h hd)
    refine ⟨h1, fun v => ?_⟩
    rw [List.foldl_cons, h2, addEntry_dot]
    unfold once
    rw [List.map_cons, List.sum_cons]
    ring

theorem once_diag (H : HRow) (hH : ∀ h ∈ H, (ofLex h.1).1 = (ofLex h.1).2) (u v : Nat → ℝ) :
    once H u v = polar H u v := by
  induction H with
  | nil => simp [once, polar, quad]
  | cons h H ih =>
    have h1 := hH h (by simp)
    have h2 := ih (fun g hg => hH g (by simp [hg]))
    unfold once polar quad at h2 ⊢
    simp only [List.map_cons, List.sum_cons, if_pos h1]
    rw [h2, ← h1]
    ring

theorem once_double (H : HRow) (hH : ∀ h ∈ H, (ofLex h.1).1 ≠ (ofLex h.1).2) (u v : Nat → ℝ) :
    once H u v = 2 * polar H u v := by
  induction H with
  | nil => simp [once, polar, quad]
  | cons h H ih =>
    have h1 := hH h (by simp)
    have h2 := ih (fun g hg => hH g (by simp [hg]))
    unfold once polar quad at h2 ⊢
    simp only [List.map_cons, List.sum_cons, if_neg h1]
    rw [h2]
    ring

theorem rowVec_spec (H : HRow) (alpha : ℝ) (U : Row ℝ) (beta : ℝ) (J : Row ℝ) (hd : Distinct J)
    (h1 : J.length = U.length) (h2 : H.length = U.length) :
    ∃ J', hessRowVec H alpha U beta J = some J' ∧ Distinct J' ∧
      ∀ v, dot J' v = beta * dot J v + alpha * once H (getSafe U) v := by
  obtain ⟨g1, g2⟩ := fold_spec alpha U H (J.map fun e => (e.1, e.2 * beta)) (distinct_scale J beta hd)
  refine ⟨_, ?_, g1, fun v => by rw [g2, dot_scale]⟩
  unfold hessRowVec
  rw [← h1, scaleFirst_all, Option.bind_some, h1, ← h2, addLoop_all]

/-- **C110, rows.**  If the row of the Hessian has entries on the diagonal only, and the three rows have the same number of
entries, then `RowVec` gives `J := beta J + alpha H u`. -/
theorem C110_row_partial (H : HRow) (hH : ∀ h ∈ H, (ofLex h.1).1 = (ofLex h.1).2) (alpha : ℝ) (U : Row ℝ) (beta : ℝ)
    (J : Row ℝ) (hd : Distinct J) (h1 : J.length = U.length) (h2 : H.length = U.length) :
    ∃ J', hessRowVec H alpha U beta J = some J' ∧ Distinct J' ∧
      ∀ v, dot J' v = beta * dot J v + alpha * polar H (getSafe U) v := by
  obtain ⟨J', g1, g2, g3⟩ := rowVec_spec H alpha U beta J hd h1 h2
  exact ⟨J', g1, g2, fun v => by rw [g3, once_diag H hH]⟩

theorem matVecLoop_spec (H : IMat HRow) (alpha : ℝ) (U : IMat (Row ℝ)) (beta : ℝ) (n : Nat) :
    ∀ (k : Nat) (J : IMat (Row ℝ)), (∀ i, k ≤ i → i < k + n → (U.beg ≤ i ∧ i < U.stop) ∧ (J.beg ≤ i ∧ i < J.stop) ∧
      Distinct (J.row i) ∧ (J.row i).length = (U.row i).length ∧ (H.row i).length = (U.row i).length) →
    ∃ J', matVecLoop H alpha U beta k n J = some J' ∧ J'.beg = J.beg ∧ J'.stop = J.stop ∧
      (∀ i, ¬ (k ≤ i ∧ i < k + n) → J'.row i = J.row i) ∧
      ∀ i, k ≤ i → i < k + n → Distinct (J'.row i) ∧
        ∀ v, dot (J'.row i) v = beta * dot (J.row i) v + alpha * once (H.row i) (getSafe (U.row i)) v := by
  induction n with
  | zero => exact fun k J _ => ⟨J, rfl, rfl, rfl, fun _ _ => rfl, fun i h1 h2 => by omega⟩
  | succ n ih =>
    intro k J h
    obtain ⟨a1, a2, a3, a4, a5⟩ := h k (le_refl k) (by omega)
    obtain ⟨j', g1, g2, g3⟩ := rowVec_spec (H.row k) alpha (U.row k) beta (J.row k) a3 a4 a5
    obtain ⟨J', e1, e2, e3, e4, e5⟩ := ih (k + 1) { J with row := fun i => if i = k then j' else J.row i } (by
      intro i hi1 hi2
      obtain ⟨b1, b2, b3, b4, b5⟩ := h i (by omega) (by omega)
      have : i ≠ k := by omega
      simp only [this, if_false]
      exact ⟨b1, b2, b3, b4, b5⟩)
    refine ⟨J', ?_, e2, e3, fun i hi => ?_, fun i hi1 hi2 => ?_⟩
    · rw [matVecLoop, IMat.get, if_pos a1, IMat.get, if_pos a2]
      simp only [g1]
      exact e1
    · rw [e4 i (by omega)]
      have : i ≠ k := by rintro rfl; exact hi ⟨le_refl _, by omega⟩
      simp only [this, if_false]
    · by_cases hik : i = k
      · subst hik
        rw [e4 i (by omega)]
        simp only [if_true]
        exact ⟨g2, g3⟩
      · have := e5 i (by omega) (by omega)
        simp only [hik, if_false] at this
        exact this

/-- **C110, matrices.**  Under the same conditions on all rows `MatVec` gives `J := beta J + alpha H U` in every row of the
Hessian and leaves the other rows of `J`. -/
theorem C110_matVec_partial (H : IMat HRow) (alpha : ℝ) (U : IMat (Row ℝ)) (beta : ℝ) (J : IMat (Row ℝ))
    (hJ : J.beg ≠ J.stop) (h : ∀ i, H.beg ≤ i → i < H.stop → (U.beg ≤ i ∧ i < U.stop) ∧ (J.beg ≤ i ∧ i < J.stop) ∧
      Distinct (J.row i) ∧ (J.row i).length = (U.row i).length ∧ (H.row i).length = (U.row i).length ∧
      ∀ e ∈ H.row i, (ofLex e.1).1 = (ofLex e.1).2) :
    ∃ J', matVec H alpha U beta J = some J' ∧ J'.beg = J.beg ∧ J'.stop = J.stop ∧
      (∀ i, ¬ (H.beg ≤ i ∧ i < H.stop) → J'.row i = J.row i) ∧
      ∀ i, H.beg ≤ i → i < H.stop → Distinct (J'.row i) ∧
        ∀ v, dot (J'.row i) v = beta * dot (J.row i) v + alpha * polar (H.row i) (getSafe (U.row i)) v := by
  unfold matVec start
  rw [if_neg hJ]
  obtain ⟨J', g1, g2, g3, g4, g5⟩ := matVecLoop_spec H alpha U beta (H.stop - H.beg) H.beg J (fun i h1 h2 => by
    obtain ⟨a1, a2, a3, a4, a5, _⟩ := h i h1 (by omega)
    exact ⟨a1, a2, a3, a4, a5⟩)
  refine ⟨J', g1, g2, g3, fun i hi => g4 i (by omega), fun i h1 h2 => ?_⟩
  obtain ⟨b1, b2⟩ := g5 i h1 (by omega)
  exact ⟨b1, fun v => by rw [b2, once_diag _ (h i h1 h2).2.2.2.2.2]⟩

/-- The function `x y` has the second derivatives `[((0,1), 2)]`: an entry off the diagonal is twice the mixed
derivative. -/
theorem second_xy (x : Nat → ℝ) : Second (fun y => y 0 * y 1) x [(0, x 1), (1, x 0)] [(mkIdx 0 1, 2)] := by
  intro v
  refine ⟨fun t => v 0 * (x 1 + t * v 1) + (x 0 + t * v 0) * v 1, Filter.Eventually.of_forall fun t => ?_, ?_, ?_⟩
  · have a : ∀ i, HasDerivAt (fun t => line x v t i) (v i) t := fun i => by
      unfold line
      have := ((hasDerivAt_id t).mul_const (v i)).const_add (x i)
      simpa using this
    exact (a 0).mul (a 1)
  · simp [dot]; ring
  · have a : ∀ i, HasDerivAt (fun t : ℝ => x i + t * v i) (v i) 0 := fun i => by
      have := ((hasDerivAt_id (0 : ℝ)).mul_const (v i)).const_add (x i)
      simpa using this
    have := ((a 1).const_mul (v 0)).add ((a 0).mul_const (v 1))
    refine this.congr_deriv ?_
    simp [quad, mkIdx]
    ring

/-- Mixed derivatives are counted twice: the product of the second derivative of `x y` with the vector `(1, 0)` is `(0, 1)`, and
`RowVec` gives `(0, 2)`. -/
theorem C110_mixed_fails (x v : Nat → ℝ) :
    Second (fun y => y 0 * y 1) x [(0, x 1), (1, x 0)] [(mkIdx 0 1, 2)] ∧
    ∃ J', hessRowVec [(mkIdx 0 1, 2)] 1 [(0, 1)] 0 [(1, 0)] = some J' ∧ dot J' v = 2 * v 1 ∧
      polar [(mkIdx 0 1, 2)] (getSafe [(0, 1)]) v = v 1 := by
  refine ⟨second_xy x, _, rfl, ?_, ?_⟩
  · simp [addEntry, mkIdx, access, getSafe, dot]
  · simp [polar, quad, mkIdx, getSafe]
    ring

/-- Off the diagonal every product is twice what it should be. -/
theorem C110_double_fails (H : HRow) (hH : ∀ h ∈ H, (ofLex h.1).1 ≠ (ofLex h.1).2) (alpha : ℝ) (U : Row ℝ) (beta : ℝ)
    (J : Row ℝ) (hd : Distinct J) (h1 : J.length = U.length) (h2 : H.length = U.length) :
    ∃ J', hessRowVec H alpha U beta J = some J' ∧
      ∀ v, dot J' v = beta * dot J v + alpha * (2 * polar H (getSafe U) v) := by
  obtain ⟨J', g1, _, g3⟩ := rowVec_spec H alpha U beta J hd h1 h2
  exact ⟨J', g1, fun v => by rw [g3, once_double H hH]⟩

/-- The number of entries of the row of `U` bounds the loop over the entries of the Hessian: with fewer of them the rest of
the Hessian is ignored. -/
theorem C110_count_fails :
    ∃ J', hessRowVec [(mkIdx 0 0, 1), (mkIdx 1 1, 1)] 1 [(1, 1)] 1 [(0, 0), (1, 0)] = some J' ∧ getSafe J' 1 = 0 ∧
      polar [(mkIdx 0 0, 1), (mkIdx 1 1, 1)] (getSafe [(1, 1)]) (fun i => if i = 1 then 1 else 0) = 1 := by
  refine ⟨_, rfl, ?_, ?_⟩
  · simp [addEntry, mkIdx, access, getSafe]
  · simp [polar, quad, mkIdx, getSafe]
    norm_num

/-- With fewer entries in the row of the Hessian or in the row of `J` than in the row of `U` an assertion fails. -/
theorem C110_short_fails (H : HRow) (alpha : ℝ) (U : Row ℝ) (beta : ℝ) (J : Row ℝ)
    (h : J.length < U.length ∨ H.length < U.length) : hessRowVec H alpha U beta J = none := by
  unfold hessRowVec
  by_cases hJ : J.length < U.length
  · rw [scaleFirst_short _ _ _ hJ]; rfl
  · cases hs : scaleFirst beta U.length J with
    | none => rfl
    | some r => rw [Option.bind_some, addLoop_short _ _ _ _ _ (h.resolve_left hJ)]

/-- The result of `MatVec` into an empty matrix, which it gives an interval of empty rows, fails as soon as the first row of
`U` has an entry. -/
theorem C110_empty_fails (H : IMat HRow) (hH : H.beg < H.stop) (alpha : ℝ) (U : IMat (Row ℝ)) (beta : ℝ)
    (J : IMat (Row ℝ)) (hJ : J.beg = J.stop) (hU : U.row H.beg ≠ []) : matVec H alpha U beta J = none := by
  unfold matVec start
  rw [if_pos hJ]
  obtain ⟨n, hn⟩ : ∃ n, H.stop - H.beg = n + 1 := ⟨H.stop - H.beg - 1, by omega⟩
  rw [hn, matVecLoop]
  have hl : 0 < (U.row H.beg).length := List.length_pos_iff.2 hU
  by_cases hu : U.beg ≤ H.beg ∧ H.beg < U.stop
  · rw [IMat.get, if_pos hu, IMat.get, if_pos (show H.beg ≤ H.beg ∧ H.beg < H.stop from ⟨le_refl _, hH⟩)]
    simp only
    rw [C110_short_fails _ _ _ _ _ (Or.inl (by simpa using hl))]
  · rw [IMat.get, if_neg hu]

/-! ### The hypotheses are met -/

example : ∃ J', matVec ⟨0, 1, fun _ => [(mkIdx 0 0, 3), (mkIdx 2 2, 5)]⟩ 2 ⟨0, 1, fun _ => [(0, 1), (2, 7)]⟩ 1
    ⟨0, 1, fun _ => [(0, 1), (1, 1)]⟩ = some J' ∧ ∀ v, dot (J'.row 0) v = 7 * v 0 + v 1 + 70 * v 2 := by
  obtain ⟨J', h1, -, -, -, h5⟩ := C110_matVec_partial ⟨0, 1, fun _ => [(mkIdx 0 0, 3), (mkIdx 2 2, 5)]⟩ 2
    ⟨0, 1, fun _ => [(0, 1), (2, 7)]⟩ 1 ⟨0, 1, fun _ => [(0, 1), (1, 1)]⟩ (by simp)
    (fun i _ hi => ⟨⟨by omega, hi⟩, ⟨by omega, hi⟩, by simp [Distinct], rfl, rfl, by simp [mkIdx]⟩)
  refine ⟨J', h1, fun v => ?_⟩
  rw [(h5 0 (by decide) (by decide)).2]
  simp [dot, polar, quad, mkIdx, getSafe]
  ring

end Verif.Residual
