import Verif.Dense.DetModel
import Mathlib.LinearAlgebra.Matrix.Determinant.Basic
import Mathlib.Tactic.FieldSimp
import Mathlib.Tactic.Ring

/-! # Lemmas about `Det` -/

namespace Verif.Dense.Det

variable {K : Type} [Field K] [LinearOrder K]

/-! ## Runs with other tests -/

theorem search_tested {small : K → Bool} {d : Nat} {s : St K} (fuel : Nat) : ∀ r sign t, t ⊆ (search small d s fuel r sign t).2.2 := by
  induction fuel with
  | zero => intro r sign t; exact List.Subset.refl _
  | succ fuel ih =>
    intro r sign t
    rw [search]
    split
    · exact ih _ _ _
    · split
      · exact List.Subset.trans (List.subset_cons_self _ _) (ih _ _ _)
      · exact List.subset_cons_self _ _

theorem search_congr {small small' : K → Bool} {d : Nat} {s : St K} (fuel : Nat) : ∀ r sign t,
    (∀ x ∈ (search small d s fuel r sign t).2.2, small' x = small x) → search small' d s fuel r sign t = search small d s fuel r sign t := by
  induction fuel with
  | zero => intro r sign t _; rfl
  | succ fuel ih =>
    intro r sign t h
    rw [search] at h ⊢
    rw [search]
    by_cases hv : s.visited r = true
    · simp only [hv, if_true] at h ⊢
      exact ih _ _ _ h
    · simp only [hv, if_false, Bool.false_eq_true] at h ⊢
      by_cases hs : small (s.A r d) = true
      · simp only [hs, if_true] at h ⊢
        have : small' (s.A r d) = true := (h _ (search_tested fuel _ _ _ List.mem_cons_self)).trans hs
        simp only [this, if_true]
        exact ih _ _ _ h
      · simp only [hs, if_false, Bool.false_eq_true] at h ⊢
        have : ¬ small' (s.A r d) = true := fun hc => hs ((h _ List.mem_cons_self).symm.trans hc)
        simp only [this, if_false, Bool.false_eq_true]

/-- One step of the elimination. -/
def elimStep (big : K → Bool) (n d r i : Nat) (s : St K) : St K :=
  if s.visited i then s
  else
    let coef := s.A i d / s.A r d
    let s := { s with tested := coef :: s.tested }
    if big coef then { s with A := forRange 0 n (fun j A => upd A i j (A i j - coef * A r j)) s.A } else s

theorem eliminate_eq (big : K → Bool) (n d r : Nat) (s : St K) : eliminate big n d r s = forUp (elimStep big n d r) 0 n s := rfl

theorem elimStep_tested (big : K → Bool) (n d r i : Nat) (s : St K) : s.tested ⊆ (elimStep big n d r i s).tested := by
  unfold elimStep
  split
  · exact List.Subset.refl _
  · simp only []
    split <;> exact List.subset_cons_self _ _

theorem forUp_tested (big : K → Bool) (n d r : Nat) (k : Nat) : ∀ i (s : St K), s.tested ⊆ (forUp (elimStep big n d r) i k s).tested := by
  induction k with
  | zero => intro i s; exact List.Subset.refl _
  | succ k ih => intro i s; exact List.Subset.trans (elimStep_tested big n d r i s) (ih _ _)

theorem elimStep_congr {big big' : K → Bool} {n d r i : Nat} {s : St K} (h : ∀ x ∈ (elimStep big n d r i s).tested, big' x = big x) :
    elimStep big' n d r i s = elimStep big n d r i s := by
  unfold elimStep at h ⊢
  by_cases hv : s.visited i = true
  · simp only [hv, if_true]
  · simp only [hv, if_false, Bool.false_eq_true] at h ⊢
    have : big' (s.A i d / s.A r d) = big (s.A i d / s.A r d) := by
      apply h
      split <;> exact List.mem_cons_self
    rw [this]

theorem forUp_congr {big big' : K → Bool} {n d r : Nat} (k : Nat) : ∀ i (s : St K),
    (∀ x ∈ (forUp (elimStep big n d r) i k s).tested, big' x = big x) →
    forUp (elimStep big' n d r) i k s = forUp (elimStep big n d r) i k s := by
  induction k with
  | zero => intro i s _; rfl
  | succ k ih =>
    intro i s h
    rw [forUp] at h ⊢
    rw [forUp, elimStep_congr (fun x hx => h x (forUp_tested _ _ _ _ k _ _ hx))]
    exact ih _ _ h

/-- The state after the search. -/
def chosen (d : Nat) (s : St K) (r : Nat) (sign : K) (t : List K) : St K :=
  { s with visited := updV s.visited r true, ret := s.ret * (sign * s.A r d), tested := t }

theorem run_none {small big : K → Bool} {n k d : Nat} {s : St K} {sign t} (h : search small d s n 0 1 s.tested = (none, sign, t)) :
    run small big n (k + 1) d s = (0, t) := by
  rw [run, h]

theorem run_some {small big : K → Bool} {n k d : Nat} {s : St K} {r sign t} (h : search small d s n 0 1 s.tested = (some r, sign, t)) :
    run small big n (k + 1) d s = run small big n k (d + 1) (eliminate big n d r (chosen d s r sign t)) := by
  rw [run, h]
  rfl

theorem run_tested {small big : K → Bool} {n : Nat} (k : Nat) : ∀ d (s : St K), s.tested ⊆ (run small big n k d s).2 := by
  induction k with
  | zero => intro d s; exact List.Subset.refl _
  | succ k ih =>
    intro d s
    have ht := search_tested (small := small) (d := d) (s := s) n 0 1 s.tested
    rcases hs : search small d s n 0 1 s.tested with ⟨_ | r, sign, t⟩
    · rw [run_none hs]
      rw [hs] at ht
      exact ht
    · rw [run_some hs]
      rw [hs] at ht
      exact List.Subset.trans ht (List.Subset.trans (forUp_tested big n d r n 0 (chosen d s r sign t)) (ih _ _))

/-- Tests that agree on the tested numbers give the same run. -/
theorem run_congr {small big small' big' : K → Bool} {n : Nat} (k : Nat) : ∀ d (s : St K),
    (∀ x ∈ (run small big n k d s).2, small' x = small x ∧ big' x = big x) → run small' big' n k d s = run small big n k d s := by
  induction k with
  | zero => intro d s _; rfl
  | succ k ih =>
    intro d s h
    have hc := search_congr (small := small) (small' := small') (d := d) (s := s) n 0 1 s.tested
    rcases hs : search small d s n 0 1 s.tested with ⟨_ | r, sign, t⟩
    · rw [run_none hs] at h ⊢
      rw [hs] at hc
      exact run_none (hc fun x hx => (h x hx).1)
    · rw [run_some hs] at h ⊢
      rw [hs] at hc
      have ht := run_tested (small := small) (big := big) (n := n) k (d + 1) (eliminate big n d r (chosen d s r sign t))
      have hf := forUp_tested big n d r n 0 (chosen d s r sign t)
      rw [run_some (hc fun x hx => (h x (ht (hf hx))).1)]
      have he : eliminate big' n d r (chosen d s r sign t) = eliminate big n d r (chosen d s r sign t) :=
        forUp_congr n 0 _ (fun x hx => (h x (ht hx)).2)
      rw [he]
      exact ih _ _ h

/-! ## Runs with exact tests -/

/-- The search finds the first unvisited row that is not small; the sign counts the unvisited rows before it. -/
theorem search_spec {small : K → Bool} {d : Nat} {s : St K} (fuel : Nat) : ∀ r sign t,
    match search small d s fuel r sign t with
    | (none, _, _) => ∀ i, r ≤ i → i < r + fuel → s.visited i = false → small (s.A i d) = true
    | (some p, sg, _) => r ≤ p ∧ p < r + fuel ∧ s.visited p = false ∧ small (s.A p d) = false ∧
      (∀ i, r ≤ i → i < p → s.visited i = false → small (s.A i d) = true) ∧
      sg = sign * (-1) ^ ((Finset.Ico r p).filter fun i => s.visited i = false).card := by
  induction fuel with
  | zero => intro r sign t i h1 h2; omega
  | succ fuel ih =>
    intro r sign t
    rw [search]
    by_cases hv : s.visited r = true
    · simp only [hv, if_true]
      have := ih (r + 1) sign t
      rcases hs : search small d s fuel (r + 1) sign t with ⟨_ | p, sg, t'⟩
      · rw [hs] at this
        intro i h1 h2 h3
        rcases Nat.eq_or_lt_of_le h1 with rfl | h1
        · rw [hv] at h3; cases h3
        · exact this i h1 (by omega) h3
      · rw [hs] at this
        obtain ⟨a1, a2, a3, a4, a5, a6⟩ := this
        refine ⟨by omega, by omega, a3, a4, fun i h1 h2 h3 => ?_, ?_⟩
        · rcases Nat.eq_or_lt_of_le h1 with rfl | h1
          · rw [hv] at h3; cases h3
          · exact a5 i h1 h2 h3
        · rw [a6, ← Finset.insert_Ico_add_one_left_eq_Ico (show r < p by omega), Finset.filter_insert, if_neg (by rw [hv]; decide)]
    · have hv' : s.visited r = false := by simpa using hv
      simp only [hv, if_false, Bool.false_eq_true]
      by_cases hsm : small (s.A r d) = true
      · simp only [hsm, if_true]
        have := ih (r + 1) (sign * -1) (s.A r d :: t)
        rcases hs : search small d s fuel (r + 1) (sign * -1) (s.A r d :: t) with ⟨_ | p, sg, t'⟩
        · rw [hs] at this
          intro i h1 h2 h3
          rcases Nat.eq_or_lt_of_le h1 with rfl | h1
          · exact hsm
          · exact this i h1 (by omega) h3
        · rw [hs] at this
          obtain ⟨a1, a2, a3, a4, a5, a6⟩ := this
          refine ⟨by omega, by omega, a3, a4, fun i h1 h2 h3 => ?_, ?_⟩
          · rcases Nat.eq_or_lt_of_le h1 with rfl | h1
            · exact hsm
            · exact a5 i h1 h2 h3
          · rw [a6, ← Finset.insert_Ico_add_one_left_eq_Ico (show r < p by omega), Finset.filter_insert, if_pos hv',
              Finset.card_insert_of_notMem (by simp), pow_succ]
            ring
      · simp only [hsm, if_false, Bool.false_eq_true]
        exact ⟨le_refl _, by omega, hv', by simpa using hsm, fun i h1 h2 => by omega, by simp⟩

/-- The inner loop of the elimination. -/
theorem row_spec (n i r : Nat) (c : K) (hir : i ≠ r) (A : Nat → Nat → K) :
    forRange 0 n (fun j A => upd A i j (A i j - c * A r j)) A = fun a b => if a = i ∧ b < n then A a b - c * A r b else A a b := by
  refine forRange_rule (fun m B => B = fun a b => if a = i ∧ b < m then A a b - c * A r b else A a b) 0 n (Nat.zero_le _) _ _ ?_ ?_
  · funext a b; simp
  · intro j B _ _ hB
    subst hB
    funext a b
    simp only [upd]
    by_cases ha : a = i
    · by_cases hb : b = j
      · subst ha hb
        simp [Ne.symm hir]
      · have : b < j + 1 ↔ b < j := by omega
        simp [ha, hb, this]
    · simp [ha]

/-- The elimination with an exact test. -/
theorem eliminate_spec {n d r : Nat} {s : St K} (hr : s.visited r = true) :
    (eliminate (fun x => decide (x ≠ 0)) n d r s).visited = s.visited ∧ (eliminate (fun x => decide (x ≠ 0)) n d r s).ret = s.ret ∧
    ∀ i j, (eliminate (fun x => decide (x ≠ 0)) n d r s).A i j =
      if s.visited i = false ∧ i < n ∧ j < n then s.A i j - s.A i d / s.A r d * s.A r j else s.A i j := by
  have key := forRange_rule (fun m (B : St K) => B.visited = s.visited ∧ B.ret = s.ret ∧ ∀ i j, B.A i j =
    if s.visited i = false ∧ i < m ∧ j < n then s.A i j - s.A i d / s.A r d * s.A r j else s.A i j) 0 n (Nat.zero_le _)
    (elimStep (fun x => decide (x ≠ 0)) n d r) s ?_ ?_
  · exact key
  · simp
  · rintro m B _ _ ⟨h1, h2, h3⟩
    unfold elimStep
    by_cases hv : B.visited m = true
    · simp only [hv, if_true]
      refine ⟨h1, h2, fun i j => ?_⟩
      rw [h3]
      by_cases hi : i = m
      · subst hi
        rw [h1] at hv
        simp [hv]
      · have : i < m + 1 ↔ i < m := by omega
        simp [this]
    · simp only [hv, if_false, Bool.false_eq_true]
      have hvm : s.visited m = false := by rw [← h1]; simpa using hv
      have hmr : m ≠ r := by rintro rfl; rw [hr] at hvm; cases hvm
      have e1 : ∀ j, B.A m j = s.A m j := fun j => by rw [h3]; simp
      have e2 : ∀ j, B.A r j = s.A r j := fun j => by rw [h3]; simp [hr]
      have e3 : ∀ i j, i ≠ m → B.A i j = if s.visited i = false ∧ i < m + 1 ∧ j < n then s.A i j - s.A i d / s.A r d * s.A r j else s.A i j := by
        intro i j hi
        have : i < m + 1 ↔ i < m := by omega
        rw [h3]
        simp only [this]
      by_cases hc : B.A m d / B.A r d ≠ 0
      · rw [if_pos (by simpa using hc)]
        refine ⟨h1, h2, fun i j => ?_⟩
        rw [row_spec n m r _ hmr]
        by_cases hi : i = m
        · subst hi
          simp only [true_and, hvm, Nat.lt_succ_self, e1, e2]
        · exact (if_neg (fun h => hi h.1)).trans (e3 i j hi)
      · rw [if_neg (by simpa using hc)]
        refine ⟨h1, h2, fun i j => ?_⟩
        by_cases hi : i = m
        · subst hi
          rw [e1, e2] at hc
          push Not at hc
          rw [e1, hc]
          simp
        · exact e3 i j hi

/-- The matrix of chosen rows and the columns from `d` on. -/
def part {k : Nat} (A : Nat → Nat → K) (f : Fin k → Nat) (d : Nat) : Matrix (Fin k) (Fin k) K := Matrix.of fun i j => A (f i) (d + j)

theorem card_before {k : Nat} {f : Fin k → Nat} (hf : StrictMono f) {v : Nat → Bool} (n : Nat) (hfn : ∀ i, f i < n)
    (h : ∀ r, r < n → (v r = false ↔ ∃ i, f i = r)) (p : Fin k) : ((Finset.Ico 0 (f p)).filter fun i => v i = false).card = p := by
  have : ((Finset.Ico 0 (f p)).filter fun i => v i = false) = (Finset.Iio p).map ⟨f, hf.injective⟩ := by
    ext r
    simp only [Finset.mem_filter, Finset.mem_Ico, Finset.mem_map, Finset.mem_Iio, Function.Embedding.coeFn_mk]
    constructor
    · rintro ⟨⟨_, h1⟩, h2⟩
      obtain ⟨i, rfl⟩ := (h r (by have := hfn p; omega)).1 h2
      exact ⟨i, hf.lt_iff_lt.1 h1, rfl⟩
    · rintro ⟨i, h1, rfl⟩
      exact ⟨⟨Nat.zero_le _, hf.lt_iff_lt.2 h1⟩, (h _ (hfn i)).2 ⟨i, rfl⟩⟩
  rw [this, Finset.card_map]
  simp

/-- With exact tests the loop multiplies by the determinant of the unvisited rows and the columns left. -/
theorem run_spec {n : Nat} (k : Nat) : ∀ d (s : St K) (f : Fin k → Nat), d + k = n → StrictMono f → (∀ i, f i < n) →
    (∀ r, r < n → (s.visited r = false ↔ ∃ i, f i = r)) →
    (run (fun x => decide (x = 0)) (fun x => decide (x ≠ 0)) n k d s).1 = s.ret * (part s.A f d).det := by
  induction k with
  | zero => intro d s f _ _ _ _; rw [run]; simp
  | succ k ih =>
    intro d s f hd hf hfn hv
    have hs := search_spec (small := fun x : K => decide (x = 0)) (d := d) (s := s) n 0 1 s.tested
    rcases he : search (fun x : K => decide (x = 0)) d s n 0 1 s.tested with ⟨_ | r, sign, t⟩
    · rw [he] at hs
      rw [run_none he]
      have : (part s.A f d).det = 0 := Matrix.det_eq_zero_of_column_eq_zero 0 fun i => by
        have := hs (f i) (Nat.zero_le _) (by have := hfn i; omega) ((hv _ (hfn i)).2 ⟨i, rfl⟩)
        simpa [part] using this
      rw [this, mul_zero]
    · rw [he] at hs
      obtain ⟨_, hrn, hrv, hr0, _, hsg⟩ := hs
      rw [run_some he]
      obtain ⟨p, rfl⟩ := (hv r (by omega)).1 hrv
      rw [card_before hf n hfn hv p, one_mul] at hsg
      have hp0 : s.A (f p) d ≠ 0 := by simpa using hr0
      have hcv : (chosen d s (f p) sign t).visited (f p) = true := by simp [chosen, updV]
      obtain ⟨e1, e2, e3⟩ := eliminate_spec (n := n) (d := d) (s := chosen d s (f p) sign t) hcv
      rw [ih (d + 1) _ (f ∘ p.succAbove) (by omega) (hf.comp (Fin.strictMono_succAbove p)) (fun i => hfn _), e2]
      · set E := eliminate (fun x => decide (x ≠ 0)) n d (f p) (chosen d s (f p) sign t) with hE
        have hrow : ∀ i : Fin (k + 1), ∀ j : Nat, j < n → E.A (f i) j = s.A (f i) j + (if i = p then 0 else -(s.A (f i) d / s.A (f p) d)) * s.A (f p) j := by
          intro i j hj
          rw [e3]
          by_cases hi : i = p
          · subst hi
            rw [if_neg (by rw [hcv]; simp)]
            simp [chosen]
          · have hne : f i ≠ f p := fun h => hi (hf.injective h)
            have hvi : (chosen d s (f p) sign t).visited (f i) = false := by
              simp only [chosen, updV, hne, if_false]
              exact (hv _ (hfn i)).2 ⟨i, rfl⟩
            rw [if_pos ⟨hvi, hfn i, hj⟩, if_neg hi]
            simp only [chosen]
            ring
        have hdet : (part E.A f d).det = (part s.A f d).det := by
          refine Matrix.det_eq_of_forall_row_eq_smul_add_const (fun i => if i = p then 0 else -(s.A (f i) d / s.A (f p) d)) p (if_pos rfl) ?_
          intro i j
          simp only [part, Matrix.of_apply]
          exact hrow i _ (by have := j.isLt; omega)
        rw [← hdet, Matrix.det_succ_column_zero, Finset.sum_eq_single p]
        · have : (part E.A f d) p 0 = s.A (f p) d := by
            simp only [part, Matrix.of_apply, Fin.val_zero, Nat.add_zero]
            rw [hrow p d (by omega), if_pos rfl]
            ring
          rw [this]
          have h2 : (part E.A f d).submatrix p.succAbove Fin.succ = part E.A (f ∘ p.succAbove) (d + 1) := by
            ext i j
            simp only [part, Matrix.submatrix_apply, Matrix.of_apply, Function.comp, Fin.val_succ]
            congr 1
            omega
          rw [h2]
          simp only [chosen, hsg]
          ring
        · intro i _ hi
          have : (part E.A f d) i 0 = 0 := by
            simp only [part, Matrix.of_apply, Fin.val_zero, Nat.add_zero]
            rw [hrow i d (by omega), if_neg hi]
            field_simp
            ring
          rw [this]
          ring
        · intro h; exact absurd (Finset.mem_univ _) h
      · intro r hr
        rw [e1]
        simp only [chosen, updV]
        by_cases h : r = f p
        · subst h
          simp only [if_true, Bool.true_eq_false, false_iff, Function.comp]
          rintro ⟨i, hi⟩
          exact Fin.succAbove_ne p i (hf.injective hi)
        · simp only [h, if_false, Function.comp]
          rw [hv r hr]
          constructor
          · rintro ⟨i, rfl⟩
            obtain ⟨q, rfl⟩ := Fin.exists_succAbove_eq (x := i) (y := p) (fun h' => h (by rw [h']))
            exact ⟨q, rfl⟩
          · rintro ⟨i, hi⟩
            exact ⟨_, hi⟩

/-- With exact tests the result is the determinant. -/
theorem exact_spec (n : Nat) (A : Nat → Nat → K) :
    (run (fun x => decide (x = 0)) (fun x => decide (x ≠ 0)) n n 0 (start A)).1 = (Matrix.of fun i j : Fin n => A i j).det := by
  rw [run_spec n 0 (start A) (fun i => i) (by omega) (fun _ _ h => h) (fun i => i.isLt)
    (fun r hr => ⟨fun _ => ⟨⟨r, hr⟩, rfl⟩, fun _ => rfl⟩)]
  simp [start, part]

end Verif.Dense.Det
