import Verif.ILU2.Model
import Mathlib.Tactic.Ring
import Mathlib.Tactic.FieldSimp
import Mathlib.Tactic.Linarith
import Mathlib.Tactic.Positivity
import Mathlib.Algebra.BigOperators.Group.List.Basic
import Mathlib.Algebra.Order.BigOperators.Group.List

/-!
# Lemmas about the ILU2 preconditioner
-/

namespace Verif.ILU2

open Verif.Dense

/-- The product of a sparse row with a vector. -/
noncomputable def dotl (row : SRow) (x : Nat → ℝ) : ℝ := (row.map fun e => e.2 * x e.1).sum

@[simp] theorem dotl_nil (x : Nat → ℝ) : dotl [] x = 0 := rfl

@[simp] theorem dotl_cons (e : Nat × ℝ) (l : SRow) (x : Nat → ℝ) : dotl (e :: l) x = e.2 * x e.1 + dotl l x := by simp [dotl]

theorem dotl_add (c : Nat) (v : ℝ) (l : SRow) (x : Nat → ℝ) : dotl (add c v l) x = dotl l x + v * x c := by
  induction l with
  | nil => simp [add]
  | cons e t ih =>
    obtain ⟨d, w⟩ := e
    unfold add
    split
    · rename_i h; subst h; simp; ring
    · split
      · simp; ring
      · simp [ih]; ring

theorem dotl_subRow (m : ℝ) (us : SRow) : ∀ (rest : SRow) (x : Nat → ℝ), dotl (subRow m us rest) x = dotl rest x - m * dotl us x := by
  induction us with
  | nil => intro rest x; simp [subRow]
  | cons e t ih =>
    intro rest x
    have : subRow m (e :: t) rest = subRow m t (add e.1 (-m * e.2) rest) := rfl
    rw [this, ih, dotl_add, dotl_cons]
    ring

theorem dotl_congr {l : SRow} {x y : Nat → ℝ} (h : ∀ e ∈ l, x e.1 = y e.1) : dotl l x = dotl l y := by
  induction l with
  | nil => rfl
  | cons e t ih =>
    rw [dotl_cons, dotl_cons, h e (List.mem_cons_self ..), ih (fun e he => h e (List.mem_cons_of_mem _ he))]

/-- Columns in strictly ascending order. -/
abbrev Asc (l : SRow) : Prop := l.Pairwise fun a b => a.1 < b.1

theorem mem_add {c : Nat} {v : ℝ} {l : SRow} {e : Nat × ℝ} (h : e ∈ add c v l) : e.1 = c ∨ ∃ w, (e.1, w) ∈ l := by
  induction l with
  | nil => simp only [add, List.mem_singleton] at h; subst h; exact .inl rfl
  | cons d t ih =>
    obtain ⟨d, w⟩ := d
    unfold add at h
    split at h
    · rename_i hd
      rcases List.mem_cons.mp h with rfl | h
      · exact .inl hd
      · exact .inr ⟨e.2, List.mem_cons_of_mem _ h⟩
    · split at h
      · rcases List.mem_cons.mp h with rfl | h
        · exact .inl rfl
        · exact .inr ⟨e.2, h⟩
      · rcases List.mem_cons.mp h with rfl | h
        · exact .inr ⟨w, List.mem_cons_self ..⟩
        · rcases ih h with h | ⟨w, h⟩
          · exact .inl h
          · exact .inr ⟨w, List.mem_cons_of_mem _ h⟩

theorem asc_add {c : Nat} {v : ℝ} {l : SRow} (h : Asc l) : Asc (add c v l) := by
  induction l with
  | nil => simp [add, Asc]
  | cons d t ih =>
    obtain ⟨d, w⟩ := d
    unfold add
    obtain ⟨h1, h2⟩ := List.pairwise_cons.mp h
    split
    · exact List.pairwise_cons.mpr ⟨h1, h2⟩
    · split
      · rename_i hlt
        refine List.pairwise_cons.mpr ⟨fun e he => ?_, h⟩
        rcases List.mem_cons.mp he with rfl | he
        · exact hlt
        · exact Nat.lt_trans hlt (h1 e he)
      · rename_i h3 h4
        refine List.pairwise_cons.mpr ⟨fun e he => ?_, ih h2⟩
        rcases mem_add he with he | ⟨w', he⟩
        · show d < e.1
          omega
        · exact h1 (e.1, w') he

theorem has_add_self (c : Nat) (v : ℝ) (l : SRow) : ∃ w, (c, w) ∈ add c v l := by
  induction l with
  | nil => exact ⟨v, List.mem_singleton.mpr rfl⟩
  | cons d t ih =>
    obtain ⟨d, w⟩ := d
    unfold add
    split
    · rename_i h; subst h; exact ⟨_, List.mem_cons_self ..⟩
    · split
      · exact ⟨v, List.mem_cons_self ..⟩
      · obtain ⟨w', h⟩ := ih
        exact ⟨w', List.mem_cons_of_mem _ h⟩

theorem has_add_of {c k : Nat} {v w : ℝ} {l : SRow} (h : (k, w) ∈ l) : ∃ w, (k, w) ∈ add c v l := by
  induction l with
  | nil => cases h
  | cons d t ih =>
    obtain ⟨d, z⟩ := d
    unfold add
    split
    · rcases List.mem_cons.mp h with h | h
      · cases h; exact ⟨_, List.mem_cons_self ..⟩
      · exact ⟨w, List.mem_cons_of_mem _ h⟩
    · split
      · exact ⟨w, List.mem_cons_of_mem _ h⟩
      · rcases List.mem_cons.mp h with h | h
        · cases h; exact ⟨_, List.mem_cons_self ..⟩
        · obtain ⟨w', h⟩ := ih h
          exact ⟨w', List.mem_cons_of_mem _ h⟩

/-- The state of the rest of a row during the elimination: ascending columns, all at least `lo`, with the diagonal entry. -/
structure RestOk (k lo : Nat) (rest : SRow) : Prop where
  asc : Asc rest
  ge : ∀ e ∈ rest, lo ≤ e.1
  diag : ∃ w, (k, w) ∈ rest

theorem RestOk.add {k lo : Nat} {rest : SRow} (h : RestOk k lo rest) {c : Nat} (hc : lo ≤ c) (v : ℝ) : RestOk k lo (add c v rest) where
  asc := asc_add h.asc
  ge := fun e he => by
    rcases mem_add he with he | ⟨w, he⟩
    · omega
    · exact h.ge (e.1, w) he
  diag := by
    obtain ⟨w, hw⟩ := h.diag
    exact has_add_of hw

theorem RestOk.subRow {k lo : Nat} (m : ℝ) (us : SRow) : ∀ {rest : SRow}, RestOk k lo rest → (∀ e ∈ us, lo ≤ e.1) → RestOk k lo (subRow m us rest) := by
  induction us with
  | nil => intro rest h _; exact h
  | cons e t ih =>
    intro rest h hu
    have : ILU2.subRow m (e :: t) rest = ILU2.subRow m t (ILU2.add e.1 (-m * e.2) rest) := rfl
    rw [this]
    exact ih (h.add (hu e (List.mem_cons_self ..)) _) (fun e he => hu e (List.mem_cons_of_mem _ he))

/-- The form of a row of the factors. -/
structure Good (k : Nat) (f : Fact) : Prop where
  l : ∀ e ∈ f.l, e.1 < k
  u : ∀ e ∈ f.u, k < e.1
  u2 : ∀ e ∈ f.u2, k < e.1
  ldiag : f.ldiag ≠ 0
  udiag : f.udiag ≠ 0

/-- The elimination ends at the diagonal entry. -/
theorem elim_shape (p : Par) (F : List Fact) (k : Nat) (hk : k ≤ F.length) (hF : ∀ j f, F[j]? = some f → Good j f) :
    ∀ (n lo : Nat) (done rest : SRow), k < n + lo → RestOk k lo rest →
    ∃ ms v tail, elim p F k n done rest = some (done ++ ms, (k, v) :: tail) ∧ (∀ e ∈ ms, e.1 < k) ∧ (∀ e ∈ tail, k < e.1) := by
  intro n
  induction n with
  | zero =>
    intro lo done rest hn hr
    obtain ⟨w, hw⟩ := hr.diag
    have := hr.ge _ hw
    simp only at this
    omega
  | succ n ih =>
    intro lo done rest hn hr
    cases rest with
    | nil => obtain ⟨w, hw⟩ := hr.diag; cases hw
    | cons e rest =>
      obtain ⟨j, v⟩ := e
      have hj : lo ≤ j := hr.ge _ (List.mem_cons_self ..)
      obtain ⟨h1, h2⟩ := List.pairwise_cons.mp hr.asc
      rw [elim]
      by_cases hjk : j < k
      · rw [if_pos hjk]
        obtain ⟨f, hf⟩ : ∃ f, F[j]? = some f := ⟨F[j], List.getElem?_eq_getElem (by omega)⟩
        have hg := hF j f hf
        rw [hf]
        simp only []
        have hr0 : RestOk k (j + 1) rest := by
          refine ⟨h2, fun e he => h1 e he, ?_⟩
          obtain ⟨w, hw⟩ := hr.diag
          rcases List.mem_cons.mp hw with hw | hw
          · cases hw; omega
          · exact ⟨w, hw⟩
        have hr1 : RestOk k (j + 1) (if |v * f.udiag| > p.tau2 then subRow (v * f.udiag) f.u rest else rest) := by
          split
          · exact hr0.subRow _ _ (fun e he => hg.u e he)
          · exact hr0
        have hr2 : RestOk k (j + 1) (if |v * f.udiag| > p.tau2 ∧ |v * f.udiag| > p.tau then
            subRow (v * f.udiag) f.u2 (if |v * f.udiag| > p.tau2 then subRow (v * f.udiag) f.u rest else rest)
            else (if |v * f.udiag| > p.tau2 then subRow (v * f.udiag) f.u rest else rest)) := by
          split
          · exact hr1.subRow _ _ (fun e he => hg.u2 e he)
          · exact hr1
        obtain ⟨ms, v', tail, he, hm, ht⟩ := ih (j + 1) (done ++ [(j, v * f.udiag)]) _ (by omega) hr2
        refine ⟨(j, v * f.udiag) :: ms, v', tail, ?_, ?_, ht⟩
        · rw [he]; simp
        · intro e he
          rcases List.mem_cons.mp he with rfl | he
          · exact hjk
          · exact hm e he
      · rw [if_neg hjk]
        have hk' : j = k := by
          obtain ⟨w, hw⟩ := hr.diag
          rcases List.mem_cons.mp hw with hw | hw
          · cases hw; rfl
          · have := h1 _ hw
            simp only at this
            omega
        subst hk'
        exact ⟨[], v, rest, by simp, by simp, fun e he => h1 e he⟩

/-- The value of a row of `U` at a vector. -/
noncomputable def uval (f : Fact) (k : Nat) (x : Nat → ℝ) : ℝ := x k / f.udiag + dotl f.u x

/-- The value of row `j` of `U` at a vector. -/
noncomputable def uAt (F : List Fact) (j : Nat) (x : Nat → ℝ) : ℝ :=
  match F[j]? with
  | none => 0
  | some f => uval f j x

/-- Without dropping the elimination subtracts multiples of rows of `U`. -/
theorem elim_exact (p : Par) (h0 : p.tau = 0) (h2 : p.tau2 = 0) (F : List Fact) (k : Nat) (hF : ∀ j f, F[j]? = some f → Good j f ∧ f.u2 = []) :
    ∀ (n : Nat) (done rest d r : SRow), elim p F k n done rest = some (d, r) →
    ∃ ms : SRow, d = done ++ ms ∧ ∀ x, dotl rest x = (ms.map fun e => e.2 * uAt F e.1 x).sum + dotl r x := by
  intro n
  induction n with
  | zero => intro done rest d r h; rw [elim] at h; cases h
  | succ n ih =>
    intro done rest d r h
    cases rest with
    | nil => rw [elim] at h; cases h
    | cons e rest =>
      obtain ⟨j, v⟩ := e
      rw [elim] at h
      by_cases hjk : j < k
      · rw [if_pos hjk] at h
        cases hf : F[j]? with
        | none => rw [hf] at h; cases h
        | some f =>
          rw [hf] at h
          simp only [] at h
          obtain ⟨hg, hu2⟩ := hF j f hf
          rw [hu2] at h
          obtain ⟨ms, hd, hx⟩ := ih _ _ _ _ h
          refine ⟨(j, v * f.udiag) :: ms, by rw [hd]; simp, fun x => ?_⟩
          have hr : ∀ (a : SRow), subRow (v * f.udiag) [] a = a := fun _ => rfl
          have hx := hx x
          rw [hr, ite_self] at hx
          have hu : uAt F j x = x j / f.udiag + dotl f.u x := by rw [uAt, hf]; rfl
          have hdot : dotl (if |v * f.udiag| > p.tau2 then subRow (v * f.udiag) f.u rest else rest) x = dotl rest x - v * f.udiag * dotl f.u x := by
            split
            · rw [dotl_subRow]
            · rename_i hneg
              rw [h2] at hneg
              have : v * f.udiag = 0 := by
                by_contra hne
                exact hneg (abs_pos.mpr hne)
              rw [this]
              ring
          rw [hdot] at hx
          simp only [List.map_cons, List.sum_cons, dotl_cons, hu]
          have hne := hg.udiag
          have : v * f.udiag * (x j / f.udiag + dotl f.u x) = v * x j + v * f.udiag * dotl f.u x := by
            field_simp
          rw [this]
          linarith
      · rw [if_neg hjk] at h
        obtain ⟨rfl, rfl⟩ := Prod.mk.inj (Option.some.inj h)
        exact ⟨[], by simp, fun x => by simp⟩

theorem dotl_filter_abs (l : SRow) (x : Nat → ℝ) (q : Nat × ℝ → Bool) (h : ∀ e ∈ l, q e = false → e.2 = 0) : dotl (l.filter q) x = dotl l x := by
  induction l with
  | nil => rfl
  | cons e t ih =>
    have ih := ih (fun e he => h e (List.mem_cons_of_mem _ he))
    cases hq : q e with
    | true => rw [List.filter_cons_of_pos hq, dotl_cons, dotl_cons, ih]
    | false => rw [List.filter_cons_of_neg (by simp [hq]), dotl_cons, ih, h e (List.mem_cons_self ..) hq]; ring

theorem dotl_perm {l m : SRow} (h : l.Perm m) (x : Nat → ℝ) : dotl l x = dotl m x := (h.map _).sum_eq

theorem dotl_map_mul (l : SRow) (c : ℝ) (x : Nat → ℝ) : dotl (l.map fun e => (e.1, e.2 * c)) x = c * dotl l x := by
  induction l with
  | nil => simp
  | cons e t ih => rw [List.map_cons, dotl_cons, dotl_cons, ih]; ring

/-- Entries of a row that are not used (L169) are zero. -/
def NotTiny (row : SRow) : Prop := ∀ e ∈ row, e.2 = 0 ∨ |e.2| > eps

theorem start_dotl {k : Nat} {row : SRow} (h : NotTiny row) (x : Nat → ℝ) : dotl (start k row) x = dotl row x := by
  classical
  unfold start
  rw [dotl_add, zero_mul, add_zero, dotl_perm (List.mergeSort_perm _ _)]
  apply dotl_filter_abs
  intro e he hq
  rcases h e he with h | h
  · exact h
  · simp [h] at hq

theorem start_ok {k : Nat} {row : SRow} (h : (row.map Prod.fst).Nodup) : RestOk k 0 (start k row) := by
  classical
  refine ⟨asc_add ?_, fun _ _ => Nat.zero_le _, has_add_self _ _ _⟩
  generalize hg : row.filter (fun e => decide (|e.2| > eps)) = g
  have hn : (g.map Prod.fst).Nodup := by
    rw [← hg]
    exact h.sublist ((List.filter_sublist).map _)
  have hs : (g.mergeSort fun a b => decide (a.1 ≤ b.1)).Pairwise fun a b => a.1 ≤ b.1 := by
    have := List.pairwise_mergeSort (le := fun a b : Nat × ℝ => decide (a.1 ≤ b.1)) (fun a b c h1 h2 => by simp at *; omega) (fun a b => by simp; omega) g
    exact this.imp (fun h => by simpa using h)
  have hn' : ((g.mergeSort fun a b => decide (a.1 ≤ b.1)).map Prod.fst).Nodup := ((List.mergeSort_perm g _).map _).nodup_iff.mpr hn
  have hp : (g.mergeSort fun a b => decide (a.1 ≤ b.1)).Pairwise fun a b => a.1 ≠ b.1 := List.pairwise_map.mp hn'
  exact (hs.and hp).imp (fun h => Nat.lt_of_le_of_ne h.1 h.2)

theorem maxAbs_le (l : SRow) : ∀ m : ℝ, m ≤ l.foldl (fun m e => max m |e.2|) m := by
  induction l with
  | nil => intro m; exact le_refl _
  | cons e t ih => intro m; exact le_trans (le_max_left _ _) (ih _)

theorem scaleOf_ne {p : Par} (h2 : 0 ≤ p.tau2) {l : SRow} {d : ℝ} (h : scaleOf p (maxAbs l) = some d) : d ≠ 0 := by
  have hm : 0 ≤ maxAbs l := maxAbs_le l 0
  unfold scaleOf at h
  split at h
  · obtain rfl := Option.some.inj h
    have : (0 : ℝ) < p.tau2 := by linarith
    positivity
  · split at h
    · cases h
    · rename_i hz
      obtain rfl := Option.some.inj h
      exact one_div_ne_zero hz

theorem compress_good {p : Par} (h2 : 0 ≤ p.tau2) {k : Nat} {done tail : SRow} {v : ℝ} {f : Fact} (hd : ∀ e ∈ done, e.1 < k) (ht : ∀ e ∈ tail, k < e.1)
    (h : compress p k done v tail = some f) : Good k f := by
  classical
  unfold compress at h
  split at h
  · cases h
  · rename_i d hs
    have hdn := scaleOf_ne h2 hs
    obtain rfl := Option.some.inj h
    refine ⟨?_, ?_, ?_, hdn, ?_⟩
    · intro e he
      exact hd e (List.mem_of_mem_filter he)
    · intro e he
      obtain ⟨e', he', rfl⟩ := List.mem_map.mp (List.mem_of_mem_filter he)
      exact ht e' he'
    · intro e he
      obtain ⟨e', he', rfl⟩ := List.mem_map.mp (List.mem_of_mem_filter he)
      exact ht e' he'
    · simp only []
      have ht : (0 : ℝ) < tolModif := by unfold tolModif; positivity
      split
      · rename_i hv
        refine one_div_ne_zero ?_
        intro h0
        rw [h0, abs_zero] at hv
        linarith
      · split
        · exact div_ne_zero (by norm_num) ht.ne'
        · exact div_ne_zero (by norm_num) ht.ne'

theorem compress_exact {p : Par} (h0 : p.tau = 0) (h2 : p.tau2 = 0) {k : Nat} {done tail : SRow} {v : ℝ} {f : Fact}
    (h : compress p k done v tail = some f) (hs : f.small = false) :
    f.u2 = [] ∧ (∀ g : Nat → ℝ, (f.l.map fun e => e.2 * g e.1).sum = (done.map fun e => e.2 * g e.1).sum)
    ∧ ∀ x, v * x k + dotl tail x = uval f k x / f.ldiag := by
  classical
  unfold compress at h
  split at h
  · cases h
  · rename_i d hsc
    have hdn := scaleOf_ne (by rw [h2]) hsc
    obtain rfl := Option.some.inj h
    have hzero : ∀ a : ℝ, decide (|a| > p.tau2 * p.tau2 ∧ |a| > p.tau) = false → a = 0 := by
      intro a ha
      rw [decide_eq_false_iff_not, h0, h2, mul_zero, and_self] at ha
      by_contra hne
      exact ha (abs_pos.mpr hne)
    refine ⟨?_, ?_, ?_⟩
    · rw [List.filter_eq_nil_iff]
      intro e _
      simp only [decide_eq_true_eq, not_and]
      intro h1 h3
      rw [h2, mul_zero] at h1
      rw [h0] at h3
      exact absurd h1 h3
    · intro g
      exact dotl_filter_abs done g _ (fun e _ he => hzero e.2 he)
    · intro x
      have hs : decide (¬ |v * d| > tolModif) = false := hs
      rw [decide_eq_false_iff_not, not_not] at hs
      have hv : v * d ≠ 0 := by
        intro hz
        rw [hz, abs_zero] at hs
        have : (0 : ℝ) < tolModif := by unfold tolModif; positivity
        linarith
      simp only [uval]
      rw [if_pos hs, dotl_filter_abs _ x _ (fun e _ he => hzero e.2 he), dotl_map_mul]
      have hv' : v ≠ 0 := left_ne_zero_of_mul hv
      field_simp

/-- The state of the factorization after some rows. -/
theorem factFrom_good {p : Par} (h2 : 0 ≤ p.tau2) : ∀ (rows : List SRow) (F F' : List Fact), (∀ row ∈ rows, (row.map Prod.fst).Nodup) →
    (∀ j f, F[j]? = some f → Good j f) → factFrom p F rows = some F' →
    (∀ j f, F'[j]? = some f → Good j f) ∧ F'.length = F.length + rows.length ∧ ∀ j, j < F.length → F'[j]? = F[j]? := by
  intro rows
  induction rows with
  | nil =>
    intro F F' _ hF h
    obtain rfl := Option.some.inj h
    exact ⟨hF, rfl, fun _ _ => rfl⟩
  | cons row rows ih =>
    intro F F' hr hF h
    rw [factFrom] at h
    split at h
    · cases h
    · rename_i f hf
      have hg : Good F.length f := by
        unfold factRow at hf
        obtain ⟨ms, v, tail, he, hm, ht⟩ := elim_shape p F F.length (le_refl _) hF (F.length + 1) 0 [] _ (by omega) (start_ok (k := F.length) (hr row (List.mem_cons_self ..)))
        rw [he] at hf
        exact compress_good h2 (by simpa using hm) ht hf
      obtain ⟨g1, g2, g3⟩ := ih (F ++ [f]) F' (fun row h => hr row (List.mem_cons_of_mem _ h)) (by
        intro j f' hj
        by_cases hlt : j < F.length
        · rw [List.getElem?_append_left hlt] at hj; exact hF j f' hj
        · rw [List.getElem?_append_right (by omega)] at hj
          by_cases he : j = F.length
          · subst he
            simp at hj
            subst hj
            exact hg
          · rw [List.getElem?_eq_none (by simp; omega)] at hj; cases hj) h
      refine ⟨g1, by rw [g2]; simp; omega, fun j hj => ?_⟩
      rw [g3 j (by simp; omega), List.getElem?_append_left hj]

theorem uAt_congr {F G : List Fact} {j : Nat} (h : F[j]? = G[j]?) (x : Nat → ℝ) : uAt F j x = uAt G j x := by rw [uAt, uAt, h]

/-- Without dropping each row of the matrix is the product of the factors. -/
theorem factFrom_exact {p : Par} (h0 : p.tau = 0) (h2 : p.tau2 = 0) : ∀ (rows : List SRow) (F F' : List Fact), (∀ row ∈ rows, (row.map Prod.fst).Nodup) →
    (∀ row ∈ rows, NotTiny row) → (∀ j f, F[j]? = some f → Good j f ∧ f.u2 = []) → factFrom p F rows = some F' → (∀ f ∈ F', f.small = false) →
    ∀ i row f, rows[i]? = some row → F'[F.length + i]? = some f → ∀ x, dotl row x = (f.l.map fun e => e.2 * uAt F' e.1 x).sum + uval f (F.length + i) x / f.ldiag := by
  intro rows
  induction rows with
  | nil => intro F F' _ _ _ _ _ i row f hi; cases hi
  | cons row rows ih =>
    intro F F' hr ht hF h hsm i row' f' hi hf' x
    have h' := h
    rw [factFrom] at h
    split at h
    · cases h
    · rename_i f hf
      have hnd := hr row (List.mem_cons_self ..)
      have hFg : ∀ j f, F[j]? = some f → Good j f := fun j f hj => (hF j f hj).1
      have hshape := elim_shape p F F.length (le_refl _) hFg (F.length + 1) 0 [] _ (by omega) (start_ok (k := F.length) hnd)
      obtain ⟨ms, v, tail, he, hm, htl⟩ := hshape
      rw [factRow, he] at hf
      have hf : compress p F.length ([] ++ ms) v tail = some f := hf
      have hg : Good F.length f := compress_good (by rw [h2]) (by simpa using hm) htl hf
      obtain ⟨_, hlen, hkeep⟩ := factFrom_good (by rw [h2]) rows (F ++ [f]) F' (fun row h => hr row (List.mem_cons_of_mem _ h)) (by
        intro j f' hj
        by_cases hlt : j < F.length
        · rw [List.getElem?_append_left hlt] at hj; exact hFg j f' hj
        · rw [List.getElem?_append_right (by omega)] at hj
          by_cases he : j = F.length
          · subst he
            simp at hj
            subst hj
            exact hg
          · rw [List.getElem?_eq_none (by simp; omega)] at hj; cases hj) h
      have hfF : F'[F.length]? = some f := by
        rw [hkeep F.length (by simp)]
        simp
      have hsf : f.small = false := hsm f (List.mem_of_getElem? hfF)
      obtain ⟨hu2, hl, hx⟩ := compress_exact h0 h2 hf hsf
      cases i with
      | zero =>
        obtain rfl : row = row' := by simpa using hi
        have hf' : F'[F.length]? = some f' := hf'
        rw [hfF] at hf'
        obtain rfl := Option.some.inj hf'
        obtain ⟨ms', hd, hdot⟩ := elim_exact p h0 h2 F F.length hF _ _ _ _ _ he
        have hms : ms' = ms := by simpa using hd.symm
        subst hms
        rw [← start_dotl (k := F.length) (ht row (List.mem_cons_self ..)) x, hdot x, dotl_cons, hx x]
        simp only [Nat.add_zero]
        have e1 := hl (fun j => uAt F' j x)
        simp only [List.nil_append] at e1
        rw [e1]
        congr 1
        refine congrArg List.sum (List.map_congr_left ?_)
        intro e he
        have hlt := hm e he
        rw [uAt_congr (G := F') (by rw [hkeep e.1 (by simp; omega), List.getElem?_append_left hlt])]
      | succ i =>
        have hi : rows[i]? = some row' := by simpa using hi
        have := ih (F ++ [f]) F' (fun row h => hr row (List.mem_cons_of_mem _ h)) (fun row h => ht row (List.mem_cons_of_mem _ h)) (by
          intro j f' hj
          by_cases hlt : j < F.length
          · rw [List.getElem?_append_left hlt] at hj; exact hF j f' hj
          · rw [List.getElem?_append_right (by omega)] at hj
            by_cases he : j = F.length
            · subst he
              simp at hj
              subst hj
              exact ⟨hg, hu2⟩
            · rw [List.getElem?_eq_none (by simp; omega)] at hj; cases hj) h hsm i row' f' hi
        have hidx : (F ++ [f]).length + i = F.length + (i + 1) := by simp; omega
        rw [hidx] at this
        exact this hf' x

/-! ### Solve -/

theorem foldl_row (k : Nat) : ∀ (l : SRow) (x : Nat → ℝ), (∀ e ∈ l, e.1 ≠ k) →
    l.foldl (fun x e => updV x k (x k - e.2 * x e.1)) x = updV x k (x k - dotl l x) := by
  intro l
  induction l with
  | nil =>
    intro x _
    funext r
    simp only [List.foldl_nil, updV, dotl_nil, sub_zero]
    split
    · rename_i h; rw [h]
    · rfl
  | cons e t ih =>
    intro x h
    rw [List.foldl_cons, ih _ (fun e he => h e (List.mem_cons_of_mem _ he))]
    have hd : dotl t (updV x k (x k - e.2 * x e.1)) = dotl t x :=
      dotl_congr (fun e' he' => if_neg (h e' (List.mem_cons_of_mem _ he')))
    rw [hd, dotl_cons]
    funext r
    simp only [updV, if_true]
    split
    · ring
    · rfl

/-- `L y = b` row by row. -/
def LowerOk (F : List Fact) (b y : Nat → ℝ) : Prop :=
  ∀ k f, F[k]? = some f → dotl f.l y + y k / f.ldiag = b k

/-- `U x = y` row by row. -/
def UpperOk (F : List Fact) (y x : Nat → ℝ) : Prop :=
  ∀ k f, F[k]? = some f → uval f k x = y k

theorem forward_ok (F : List Fact) (hF : ∀ j f, F[j]? = some f → Good j f) (b : Nat → ℝ) :
    LowerOk F b (forRange 0 F.length (forwardRow F) b) ∧ ∀ k, F.length ≤ k → forRange 0 F.length (forwardRow F) b k = b k := by
  have key := forRange_rule (fun i x => (∀ k f, k < i → F[k]? = some f → dotl f.l x + x k / f.ldiag = b k) ∧ ∀ k, i ≤ k → x k = b k) 0 F.length (Nat.zero_le _)
    (forwardRow F) b ⟨fun _ _ h => absurd h (Nat.not_lt_zero _), fun _ _ => rfl⟩ (by
      rintro i x _ hi ⟨h1, h2⟩
      have hfi : F[i]? = some F[i] := List.getElem?_eq_getElem hi
      have hg := hF i _ hfi
      have hne : ∀ e ∈ F[i].l.reverse, e.1 ≠ i := fun e he => Nat.ne_of_lt (hg.l e (List.mem_reverse.mp he))
      have hrow : forwardRow F i x = updV x i ((x i - dotl F[i].l x) * F[i].ldiag) := by
        unfold forwardRow
        rw [hfi]
        simp only []
        rw [foldl_row i _ x hne, dotl_perm (List.reverse_perm _)]
        funext r
        simp only [updV, if_true]
        split <;> rfl
      rw [hrow]
      refine ⟨fun k f hk hf => ?_, fun k hk => ?_⟩
      · by_cases hki : k = i
        · subst hki
          rw [hfi] at hf
          obtain rfl := Option.some.inj hf
          rw [dotl_congr (y := x) (fun e he => if_neg (Nat.ne_of_lt (hg.l e he)))]
          simp only [updV, if_true]
          rw [mul_div_assoc, div_self hg.ldiag, mul_one, h2 k (Nat.le_refl _)]
          ring
        · have hk' : k < i := by omega
          rw [dotl_congr (y := x) (fun e he => if_neg (by have := (hF k f hf).l e he; omega))]
          simp only [updV, if_neg hki]
          exact h1 k f hk' hf
      · simp only [updV, if_neg (show k ≠ i by omega)]
        exact h2 k (by omega))
  refine ⟨fun k f hf => key.1 k f ?_ hf, key.2⟩
  exact (List.getElem?_eq_some_iff.mp hf).1

theorem backward_ok (F : List Fact) (hF : ∀ j f, F[j]? = some f → Good j f) (y : Nat → ℝ) :
    UpperOk F y (forDown (backwardRow F) F.length y) ∧ ∀ k, F.length ≤ k → forDown (backwardRow F) F.length y k = y k := by
  have key := forDown_rule (fun i x => (∀ k f, i ≤ k → F[k]? = some f → uval f k x = y k) ∧ ∀ k, k < i ∨ F.length ≤ k → x k = y k) F.length
    (backwardRow F) y ⟨fun k f h hf => absurd (List.getElem?_eq_some_iff.mp hf).1 (by omega), fun _ _ => rfl⟩ (by
      rintro i x hi ⟨h1, h2⟩
      have hfi : F[i]? = some F[i] := List.getElem?_eq_getElem hi
      have hg := hF i _ hfi
      have hne : ∀ e ∈ F[i].u, e.1 ≠ i := fun e he => Nat.ne_of_gt (hg.u e he)
      have hrow : backwardRow F i x = updV x i ((x i - dotl F[i].u x) * F[i].udiag) := by
        unfold backwardRow
        rw [hfi]
        simp only []
        rw [foldl_row i _ x hne]
        funext r
        simp only [updV, if_true]
        split <;> rfl
      rw [hrow]
      refine ⟨fun k f hk hf => ?_, fun k hk => ?_⟩
      · by_cases hki : k = i
        · subst hki
          rw [hfi] at hf
          obtain rfl := Option.some.inj hf
          rw [uval, dotl_congr (x := updV x k _) (y := x) (fun e he => if_neg (hne e he))]
          simp only [updV, if_true]
          rw [mul_div_assoc, div_self hg.udiag, mul_one, h2 k (.inl (by omega))]
          ring
        · rw [uval, dotl_congr (l := f.u) (x := updV x i _) (y := x) (fun e he => if_neg (by have := (hF k f hf).u e he; omega))]
          simp only [updV, if_neg hki]
          exact h1 k f (by omega) hf
      · simp only [updV, if_neg (show k ≠ i by omega)]
        exact h2 k (by omega))
  exact ⟨fun k f hf => key.1 k f (Nat.zero_le _) hf, fun k hk => key.2 k (.inr hk)⟩

end Verif.ILU2
