import Verif.OrderInfo.Levels
import Verif.OrderInfo.ResultLemmas
import Mathlib.Algebra.Ring.Defs

/-!
# C42-C45, C52: distributed matrices and vectors
-/

namespace Verif.OrderInfo

open Finset

variable {K : Type}

/-! ### C42 -/

/-- C42, what holds: the owner of a row is found if and only if no empty interval begins at this row. -/
theorem C42_partial (size : Nat) (gtp : Nat → Nat) (h0 : gtp 0 = 0) (hm : ∀ k, k < size → gtp k ≤ gtp (k + 1)) (r : Nat) (hr : r < gtp size) :
    (∃ q, getProcessor size gtp r = some q ∧ Owns size gtp q r) ↔ ∀ k, k < size → gtp k = r → gtp (k + 1) ≠ r := by
  obtain ⟨f, _, h1, h2, h3, h4, h5⟩ := getProcessor_eq size gtp r hr h0
  have mono : ∀ i j, i ≤ j → j ≤ size → gtp i ≤ gtp j := by
    intro i j hij
    induction j with
    | zero => intro _; have : i = 0 := by omega
              subst this; exact le_refl _
    | succ j ih =>
      intro hj
      rcases Nat.lt_or_ge i (j + 1) with h' | h'
      · exact le_trans (ih (by omega) (by omega)) (hm j (by omega))
      · have : i = j + 1 := by omega
        subst this; exact le_refl _
  rw [h5]
  constructor
  · rintro ⟨q, hq, ho⟩ k hk hkr hkr'
    injection hq with hq
    by_cases he : gtp f = r
    · rw [if_pos he] at hq
      subst hq
      have hfk : f ≤ k := by
        by_contra hlt
        have := h3 k (by omega); omega
      have := mono (f + 1) (k + 1) (by omega) (by omega)
      have := ho.2.2
      omega
    · rw [if_neg he] at hq
      have hkf : f ≤ k := by
        by_contra hlt
        have := h3 k (by omega); omega
      have := mono f k hkf (by omega)
      omega
  · intro hno
    refine ⟨_, rfl, ?_⟩
    by_cases he : gtp f = r
    · rw [if_pos he]
      have hfs : f ≠ size := by rintro rfl; omega
      have := hno f (by omega) he
      have := hm f (by omega)
      exact ⟨by omega, he.le, by omega⟩
    · rw [if_neg he]
      have hf0 : f ≠ 0 := fun h => he (h4 h)
      refine ⟨by omega, (h3 (f - 1) (by omega)).le, ?_⟩
      rw [show f - 1 + 1 = f by omega]; omega

/-- C42, what fails: with the intervals `[0,0)` and `[0,5)` the row 0 is attributed to the first process. -/
theorem C42_fails : ∃ (size : Nat) (gtp : Nat → Nat) (r : Nat), gtp 0 = 0 ∧ (∀ k, k < size → gtp k ≤ gtp (k + 1)) ∧ r < gtp size ∧
    ∃ q, getProcessor size gtp r = some q ∧ ¬ Owns size gtp q r :=
  ⟨2, fun k => if k = 2 then 5 else 0, 0, by decide, by decide, by decide, 0, by decide, by unfold Owns; decide⟩

/-- The intervals `[0,2)`, `[2,5)`, `[5,5)`. -/
def gtpEx (k : Nat) : Nat := if k = 0 then 0 else if k = 1 then 2 else 5

theorem gtpEx_ok : Intervals 3 gtpEx := ⟨rfl, by decide, by decide⟩

example : getProcessor 3 gtpEx 2 = some 1 ∧ getProcessor 3 gtpEx 4 = some 1 ∧ getProcessor 3 gtpEx 1 = some 0 ∧ Owns 3 gtpEx 1 2 := by
  refine ⟨by decide, by decide, by decide, ?_⟩; unfold Owns; decide

/-! ### C43 -/

/-- C43: after `PrepareMatrix` and `Update`, whatever the order of messages, each position of the vector holds the value of the owner of the corresponding
global index; own positions (and positions out of the vector) are unchanged. -/
theorem C43_update_partial (size : Nat) (gtp : Nat → Nat) (h : Intervals size gtp) (A : Nat → Row K) (hA : Square (gtp size) A) (overlap : Nat)
    (S : Nat → PSt K) (hS : Prepare size gtp A overlap S) (maxTag : Nat) (x : Nat → Nat → K) (w : World K) (hw : Reach (updateCfg size maxTag S) x w)
    (p : Nat) (hp : p < size) (hd : (w.proc p).done = true) :
    (∀ k g q, Global gtp S p k g → Owns size gtp q g → (w.proc p).x k = x q g) ∧
    (∀ k, k < gtp (p + 1) ∨ (S p).ext ≤ k → (w.proc p).x k = x p k) := by
  obtain ⟨R, hP⟩ := prepared size gtp h A hA overlap S hS
  have hres := exchange_result _ (matched_update hP maxTag) x w hw p hp hd
  have hval : ∀ k, (w.proc p).x k = _ := fun k => (congrFun hres k).trans (update_value hP maxTag x p hp k)
  have hown : ∀ k, k < gtp (p + 1) ∨ (S p).ext ≤ k → (w.proc p).x k = x p k := fun k hk => (hval k).trans (update_own hP x p hp k hk)
  refine ⟨?_, hown⟩
  rintro k g q (⟨h1, h2, rfl⟩ | ⟨h1, h2, h3⟩) hq
  · rw [hown g (Or.inl h2), hq.unique h ⟨hp, h1, h2⟩]
  · rw [extended_eq _ _ _ _ (hP p hp).map] at h3
    have := update_ghost hP h x p hp _ g q h3 hq
    rw [show gtp (p + 1) + (k - gtp (p + 1)) = k by omega] at this
    exact (hval k).trans this

/-- C43: the entries of the rows stored by a process refer to the positions of the original columns, the rows of the process keep their positions
and every column of them has a position. -/
theorem C43_rows_partial (size : Nat) (gtp : Nat → Nat) (h : Intervals size gtp) (A : Nat → Row K) (hA : Square (gtp size) A) (overlap : Nat)
    (S : Nat → PSt K) (hS : Prepare size gtp A overlap S) (p : Nat) (hp : p < size) (k g : Nat) (hk : k < (S p).stop) (hg : Global gtp S p k g) :
    List.Forall₂ (fun e e' => Global gtp S p e.1 e'.1 ∧ e.2 = e'.2) ((S p).rows k) (A g) := by
  obtain ⟨R, hP⟩ := prepared size gtp h A hA overlap S hS
  rcases hg with ⟨h1, h2, rfl⟩ | ⟨h1, h2, h3⟩
  · obtain ⟨e1, e2⟩ := (hP p hp).own g h1 h2
    rw [e1]
    exact renumber_global hP p hp _ e2
  · rw [extended_eq _ _ _ _ (hP p hp).map] at h3
    obtain ⟨e1, e2⟩ := (hP p hp).added _ g h3 (by omega)
    rw [show gtp (p + 1) + (k - gtp (p + 1)) = k by omega] at e1
    rw [e1]
    exact renumber_global hP p hp _ e2

/-- The product of a row with a vector. -/
def rowMul [Semiring K] (r : Row K) (x : Nat → K) : K := (r.map fun e => e.2 * x e.1).sum

/-- C43: so the product of a matrix with a distributed vector is computed from local data. -/
theorem C43_product_partial [Semiring K] (size : Nat) (gtp : Nat → Nat) (h : Intervals size gtp) (A : Nat → Row K) (hA : Square (gtp size) A) (overlap : Nat)
    (S : Nat → PSt K) (hS : Prepare size gtp A overlap S) (maxTag : Nat) (X : Nat → K) (x : Nat → Nat → K)
    (hx : ∀ q g, Owns size gtp q g → x q g = X g) (w : World K) (hw : Reach (updateCfg size maxTag S) x w)
    (p : Nat) (hp : p < size) (hd : (w.proc p).done = true) (k : Nat) (hk : Owns size gtp p k) :
    rowMul ((S p).rows k) (w.proc p).x = rowMul (A k) X := by
  obtain ⟨R, hP⟩ := prepared size gtp h A hA overlap S hS
  have hlt : k < (S p).stop := lt_of_lt_of_le hk.2.2 (hP p hp).stop.1
  have hrows := C43_rows_partial size gtp h A hA overlap S hS p hp k k hlt (Or.inl ⟨hk.2.1, hk.2.2, rfl⟩)
  have hcols : ∀ e ∈ A k, e.1 < gtp size := hA k (lt_of_lt_of_le hk.2.2 (h.le (by omega) (le_refl _)))
  have hup := (C43_update_partial size gtp h A hA overlap S hS maxTag x w hw p hp hd).1
  unfold rowMul
  congr 1
  generalize (S p).rows k = r at hrows
  generalize A k = a at hrows hcols
  induction hrows with
  | nil => rfl
  | @cons e e' r a he _ ih =>
    obtain ⟨q, _, hq⟩ := getProcessor_owner size gtp h e'.1 (hcols e' (by simp))
    rw [List.map_cons, List.map_cons, ih (fun e he => hcols e (by simp [he])), hup e.1 e'.1 q he.1 hq, hx q e'.1 hq, he.2]

/-- C43, C44: the exchange does not stop before all processes return. -/
theorem C43_no_deadlock_partial (size : Nat) (gtp : Nat → Nat) (h : Intervals size gtp) (A : Nat → Row K) (hA : Square (gtp size) A) (overlap : Nat)
    (S : Nat → PSt K) (hS : Prepare size gtp A overlap S) (maxTag : Nat) (x : Nat → Nat → K) (w : World K) (hw : Reach (updateCfg size maxTag S) x w)
    (hf : ¬ ∀ p, p < size → (w.proc p).done = true) : ∃ w', Step (updateCfg size maxTag S) w w' := by
  obtain ⟨R, hP⟩ := prepared size gtp h A hA overlap S hS
  exact exchange_progress _ (matched_update hP maxTag) x w hw hf

/-- C43: and it cannot go on forever. -/
theorem C43_terminates_partial (size : Nat) (gtp : Nat → Nat) (h : Intervals size gtp) (A : Nat → Row K) (hA : Square (gtp size) A) (overlap : Nat)
    (S : Nat → PSt K) (hS : Prepare size gtp A overlap S) (maxTag : Nat) (x : Nat → Nat → K) :
    ¬ ∃ f : Nat → World K, f 0 = World.init x ∧ ∀ n, Step (updateCfg size maxTag S) (f n) (f (n + 1)) := by
  rintro ⟨f, h0, hs⟩
  obtain ⟨R, hP⟩ := prepared size gtp h A hA overlap S hS
  exact exchange_terminates _ (matched_update hP maxTag) x f h0 hs

/-- `PrepareMatrix` succeeds: all theorems about its outcomes apply. -/
theorem C43_prepare_partial (size : Nat) (gtp : Nat → Nat) (h : Intervals size gtp) (A : Nat → Row K) (hA : Square (gtp size) A) (overlap : Nat) :
    ∃ S, Prepare size gtp A overlap S := prepare_exists size gtp h A hA overlap

/-! ### C44 -/

/-- C44: after `Accumulate`, whatever the order of messages, each owned position holds its value plus the values of all copies on all processes; other
positions are unchanged. -/
theorem C44_accumulate_partial [AddCommMonoid K] (size : Nat) (gtp : Nat → Nat) (h : Intervals size gtp) (A : Nat → Row K) (hA : Square (gtp size) A)
    (overlap : Nat) (S : Nat → PSt K) (hS : Prepare size gtp A overlap S) (maxTag : Nat) (x : Nat → Nat → K) (w : World K)
    (hw : Reach (accumulateCfg size maxTag S) x w) (p : Nat) (hp : p < size) (hd : (w.proc p).done = true) :
    (∀ k, Owns size gtp p k → (w.proc p).x k = x p k +
      ∑ q ∈ range size, ∑ j ∈ Ico (gtp (q + 1)) (S q).ext with extended (S q) (gtp (q + 1)) (j - gtp (q + 1)) = some k, x q j) ∧
    (∀ k, ¬ Owns size gtp p k → (w.proc p).x k = x p k) := by
  obtain ⟨R, hP⟩ := prepared size gtp h A hA overlap S hS
  have hres := exchange_result _ (matched_accumulate hP maxTag) x w hw p hp hd
  have hval : ∀ k, (w.proc p).x k = x p k + _ := fun k => ((congrFun hres k).trans (accumulate_value hP maxTag x p hp k)).trans (foldl_add_sum _ _ _)
  constructor
  · intro k hk
    rw [hval k, accumulate_sum hP h x p hp k hk]
    congr 1
    apply sum_congr rfl
    intro q hq
    exact copies_sum hP x q (by simpa using hq) k
  · intro k hk
    rw [hval k, accumulate_other hP x p hp k hk, add_zero]

/-- C44: the exchange does not stop before all processes return, and it cannot go on forever. -/
theorem C44_terminates_partial [AddCommMonoid K] (size : Nat) (gtp : Nat → Nat) (h : Intervals size gtp) (A : Nat → Row K) (hA : Square (gtp size) A)
    (overlap : Nat) (S : Nat → PSt K) (hS : Prepare size gtp A overlap S) (maxTag : Nat) (x : Nat → Nat → K) :
    (∀ w, Reach (accumulateCfg size maxTag S) x w → (¬ ∀ p, p < size → (w.proc p).done = true) → ∃ w', Step (accumulateCfg size maxTag S) w w') ∧
    ¬ ∃ f : Nat → World K, f 0 = World.init x ∧ ∀ n, Step (accumulateCfg size maxTag S) (f n) (f (n + 1)) := by
  obtain ⟨R, hP⟩ := prepared size gtp h A hA overlap S hS
  constructor
  · intro w hw hf
    exact exchange_progress _ (matched_accumulate hP maxTag) x w hw hf
  · rintro ⟨f, h0, hs⟩
    exact exchange_terminates _ (matched_accumulate hP maxTag) x f h0 hs

/-! ### C45 -/

/-- C45: `RestoreMatrix` after `PrepareMatrix` gives back the rows of the process. -/
theorem C45_restore_partial (size : Nat) (gtp : Nat → Nat) (h : Intervals size gtp) (A : Nat → Row K) (hA : Square (gtp size) A) (overlap : Nat)
    (S : Nat → PSt K) (hS : Prepare size gtp A overlap S) (p : Nat) (k : Nat) (hk : Owns size gtp p k) :
    restoreRow (S p) (gtp (p + 1)) ((S p).rows k) = A k := by
  have hp := hk.1
  obtain ⟨R, hP⟩ := prepared size gtp h A hA overlap S hS
  have hlt : k < (S p).stop := lt_of_lt_of_le hk.2.2 (hP p hp).stop.1
  have hrows := C43_rows_partial size gtp h A hA overlap S hS p hp k k hlt (Or.inl ⟨hk.2.1, hk.2.2, rfl⟩)
  unfold restoreRow
  generalize (S p).rows k = r at hrows
  generalize A k = a at hrows
  induction hrows with
  | nil => rfl
  | @cons e e' r a he _ ih =>
    rw [List.map_cons, ih]
    congr 1
    obtain ⟨hg, hv⟩ := he
    rcases hg with ⟨h1, h2, h3⟩ | ⟨h1, h2, h3⟩
    · rw [if_neg (by omega)]
      exact Prod.ext h3.symm hv
    · rw [if_pos h1, h3]
      exact Prod.ext rfl hv

/-! ### C52 -/

/-- C52: `PrepareMatrix(m, overlap)` stores on each process exactly the rows within `overlap` steps of its own rows, and gives positions exactly to the
indices within `overlap + 1` steps. -/
theorem C52_overlap_partial (size : Nat) (gtp : Nat → Nat) (h : Intervals size gtp) (A : Nat → Row K) (hA : Square (gtp size) A) (overlap : Nat)
    (S : Nat → PSt K) (hS : Prepare size gtp A overlap S) (p : Nat) (hp : p < size) (g : Nat) :
    ((∃ k, k < (S p).stop ∧ Global gtp S p k g) ↔ Near size gtp A p overlap g) ∧
    ((∃ k, Global gtp S p k g) ↔ Near size gtp A p (overlap + 1) g) := by
  obtain ⟨R, hP⟩ := prepared size gtp h A hA overlap S hS
  obtain ⟨old, h1, h2, h3, h4⟩ := prepare_level size gtp h A hA overlap S hS p hp
  have hm := (hP p hp).map
  have hext := (hP p hp).ext
  obtain ⟨tl, htl⟩ := h1
  constructor
  · rw [h3 g]
    constructor
    · rintro ⟨k, hk, ⟨k1, k2, rfl⟩ | ⟨k1, k2, k3⟩⟩
      · exact Or.inl ⟨hp, k1, k2⟩
      · right
        rw [extended_eq _ _ _ _ hm, ← htl, List.map_append, List.getElem?_append_left (by rw [List.length_map]; omega)] at k3
        exact List.mem_of_getElem? k3
    · rintro (ho | hmem)
      · exact ⟨g, lt_of_lt_of_le ho.2.2 (hP p hp).stop.1, Or.inl ⟨ho.2.1, ho.2.2, rfl⟩⟩
      · obtain ⟨i, hi⟩ := List.getElem?_of_mem hmem
        have hlt : i < old.length := by
          rcases Nat.lt_or_ge i old.length with h' | h'
          · exact h'
          · rw [List.getElem?_eq_none (by simpa using h')] at hi; cases hi
        refine ⟨gtp (p + 1) + i, by omega, Or.inr ⟨by omega, by rw [hext, ← htl, List.length_append]; omega, ?_⟩⟩
        rw [extended_eq _ _ _ _ hm, ← htl, List.map_append, show gtp (p + 1) + i - gtp (p + 1) = i by omega,
          List.getElem?_append_left (by rw [List.length_map]; omega)]
        exact hi
  · rw [h4 g]
    constructor
    · rintro ⟨k, ⟨k1, k2, rfl⟩ | ⟨k1, k2, k3⟩⟩
      · exact Or.inl ⟨hp, k1, k2⟩
      · right
        rw [extended_eq _ _ _ _ hm] at k3
        exact List.mem_of_getElem? k3
    · rintro (ho | hmem)
      · exact ⟨g, Or.inl ⟨ho.2.1, ho.2.2, rfl⟩⟩
      · obtain ⟨i, hi⟩ := List.getElem?_of_mem hmem
        have hlt : i < (S p).map.length := by
          rcases Nat.lt_or_ge i (S p).map.length with h' | h'
          · exact h'
          · rw [List.getElem?_eq_none (by simpa using h')] at hi; cases hi
        refine ⟨gtp (p + 1) + i, Or.inr ⟨by omega, by omega, ?_⟩⟩
        rw [extended_eq _ _ _ _ hm, show gtp (p + 1) + i - gtp (p + 1) = i by omega]
        exact hi

/-! ### What fails with empty intervals -/

/-- Three processes with the intervals `[0,3)`, `[3,3)`, `[3,6)`. -/
def gtpBad (k : Nat) : Nat := if k = 0 then 0 else if k = 3 then 6 else 3

/-- The row 0 refers to the row 3. -/
def matBad (k : Nat) : Row Nat := if k = 0 then [(0, 1), (3, 1)] else [(k, 1)]

/-- C43, what fails: the process 0 refers to the index 3 of the process 2 at the position 3, but does not request its value: a row of the matrix
refers to a position that `Update` does not change, and no process sends it. -/
theorem C43_empty_fails :
    (∀ k, k < 3 → gtpBad k ≤ gtpBad (k + 1)) ∧ gtpBad 0 = 0 ∧ Square (gtpBad 3) matBad ∧ Owns 3 gtpBad 2 3 ∧
    ∃ S : Nat → PSt Nat, Prepare 3 gtpBad matBad 0 S ∧ (S 0).rows 0 = [(0, 1), (3, 1)] ∧ Global gtpBad S 0 3 3 ∧
      (∀ p, p < 3 → (S p).recv = [] ∧ (S p).send = []) ∧
      ∀ x, ∃ w, Reach (updateCfg 3 100 S) x w ∧ (∀ p, p < 3 → (w.proc p).done = true) ∧ (w.proc 0).x 3 = x 0 3 := by
  have hsq : Square (gtpBad 3) matBad := by
    intro k hk e he
    unfold matBad at he
    split at he
    · simp at he; rcases he with rfl | rfl <;> decide
    · simp at he; subst he; exact hk
  have hb : ∀ p, p < 3 → buildRecv 3 gtpBad (requested (gtpBad p) (gtpBad (p + 1)) true (start gtpBad matBad p)) = some [] := by decide +kernel
  refine ⟨by decide, by decide, hsq, by unfold Owns; decide,
    fun p => finishLast (gtpBad p) (gtpBad (p + 1)) (start gtpBad matBad p) [] [], ⟨fun _ => [], fun _ => [], hb, ?_, ?_⟩, ?_, ?_, ?_, ?_⟩
  · intro p _; simp [requests]
  · intro p _; simp
  · decide +kernel
  · right; refine ⟨by decide, by decide +kernel, by decide +kernel⟩
  · intro p _; exact ⟨rfl, rfl⟩
  · intro x
    generalize hS : (fun p => finishLast (gtpBad p) (gtpBad (p + 1)) (start gtpBad matBad p) [] []) = S
    have hin : ∀ p, (updateCfg 3 100 S).inl p = [] := by intro p; rw [← hS]; rfl
    have hout : ∀ p, (updateCfg 3 100 S).outl p = [] := by intro p; rw [← hS]; rfl
    -- each process unpacks nothing and returns
    have run : ∀ n, n ≤ 3 → ∃ w, Reach (updateCfg 3 100 S) x w ∧ (∀ p, p < n → (w.proc p).done = true) ∧
        (∀ p, n ≤ p → w.proc p = (World.init x).proc p) ∧ (∀ a b, w.net a b = []) ∧ ∀ p, (w.proc p).x = x p := by
      intro n
      induction n with
      | zero => intro _; exact ⟨_, Reach.start, fun p hp => absurd hp (Nat.not_lt_zero p), fun p _ => rfl, fun a b => rfl, fun p => rfl⟩
      | succ n ih =>
        intro hn
        obtain ⟨w, r1, r2, r3, r4, r5⟩ := ih (by omega)
        have hpn := r3 n (le_refl _)
        have s1 := Step.unpack (c := updateCfg 3 100 S) w n [] (show n < 3 by omega) (by rw [hpn, hout]; rfl) (by rw [hpn, hin]; rfl) (by rw [hpn]; rfl)
          (by rw [hin]; rfl) (by rw [hin]; intro i hi; exact absurd hi (Nat.not_lt_zero i))
        generalize hw1 : (w.set n { w.proc n with x := unpackAll (updateCfg 3 100 S).op (w.proc n).x ((((updateCfg 3 100 S).inl n).map (·.2)).zip []), unpacked := true }) = w1 at s1
        have p1 : ∀ q, w1.proc q = if q = n then { w.proc n with x := unpackAll (updateCfg 3 100 S).op (w.proc n).x ((((updateCfg 3 100 S).inl n).map (·.2)).zip []), unpacked := true } else w.proc q := by
          intro q; rw [← hw1]; rfl
        have n1 : ∀ a b, w1.net a b = [] := by intro a b; rw [← hw1]; exact r4 a b
        have s2 := Step.finish (c := updateCfg 3 100 S) w1 n (show n < 3 by omega) (by rw [p1, if_pos rfl]) (by rw [p1, if_pos rfl]; simp only; rw [hpn]; rfl) (fun dst => n1 n dst)
        refine ⟨_, Reach.step (Reach.step r1 s1) s2, ?_, ?_, fun a b => n1 a b, ?_⟩
        · intro p hp
          rw [set_proc]
          split
          · rfl
          · rename_i hne
            rw [p1, if_neg hne]; exact r2 p (by omega)
        · intro p hp
          rw [set_proc, if_neg (by omega), p1, if_neg (by omega)]
          exact r3 p (by omega)
        · intro p
          rw [set_proc]
          split
          · rename_i hq; subst hq
            simp only
            rw [p1, if_pos rfl, hin]
            simp [unpackAll, r5]
          · rename_i hq
            rw [p1, if_neg hq]; exact r5 p
    obtain ⟨w, r1, r2, _, _, r5⟩ := run 3 (le_refl _)
    exact ⟨w, r1, r2, congrFun (r5 0) 3⟩

/-! ### Examples -/

/-- A tridiagonal matrix with 5 rows. -/
def matEx (k : Nat) : Row Nat := if k = 0 then [(0, 2), (1, 1)] else if k < 4 then [(k - 1, 1), (k, 2), (k + 1, 1)] else if k = 4 then [(3, 1), (4, 2)] else []

theorem matEx_square : Square (gtpEx 3) matEx := by
  unfold Square
  decide

example (overlap : Nat) : ∃ S, Prepare 3 gtpEx matEx overlap S := C43_prepare_partial 3 gtpEx gtpEx_ok matEx matEx_square overlap

/-- A completed exchange exists, so the theorems about processes that have returned apply. -/
theorem completes (c : Cfg K) (hm : Matched c) (x : Nat → Nat → K) : ∃ w, Reach c x w ∧ w.Finished c := by
  by_contra hno
  have hstep : ∀ w : {w // Reach c x w}, ∃ w' : {w // Reach c x w}, Step c w.1 w'.1 := by
    rintro ⟨w, hw⟩
    obtain ⟨w', hs⟩ := exchange_progress c hm x w hw (fun hf => hno ⟨w, hw, hf⟩)
    exact ⟨⟨w', Reach.step hw hs⟩, hs⟩
  choose next hnext using hstep
  let f : Nat → {w // Reach c x w} := fun n => next^[n] ⟨World.init x, Reach.start⟩
  refine exchange_terminates c hm x (fun n => (f n).1) rfl (fun n => ?_)
  have : f (n + 1) = next (f n) := Function.iterate_succ_apply' next n _
  show Step c (f n).1 (f (n + 1)).1
  rw [this]
  exact hnext (f n)

example (overlap : Nat) (x : Nat → Nat → Nat) : ∃ (S : Nat → PSt Nat) (w : World Nat), Prepare 3 gtpEx matEx overlap S ∧ Reach (updateCfg 3 100 S) x w ∧
    ∀ p, p < 3 → (w.proc p).done = true := by
  obtain ⟨S, hS⟩ := C43_prepare_partial 3 gtpEx gtpEx_ok matEx matEx_square overlap
  obtain ⟨R, hP⟩ := prepared 3 gtpEx gtpEx_ok matEx matEx_square overlap S hS
  obtain ⟨w, h1, h2⟩ := completes (updateCfg 3 100 S) (matched_update hP 100) x
  exact ⟨S, w, hS, h1, h2⟩

/-- In this example the process 0 needs the row 2 of the process 1 with the overlap 1. -/
example : Near 3 gtpEx matEx 0 1 2 ∧ ¬ Owns 3 gtpEx 0 2 :=
  ⟨Near.step 0 1 (2, 1) (Near.own 0 1 (by unfold Owns; decide)) (by decide), by unfold Owns; decide⟩

end Verif.OrderInfo
