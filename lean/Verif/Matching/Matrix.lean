import Verif.Matching.Optimal
import Mathlib.Algebra.Order.BigOperators.Group.Finset
/-
From the matrix to the costs, and from the matching of costs back to the matrix.
-/

namespace Verif.Matching

open Verif.Heap (put put_eq put_ne Linked Ordered)

variable {R : Type}

theorem entries_succ (a : Arith R) (n : Nat) (A : Nat → List (Nat × R)) (k : Nat) :
    entries a n A (k + 1) = entries a n A k ++ localRow a n (A k) := by
  simp [entries, List.range_succ]

theorem entries_prefix (a : Arith R) (n : Nat) (A : Nat → List (Nat × R)) {k l : Nat} (h : k ≤ l) :
    ∃ rest, entries a n A l = entries a n A k ++ rest := by
  induction l with
  | zero => exact ⟨[], by have : k = 0 := by omega
                          subst this; simp⟩
  | succ l ih =>
    by_cases e : k = l + 1
    · exact ⟨[], by subst e; simp⟩
    · obtain ⟨rest, hr⟩ := ih (by omega)
      exact ⟨rest ++ localRow a n (A l), by rw [entries_succ, hr, List.append_assoc]⟩

/-- Entries of a row of the compressed matrix are those of the row of the matrix. -/
theorem row_entry (a : Arith R) {n : Nat} {A : Nat → List (Nat × R)} {k : Nat} (hk : k < n) (c : Nat)
    (w : R) : (∃ q ∈ (absolute a n A).row k, (absolute a n A).col q = c ∧
      (absolute a n A).val q = w) ↔ (c, w) ∈ localRow a n (A k) := by
  obtain ⟨rest, hrest⟩ := entries_prefix a n A (show k + 1 ≤ n by omega)
  rw [entries_succ, List.append_assoc] at hrest
  have hlen : (entries a n A (k + 1)).length = (entries a n A k).length + (localRow a n (A k)).length := by
    rw [entries_succ, List.length_append]
  have hget : ∀ i, i < (localRow a n (A k)).length → ∀ (hi : i < (localRow a n (A k)).length),
      (entries a n A n).getD ((entries a n A k).length + i) (0, a.zero) = (localRow a n (A k))[i] := by
    intro i _ hi
    rw [hrest, List.getD_eq_getElem?_getD, List.getElem?_append_right (by omega),
      Nat.add_sub_cancel_left, List.getElem?_append_left hi, List.getElem?_eq_getElem hi]
    rfl
  constructor
  · rintro ⟨q, hq, h1, h2⟩
    simp only [Csr.row, absolute, List.mem_range'_1] at hq
    have hi : q - (entries a n A k).length < (localRow a n (A k)).length := by omega
    have := hget _ hi hi
    rw [show (entries a n A k).length + (q - (entries a n A k).length) = q by omega] at this
    simp only [absolute] at h1 h2
    rw [this] at h1 h2
    rw [← h1, ← h2]
    exact List.getElem_mem hi
  · intro h
    obtain ⟨i, hi, e⟩ := List.mem_iff_getElem.1 h
    refine ⟨(entries a n A k).length + i, ?_, ?_, ?_⟩
    · simp only [Csr.row, absolute, List.mem_range'_1]; omega
    · simp only [absolute]; rw [hget i hi hi, e]
    · simp only [absolute]; rw [hget i hi hi, e]

theorem mem_localRow (a : Arith R) {n : Nat} {row : List (Nat × R)} {c : Nat} {w : R} :
    (c, w) ∈ localRow a n row ↔ c < n ∧ ∃ v, (c, v) ∈ row ∧ w = a.abs v := by
  simp only [localRow, List.mem_map, List.mem_filter, decide_eq_true_eq]
  constructor
  · rintro ⟨⟨c', v⟩, ⟨h1, h2⟩, h3⟩
    simp only [Prod.mk.injEq] at h3
    obtain ⟨e1, e2⟩ := h3
    subst e1
    exact ⟨h2, v, h1, e2.symm⟩
  · rintro ⟨h1, v, h2, h3⟩
    exact ⟨(c, v), ⟨h2, h1⟩, by rw [h3]⟩

/-- Costs of the matrix (solver_mtilu2.cpp, lines 210-244). -/
def costMatrix (a : Arith R) (n : Nat) (A : Nat → List (Nat × R)) : Csr R :=
  costs a (absolute a n A) (columnMax a (absolute a n A)
    (List.range ((absolute a n A).adr n)) fun _ => a.zero)

theorem costMatrix_row (a : Arith R) (n : Nat) (A : Nat → List (Nat × R)) (k : Nat) :
    (costMatrix a n A).row k = (absolute a n A).row k := rfl

theorem wf_costMatrix (a : Arith R) (n : Nat) (A : Nat → List (Nat × R)) :
    WfCsr (costMatrix a n A) := by
  intro k hk q hq
  rw [costMatrix_row] at hq
  exact ((mem_localRow a).1 ((row_entry a hk _ _).1 ⟨q, hq, rfl, rfl⟩)).1

/-- Dual variables of columns at the start (solver_mtilu2.cpp, lines 228-244). -/
def startU (a : Arith R) (n : Nat) (A : Nat → List (Nat × R)) : Nat → R :=
  columnMin a (absolute a n A) (costMatrix a n A) (columnMax a (absolute a n A)
    (List.range ((absolute a n A).adr n)) fun _ => a.zero)
    (List.range ((absolute a n A).adr n)) fun _ => a.max

/-- Dual variables of rows at the start (solver_mtilu2.cpp, lines 245-252). -/
def startV (a : Arith R) (n : Nat) (A : Nat → List (Nat × R)) (k : Nat) : R :=
  rowMin a (costMatrix a n A) (startU a n A) ((costMatrix a n A).row k) a.max

/-- The state before the first match. -/
def initial (a : Arith R) (n : Nat) (A : Nat → List (Nat × R)) : St R :=
  start a n (startU a n A) (startV a n A)

theorem reorder_eq (a : Arith R) (n : Nat) (A : Nat → List (Nat × R)) :
    reorder a n A = match matching a (costMatrix a n A) (startU a n A) (startV a n A) with
      | none => none
      | some s => match fillGaps (List.range n) (gaps n s.perm) s.perm with
        | none => none
        | some p => some (s, p) := rfl

/-- The first two stages. -/
theorem stages_spec (a : Arith R) (m : Csr R) (U V : Nat → R) (P : Nat → Nat → Prop)
    (hex : ∀ k, k < m.n → ∀ q ∈ m.row k, a.le (gap a m (start a m.n U V) k q) a.tiny = true →
      a.lt (gap a m (start a m.n U V) k q) a.tiny = true)
    (hP : ∀ r, r < m.n → ∀ p ∈ m.row r, a.le (gap a m (start a m.n U V) r p) a.tiny = true → P r p)
    (hP' : ∀ r, r < m.n → ∀ p ∈ m.row r, a.lt (gap a m (start a m.n U V) r p) a.tiny = true → P r p) :
    ∃ t, stepAll a m (List.range m.n) (matchAll a m (List.range m.n) (start a m.n U V)) = some t ∧
      Pairs m t.perm t.iperm t.colPos ∧ Early (start a m.n U V) t ∧
      (∀ r q, t.colPos r = some q → P r q) := by
  obtain ⟨t1, a1, a2, a3, a4, a5, a6⟩ := matchAll_spec a m P (List.range m.n) (start a m.n U V)
    (fun k hk => List.mem_range.1 hk) List.nodup_range (pairs_start a m U V) hP'
    (by simp [start])
  rw [← a1]
  exact stepAll_spec a m P (start a m.n U V) hex hP (List.range m.n) t1
    (fun k hk => List.mem_range.1 hk) a3 a2 a6 a4

theorem between_of_early (a : Arith R) (m : Csr R) {U V : Nat → R} {t : St R}
    (hp : Pairs m t.perm t.iperm t.colPos) (he : Early (start a m.n U V) t) : Between a m t := by
  refine ⟨hp, ?_, ?_, ?_, ?_⟩
  · rw [he.heap]; exact Heap.linked_make _ _
  · rw [he.heap]; rfl
  · rw [he.heap]; rfl
  · intro c hc; rw [he.colList] at hc; simp [start] at hc

theorem matching_spec (a : Arith R) (hle : ∀ x y, a.le x y = true → a.lt y x = false) {m : Csr R}
    (hwf : WfCsr m) (U V : Nat → R)
    (hex : ∀ k, k < m.n → ∀ q ∈ m.row k, a.le (gap a m (start a m.n U V) k q) a.tiny = true →
      a.lt (gap a m (start a m.n U V) k q) a.tiny = true) :
    ∃ t, matching a m U V = some t ∧ Pairs m t.perm t.iperm t.colPos := by
  obtain ⟨t, h1, h2, h3, _⟩ := stages_spec a m U V (fun _ _ => True) hex
    (fun _ _ _ _ _ => trivial) (fun _ _ _ _ _ => trivial)
  obtain ⟨t', h4, h5, _⟩ := rounds_spec a hle hwf (List.range m.n) t
    (fun k hk => List.mem_range.1 hk) (between_of_early a m h2 h3)
  exact ⟨t', by unfold matching; rw [h1]; exact h4, h5.pairs⟩

/-! ### Exact arithmetic -/

section Exact

variable {G : Type} [AddCommGroup G] [LinearOrder G] [IsOrderedAddMonoid G]

omit [IsOrderedAddMonoid G] in
theorem rowMin_le {a : Arith G} (hx : Exact a) (m : Csr G) (U : Nat → G) : ∀ (l : List Nat) (v : G),
    rowMin a m U l v ≤ v ∧ ∀ q ∈ l, rowMin a m U l v ≤ m.val q - U (m.col q) := by
  intro l
  induction l with
  | nil => intro v; exact ⟨le_refl _, by simp⟩
  | cons q l ih =>
    intro v
    rw [rowMin]
    obtain ⟨h1, h2⟩ := ih (if a.lt (reducedU a m U q) v then reducedU a m U q else v)
    have hr : reducedU a m U q = m.val q - U (m.col q) := hx.sub _ _
    have hle : (if a.lt (reducedU a m U q) v then reducedU a m U q else v) ≤ v ∧
        (if a.lt (reducedU a m U q) v then reducedU a m U q else v) ≤ m.val q - U (m.col q) := by
      split
      · rename_i hb
        exact ⟨le_of_lt ((hx.lt _ _).1 hb), le_of_eq hr⟩
      · rename_i hb
        refine ⟨le_refl _, ?_⟩
        rw [← hr]
        exact not_lt.1 fun hh => hb ((hx.lt _ _).2 hh)
    refine ⟨le_trans h1 hle.1, ?_⟩
    intro p hp
    rcases List.mem_cons.1 hp with e | hp
    · rw [e]; exact le_trans h1 hle.2
    · exact h2 p hp

omit [IsOrderedAddMonoid G] in
theorem columnMax_ge {a : Arith G} (hx : Exact a) (m : Csr G) : ∀ (l : List Nat) (c : Nat → G),
    (∀ j, c j ≤ columnMax a m l c j) ∧ ∀ q ∈ l, m.val q ≤ columnMax a m l c (m.col q) := by
  intro l
  induction l with
  | nil => intro c; exact ⟨fun _ => le_refl _, by simp⟩
  | cons q l ih =>
    intro c
    rw [columnMax]
    obtain ⟨h1, h2⟩ := ih (if a.lt (c (m.col q)) (m.val q) then put c (m.col q) (m.val q) else c)
    have hle : (∀ j, c j ≤ (if a.lt (c (m.col q)) (m.val q) then put c (m.col q) (m.val q) else c) j) ∧
        m.val q ≤ (if a.lt (c (m.col q)) (m.val q) then put c (m.col q) (m.val q) else c) (m.col q) := by
      split
      · rename_i hb
        refine ⟨?_, ?_⟩
        · intro j
          rw [put_apply]
          split
          · rename_i e; rw [e]; exact le_of_lt ((hx.lt _ _).1 hb)
          · exact le_refl _
        · rw [put_eq]
      · rename_i hb
        exact ⟨fun _ => le_refl _, not_lt.1 fun hh => hb ((hx.lt _ _).2 hh)⟩
    refine ⟨fun j => le_trans (hle.1 j) (h1 j), ?_⟩
    intro p hp
    rcases List.mem_cons.1 hp with e | hp
    · rw [e]; exact le_trans hle.2 (h1 _)
    · exact h2 p hp

/-- Largest absolute value of a column. -/
def colMax (a : Arith G) (n : Nat) (A : Nat → List (Nat × G)) : Nat → G :=
  columnMax a (absolute a n A) (List.range ((absolute a n A).adr n)) fun _ => a.zero

omit [IsOrderedAddMonoid G] in
theorem row_lt_all {a : Arith G} {n : Nat} {A : Nat → List (Nat × G)} {k q : Nat} (hk : k < n)
    (hq : q ∈ (absolute a n A).row k) : q ∈ List.range ((absolute a n A).adr n) := by
  obtain ⟨rest, hrest⟩ := entries_prefix a n A (show k + 1 ≤ n by omega)
  have hl := congrArg List.length hrest
  rw [List.length_append] at hl
  simp only [Csr.row, absolute, List.mem_range'_1] at hq
  rw [List.mem_range]
  simp only [absolute]
  omega

/-- The cost of an entry that is not zero. -/
theorem cost_eq {a : Arith G} (hx : Exact a) {n : Nat} {A : Nat → List (Nat × G)}
    (hnz : ∀ r c v, r < n → c < n → (c, v) ∈ A r → v ≠ 0) {k q : Nat} (hk : k < n)
    (hq : q ∈ (costMatrix a n A).row k) : ∃ v, ((costMatrix a n A).col q, v) ∈ A k ∧
      (costMatrix a n A).val q = a.log (colMax a n A ((costMatrix a n A).col q)) - a.log |v| := by
  rw [costMatrix_row] at hq
  have h1 := (row_entry a hk _ _).1 ⟨q, hq, rfl, rfl⟩
  obtain ⟨hc, v, hv, hw⟩ := (mem_localRow a).1 h1
  refine ⟨v, hv, ?_⟩
  rw [hx.abs] at hw
  have hv0 := hnz k _ v hk hc hv
  have hpos : 0 < (absolute a n A).val q := by rw [hw]; exact abs_pos.2 hv0
  have hmax := (columnMax_ge hx (absolute a n A) (List.range ((absolute a n A).adr n))
    (fun _ => a.zero)).2 q (row_lt_all hk hq)
  have hmaxpos : 0 < colMax a n A ((absolute a n A).col q) := lt_of_lt_of_le hpos hmax
  show costOf a (colMax a n A ((absolute a n A).col q)) ((absolute a n A).val q) = _
  unfold costOf
  have e1 : a.isZero (colMax a n A ((absolute a n A).col q)) = false := by
    cases h : a.isZero (colMax a n A ((absolute a n A).col q)) with
    | false => rfl
    | true => exact absurd ((hx.isZero _).1 h) (ne_of_gt hmaxpos)
  have e2 : a.isZero ((absolute a n A).val q) = false := by
    cases h : a.isZero ((absolute a n A).val q) with
    | false => rfl
    | true => exact absurd ((hx.isZero _).1 h) (ne_of_gt hpos)
  rw [e1, e2]
  simp only [Bool.or_false, Bool.false_eq_true, if_false]
  rw [hx.sub, hw]
  rfl

/-- The state after the first two stages. -/
theorem stages_opt {a : Arith G} (hx : Exact a) {m : Csr G} (hwf : WfCsr m)
    {U V : Nat → G} (hV : ∀ k, k < m.n → ∀ q ∈ m.row k, V k ≤ m.val q - U (m.col q))
    (htiny : 0 < a.tiny)
    (hz : ∀ k, k < m.n → ∀ q ∈ m.row k, |m.val q - V k - U (m.col q)| ≤ a.tiny →
      m.val q - V k - U (m.col q) = 0) :
    ∃ s, stepAll a m (List.range m.n) (matchAll a m (List.range m.n) (start a m.n U V)) = some s ∧
      Opt a m s ∧ s.U = U ∧ s.V = V := by
  have hgap : ∀ k q, gap a m (start a m.n U V) k q = |m.val q - V k - U (m.col q)| := by
    intro k q
    unfold gap
    rw [hx.abs, hx.sub, hx.sub]; rfl
  have hle : ∀ k, k < m.n → ∀ q ∈ m.row k, a.le (gap a m (start a m.n U V) k q) a.tiny = true →
      rc m (start a m.n U V) k q = 0 := by
    intro k hk q hq h
    rw [hgap] at h
    exact hz k hk q hq ((hx.le _ _).1 h)
  obtain ⟨s, h1, h2, h3, h4⟩ := stages_spec a m U V (fun r q => rc m (start a m.n U V) r q = 0)
    (by
      intro k hk q hq h
      have := hle k hk q hq h
      rw [hgap]
      rw [show m.val q - V k - U (m.col q) = 0 from this, abs_zero]
      exact (hx.lt _ _).2 htiny)
    hle
    (by
      intro k hk q hq h
      refine hle k hk q hq ((hx.le _ _).2 (le_of_lt ((hx.lt _ _).1 h))))
  have hrc : ∀ r q, rc m s r q = rc m (start a m.n U V) r q := by
    intro r q; unfold rc; rw [h3.U, h3.V]
  refine ⟨s, h1, ⟨between_of_early a m h2 h3, ?_, ?_, ?_, ?_⟩, h3.U, h3.V⟩
  · intro c; rw [h3.colList]; rfl
  · intro c; rw [h3.heap]; rfl
  · intro r hr q hq
    rw [hrc]
    show 0 ≤ m.val q - V r - U (m.col q)
    have := hV r hr q hq
    rw [show m.val q - V r - U (m.col q) = m.val q - U (m.col q) - V r by abel]
    exact sub_nonneg.2 this
  · intro r q hq _
    rw [hrc]; exact h4 r q hq

/-- Everything the matching knows at the end. -/
theorem matching_opt {a : Arith G} (hx : Exact a) (hmax : 0 ≤ a.max) {m : Csr G} (hwf : WfCsr m)
    {U V : Nat → G} (hV : ∀ k, k < m.n → ∀ q ∈ m.row k, V k ≤ m.val q - U (m.col q))
    (htiny : 0 < a.tiny)
    (hz : ∀ k, k < m.n → ∀ q ∈ m.row k, |m.val q - V k - U (m.col q)| ≤ a.tiny →
      m.val q - V k - U (m.col q) = 0) {t : St G} (ht : matching a m U V = some t)
    (hall : ∀ k, k < m.n → (t.iperm k).isSome) : Opt a m t := by
  obtain ⟨s, h1, h2, _⟩ := stages_opt hx hwf hV htiny hz
  unfold matching at ht
  rw [h1] at ht
  exact rounds_opt hx hmax hwf (List.range m.n) s t (fun k hk => List.mem_range.1 hk)
    List.nodup_range h2 ht (fun k hk => hall k (List.mem_range.1 hk))

omit [LinearOrder G] [IsOrderedAddMonoid G] in
theorem sum_perm (f : Nat → G) {n : Nat} {σ : Nat → Nat} (h1 : ∀ c, c < n → σ c < n)
    (h2 : ∀ c d, c < n → d < n → σ c = σ d → c = d) :
    ∑ c ∈ Finset.range n, f (σ c) = ∑ r ∈ Finset.range n, f r := by
  have hinj : Set.InjOn σ (Finset.range n) := by
    intro c hc d hd e
    exact h2 c d (by simpa using hc) (by simpa using hd) e
  have himg : (Finset.range n).image σ = Finset.range n := by
    apply Finset.eq_of_subset_of_card_le
    · intro x hx'
      obtain ⟨c, hc, e⟩ := Finset.mem_image.1 hx'
      rw [← e]
      exact Finset.mem_range.2 (h1 c (Finset.mem_range.1 hc))
    · rw [Finset.card_image_of_injOn hinj]
  rw [← Finset.sum_image hinj, himg]

end Exact

end Verif.Matching
