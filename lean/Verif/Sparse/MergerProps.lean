import Verif.Sparse.MergerLemmas
import Mathlib.Algebra.Ring.Int.Defs

/-!
# C26: `RowMerger` accumulates linear combinations of rows
-/

namespace Verif.Sparse

variable {K : Type} [CommRing K] [DecidableEq K]

/-- **C26.**  Every admissible history of an accumulator is executed without a failed assertion, an access out
of range or an endless loop, and `RetrieveRow` then gives a row with one nonzero entry per column, whose value
in each column, inside the interval or not, is the accumulated linear combination. -/
theorem C26_accumulate (ibeg iend : Nat) (sorted : Bool) (hi : ibeg ≤ iend ∧ iend < EOL)
    (ops : List (MOp K)) (ha : Admissible sorted true ops) :
    ∃ m row, mrun (Merger.init ibeg iend sorted) ops = some m ∧ m.retrieve = some row ∧
      Distinct row ∧ (∀ e ∈ row, e.2 ≠ 0) ∧
      ∀ c, getSafe row c = ops.foldl accumulate (fun _ => 0) c := by
  obtain ⟨m, L, h1, h2, h3⟩ := mrun_spec ops (Merger.init ibeg iend sorted) sorted true (fun _ => 0)
    ⟨rfl, ⟨[], init_inv ibeg iend sorted hi.1 hi.2, fun _ => ⟨rfl, init_sem ibeg iend sorted⟩⟩,
      init_sem ibeg iend sorted⟩ ha
  obtain ⟨row, g1, g2, g3, g4, _⟩ := retrieve_spec h2
  exact ⟨m, row, h1, g1, g2, g3, fun c => by rw [g4, h3]⟩

/-- **C26, `Clear`.**  After any admissible history, `Clear` gives the state of a newly constructed
accumulator with the current interval and mode. -/
theorem C26_clear (ibeg iend : Nat) (sorted : Bool) (hi : ibeg ≤ iend ∧ iend < EOL)
    (ops : List (MOp K)) (ha : Admissible sorted true ops) (m : Merger K)
    (hm : mrun (Merger.init ibeg iend sorted) ops = some m) :
    m.clear = some (Merger.init m.ibeg m.iend m.sorted) := by
  obtain ⟨m', L, h1, h2, _⟩ := mrun_spec ops (Merger.init ibeg iend sorted) sorted true (fun _ => 0)
    ⟨rfl, ⟨[], init_inv ibeg iend sorted hi.1 hi.2, fun _ => ⟨rfl, init_sem ibeg iend sorted⟩⟩,
      init_sem ibeg iend sorted⟩ ha
  rw [hm] at h1; injection h1 with h1; subst h1
  exact clear_spec h2

/-- **C26, reading.**  The constant `operator[]` returns the accumulated value, or throws, and it throws
only in columns where the accumulated value is zero. -/
theorem C26_read (ibeg iend : Nat) (sorted : Bool) (hi : ibeg ≤ iend ∧ iend < EOL)
    (ops : List (MOp K)) (ha : Admissible sorted true ops) (m : Merger K)
    (hm : mrun (Merger.init ibeg iend sorted) ops = some m) (c : Nat) :
    (m.read c).getD 0 = ops.foldl accumulate (fun _ => 0) c := by
  obtain ⟨m', L, h1, h2, h3⟩ := mrun_spec ops (Merger.init ibeg iend sorted) sorted true (fun _ => 0)
    ⟨rfl, ⟨[], init_inv ibeg iend sorted hi.1 hi.2, fun _ => ⟨rfl, init_sem ibeg iend sorted⟩⟩,
      init_sem ibeg iend sorted⟩ ha
  rw [hm] at h1; injection h1 with h1; subst h1
  rw [← h3]
  unfold Merger.read Merger.sem
  by_cases hc : m.isLocal c = true
  · rw [if_pos hc, if_pos hc]
    by_cases hl : c + 1 ∈ L
    · rw [if_pos ((h2.mem_iff c hc).2 hl)]; rfl
    · rw [if_neg (fun e => hl ((h2.mem_iff c hc).1 e)), h2.zero _ hl]; rfl
  · rw [if_neg hc, if_neg hc]
    generalize m.nonlocal = r
    induction r with
    | nil => rfl
    | cons e r ih =>
      obtain ⟨i, v⟩ := e
      by_cases hi : i = c
      · subst hi; simp [getSafe]
      · rw [List.find?_cons_of_neg (by simpa using hi), ih, getSafe, if_neg hi]

/-- **C26, order.**  In sorted mode, if no column below the interval is used, the retrieved row has strictly
increasing columns. -/
theorem C26_sorted_partial (ibeg iend : Nat) (hi : ibeg ≤ iend ∧ iend < EOL)
    (ops : List (MOp K)) (ha : Admissible true true ops) (hr : ∀ b e s, MOp.resize b e s ∉ ops)
    (hc : ∀ c ∈ mentioned ops, ibeg ≤ c) (m : Merger K) (row : Row K)
    (hm : mrun (Merger.init ibeg iend true) ops = some m) (hrow : m.retrieve = some row) :
    StrictlySorted row := by
  obtain ⟨m', L, h1, h2, h3⟩ := mrun_spec ops (Merger.init ibeg iend true) true true (fun _ => 0)
    ⟨rfl, ⟨[], init_inv ibeg iend true hi.1 hi.2, fun _ => ⟨rfl, init_sem ibeg iend true⟩⟩,
      init_sem ibeg iend true⟩ ha
  rw [hm] at h1; injection h1 with h1; subst h1
  obtain ⟨t1, t2, t3, t4⟩ := tracks_run ops _ _ hr hm
  obtain ⟨row', g1, _, _, _, g5⟩ := retrieve_spec h2
  rw [hrow] at g1; injection g1 with g1; subst g1
  apply g5 t3
  intro c hcm
  have hl := h2.nlo c hcm
  have hcb : ibeg ≤ c := by
    rcases t4 c hcm with h | h
    · simp [Merger.init, HasColumn] at h
    · exact hc c h
  have t1' : m.ibeg = ibeg := t1
  have : ¬ (m.ibeg ≤ c ∧ c < m.iend) := fun hh => by rw [(isLocal_iff m c).2 hh] at hl; cases hl
  omega

/-- A sorted accumulator with columns below its interval does not give a sorted row: they are stored after
the columns of the interval. -/
theorem C26_sorted_fails :
    ((mrun (Merger.init 5 10 true : Merger Int) [.push 1 [(2, 7), (6, 8)]]).bind (·.retrieve)) =
      some [(6, 8), (2, 7)] := by decide

/-- Pushing a row with a repeated column into an accumulator that is not sorted loses entries: the list is cut
behind the second occurrence. -/
theorem C26_push_repeated_fails :
    ((mrun (Merger.init 0 10 false : Merger Int) [.push 1 [(2, 7), (3, 1), (2, 5)]]).bind (·.retrieve)) =
      some [(2, 5)] ∧
    colVal ([(2, 7), (3, 1), (2, 5)] : Row Int) 2 = 12 ∧
    colVal ([(2, 7), (3, 1), (2, 5)] : Row Int) 3 = 1 := by decide

/-- Non-vacuity of C26: a history with all operations, columns inside and outside of the interval. -/
example :
    (Admissible true true ([.push 2 [(1, 3), (4, 1), (9, 5)], .access 6 (· + 4), .add (-1) [(1, 6), (2, 1), (12, 3)],
      .multiply 10, .access 9 (fun _ => 1)] : List (MOp Int))) ∧
    ((mrun (Merger.init 1 8 true : Merger Int) [.push 2 [(1, 3), (4, 1), (9, 5)], .access 6 (· + 4),
      .add (-1) [(1, 6), (2, 1), (12, 3)], .multiply 10, .access 9 (fun _ => 1)]).bind (·.retrieve)) =
      some [(2, -10), (4, 20), (6, 40), (9, 1), (12, -30)] := by
  refine ⟨?_, by decide⟩
  simp [Admissible, Distinct, StrictlySorted]

end Verif.Sparse
