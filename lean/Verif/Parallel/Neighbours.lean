import Mathlib.Data.List.Perm.Basic
import Mathlib.Data.List.Sort
import Mathlib.Order.Basic
import Mathlib.Algebra.Order.Ring.Int

/-!
# The list of neighbouring processes (C144)

Models `Mesh::ComputeSharedProcs`, `/repo/Source/Mesh/parallel.cpp` L2743-2789 (from the lists of exchange) and L2791-2855 (from the processors of the
elements), on one process. With OpenMP the iterations of the loop are distributed over threads, and the threads add their sets one after another in any
order (L2816-2820). `none` is `exit(-1)`.

Simplifications: `std::set<int>` is a list in increasing order; the reports are left out.
-/

namespace Verif.Parallel.Neighbours

/-- `std::set::insert` of one number -/
def insert (p : Int) : List Int → List Int
  | [] => [p]
  | q :: r => if p < q then p :: q :: r else if q < p then q :: insert p r else q :: r

/-- `std::set::insert` of a range -/
def insertAll (ps : List Int) (s : List Int) : List Int := ps.foldl (fun s p => insert p s) s

/-- An element: its type and the processors that have it. -/
structure El where
  etype : Nat
  procs : List Int

/-- L2826-2844 and L2754-2774: the own rank is taken out, the list is the answer unless it has -1. -/
def finish (rank : Int) (s : List Int) : Option (List Int) :=
  let s' := s.filter (· ≠ rank)
  if (-1 : Int) ∈ s' then none else some s'

/-- One thread, L2805-2814: the set of processors of its elements. -/
def thread (els : List El) : List Int := els.foldl (fun s e => insertAll e.procs s) []

/-- One type of elements, L2803-2821: the sets of the threads are added in the order `parts`. -/
def oneType (parts : List (List El)) (s : List Int) : List Int := parts.foldl (fun s els => insertAll (thread els) s) s

/-- `ComputeSharedProcs(mask)`, L2791-2855: for types NODE, EDGE, FACE, CELL, ESET (bits 1, 2, 4, 8, 16; `NextElementType` shifts, inmost_data.h L41)
in `mask`; `parts t`: the elements of type `t` as they are distributed over the threads. -/
def sharedProcs (rank : Int) (mask : Nat) (parts : Nat → List (List El)) : Option (List Int) :=
  finish rank ([1, 2, 4, 8, 16].foldl (fun s t => if t &&& mask ≠ 0 then oneType (parts t) s else s) [])

/-- `ComputeSharedProcs(from,to)`, L2743-2789: the processors of the lists of exchange. -/
def sharedProcsOf (rank : Int) (from_ to_ : List Int) : Option (List Int) := finish rank (insertAll to_ (insertAll from_ []))

/-! ## Lemmas -/

theorem mem_insert {p x : Int} : ∀ {s : List Int}, x ∈ insert p s ↔ x = p ∨ x ∈ s
  | [] => by simp [insert]
  | q :: r => by
    unfold insert
    split
    · simp
    · split
      · simp only [List.mem_cons, mem_insert (s := r)]; tauto
      · have : p = q := by omega
        subst this; simp

theorem insert_sorted {p : Int} : ∀ {s : List Int}, s.Pairwise (· < ·) → (insert p s).Pairwise (· < ·)
  | [], _ => by simp [insert]
  | q :: r, h => by
    have h' := List.pairwise_cons.1 h
    unfold insert
    split
    · rename_i hpq
      exact List.pairwise_cons.2 ⟨fun x hx => by
        rcases List.mem_cons.1 hx with rfl | hx
        · exact hpq
        · exact lt_trans hpq (h'.1 x hx), h⟩
    · split
      · rename_i hqp
        exact List.pairwise_cons.2 ⟨fun x hx => by
          rcases mem_insert.1 hx with rfl | hx
          · exact hqp
          · exact h'.1 x hx, insert_sorted h'.2⟩
      · exact h

theorem insertAll_spec (ps : List Int) : ∀ s, (∀ x, x ∈ insertAll ps s ↔ x ∈ ps ∨ x ∈ s) ∧
    (s.Pairwise (· < ·) → (insertAll ps s).Pairwise (· < ·)) := by
  induction ps with
  | nil => intro s; simp [insertAll]
  | cons p r ih =>
    intro s
    have := ih (insert p s)
    refine ⟨fun x => ?_, fun h => this.2 (insert_sorted h)⟩
    have h := this.1 x
    rw [mem_insert] at h
    simp only [List.mem_cons]
    show x ∈ insertAll r (insert p s) ↔ _
    rw [h]; tauto

theorem thread_mem (els : List El) (x : Int) : x ∈ thread els ↔ ∃ e ∈ els, x ∈ e.procs := by
  have : ∀ (l : List El) (s : List Int), x ∈ l.foldl (fun s e => insertAll e.procs s) s ↔ (∃ e ∈ l, x ∈ e.procs) ∨ x ∈ s := by
    intro l
    induction l with
    | nil => intro s; simp
    | cons a r ih =>
      intro s
      simp only [List.foldl_cons, ih, (insertAll_spec _ _).1, List.mem_cons, exists_eq_or_imp]
      rw [or_assoc]; exact or_left_comm
  simpa [thread] using this els []

theorem oneType_spec (parts : List (List El)) : ∀ s, (∀ x, x ∈ oneType parts s ↔ (∃ e ∈ parts.flatten, x ∈ e.procs) ∨ x ∈ s) ∧
    (s.Pairwise (· < ·) → (oneType parts s).Pairwise (· < ·)) := by
  induction parts with
  | nil => intro s; simp [oneType]
  | cons a r ih =>
    intro s
    have := ih (insertAll (thread a) s)
    refine ⟨fun x => ?_, fun h => this.2 ((insertAll_spec _ _).2 h)⟩
    have h := this.1 x
    rw [(insertAll_spec _ _).1, thread_mem] at h
    show x ∈ oneType r (insertAll (thread a) s) ↔ _
    rw [h]
    simp only [List.flatten_cons, List.mem_append, or_and_right, exists_or]
    rw [or_assoc]; exact or_left_comm

theorem types_spec (mask : Nat) (parts : Nat → List (List El)) : ∀ (l : List Nat) (s : List Int),
    (∀ x, x ∈ l.foldl (fun s t => if t &&& mask ≠ 0 then oneType (parts t) s else s) s ↔
      (∃ t ∈ l, t &&& mask ≠ 0 ∧ ∃ e ∈ (parts t).flatten, x ∈ e.procs) ∨ x ∈ s) ∧
    (s.Pairwise (· < ·) → (l.foldl (fun s t => if t &&& mask ≠ 0 then oneType (parts t) s else s) s).Pairwise (· < ·)) := by
  intro l
  induction l with
  | nil => intro s; simp
  | cons t r ih =>
    intro s
    simp only [List.foldl_cons]
    by_cases hm : t &&& mask ≠ 0
    · rw [if_pos hm]
      refine ⟨fun x => ?_, fun h => (ih _).2 ((oneType_spec _ _).2 h)⟩
      rw [(ih _).1, (oneType_spec _ _).1]
      simp only [List.mem_cons, exists_eq_or_imp, hm, true_and, ne_eq, not_false_eq_true]
      rw [or_assoc]; exact or_left_comm
    · rw [if_neg hm]
      refine ⟨fun x => ?_, fun h => (ih _).2 h⟩
      rw [(ih _).1]
      simp only [List.mem_cons, exists_eq_or_imp, hm, false_and, false_or]

/-! ## The property -/

/-- The elements of one process. `parts` is a distribution of them over threads: each element of each type is in one part, in any order. -/
def Distributes (els : List El) (parts : Nat → List (List El)) : Prop :=
  ∀ t, (parts t).flatten.Perm (els.filter fun e => e.etype = t)

/-- The types of elements of a mesh. -/
def ValidTypes (els : List El) : Prop := ∀ e ∈ els, e.etype ∈ [1, 2, 4, 8, 16]

/-- Process `p` is named by an element of a type in `mask`. -/
def Names (els : List El) (mask : Nat) (p : Int) : Prop := ∃ e ∈ els, e.etype &&& mask ≠ 0 ∧ p ∈ e.procs

theorem names_iff {els : List El} {parts : Nat → List (List El)} (hv : ValidTypes els) (hp : Distributes els parts) (mask : Nat) (x : Int) :
    (∃ t ∈ [1, 2, 4, 8, 16], t &&& mask ≠ 0 ∧ ∃ e ∈ (parts t).flatten, x ∈ e.procs) ↔ Names els mask x := by
  constructor
  · rintro ⟨t, -, hm, e, he, hx⟩
    have := (hp t).mem_iff.1 he
    simp only [List.mem_filter, decide_eq_true_eq] at this
    exact ⟨e, this.1, this.2 ▸ hm, hx⟩
  · rintro ⟨e, he, hm, hx⟩
    exact ⟨e.etype, hv e he, hm, e, (hp _).mem_iff.2 (by simp [he]), hx⟩

/-- **C144**: for every distribution of the loop over threads and every order of their ends, the answer is the increasing list, without repetitions, of
exactly the other processes named by elements of the types in the mask; the program stops if and only if an element names the process -1. -/
theorem C144_neighbours (rank : Int) (hr : 0 ≤ rank) (mask : Nat) (els : List El) (parts : Nat → List (List El)) (hv : ValidTypes els)
    (hp : Distributes els parts) :
    (Names els mask (-1) → sharedProcs rank mask parts = none) ∧
    (¬ Names els mask (-1) → ∃ l, sharedProcs rank mask parts = some l ∧ l.Pairwise (· < ·) ∧
      ∀ p, p ∈ l ↔ p ≠ rank ∧ Names els mask p) := by
  obtain ⟨h1, h2⟩ := types_spec mask parts [1, 2, 4, 8, 16] []
  have h1' : ∀ x, x ∈ [1, 2, 4, 8, 16].foldl (fun s t => if t &&& mask ≠ 0 then oneType (parts t) s else s) [] ↔ Names els mask x := by
    intro x; rw [h1, names_iff hv hp]; simp
  unfold sharedProcs finish
  constructor
  · intro h
    rw [if_pos]
    simp only [List.mem_filter, h1', h, true_and, decide_eq_true_eq]
    omega
  · intro h
    rw [if_neg (by simp only [List.mem_filter, h1', h, false_and, not_false_eq_true])]
    refine ⟨_, rfl, (h2 List.Pairwise.nil).filter _, fun p => ?_⟩
    simp only [List.mem_filter, h1', decide_eq_true_eq]
    tauto

/-- **C144**: the answer does not depend on threads. -/
theorem C144_deterministic (rank : Int) (hr : 0 ≤ rank) (mask : Nat) (els : List El) (parts parts' : Nat → List (List El))
    (hv : ValidTypes els) (hp : Distributes els parts) (hp' : Distributes els parts') :
    sharedProcs rank mask parts = sharedProcs rank mask parts' := by
  obtain ⟨a1, a2⟩ := C144_neighbours rank hr mask els parts hv hp
  obtain ⟨b1, b2⟩ := C144_neighbours rank hr mask els parts' hv hp'
  by_cases h : Names els mask (-1)
  · rw [a1 h, b1 h]
  · obtain ⟨l, e1, s1, m1⟩ := a2 h
    obtain ⟨l', e2, s2, m2⟩ := b2 h
    rw [e1, e2]
    congr 1
    have n1 : l.Nodup := s1.imp fun h => ne_of_lt h
    have n2 : l'.Nodup := s2.imp fun h => ne_of_lt h
    exact List.Perm.eq_of_pairwise (fun a b _ _ h1 h2 => absurd h1 (lt_asymm h2)) s1 s2
      ((List.perm_ext_iff_of_nodup n1 n2).2 fun x => by rw [m1, m2])

/-- The processors of the elements agree: if a copy on process `p` names `q`, then `q` has elements too, with a copy of the same type that names `p`. -/
def Consistent (world : Int → List El) : Prop :=
  ∀ p, ∀ e ∈ world p, ∀ q ∈ e.procs, ∃ e' ∈ world q, e'.etype = e.etype ∧ p ∈ e'.procs

/-- **C144**: neighbours are mutual, so a process that waits for a message from a neighbour is a neighbour of it. -/
theorem C144_mutual (world : Int → List El) (hc : Consistent world) (mask : Nat) (p q : Int) (hp0 : 0 ≤ p) (hq0 : 0 ≤ q)
    (partsp partsq : Nat → List (List El)) (vp : ValidTypes (world p)) (vq : ValidTypes (world q))
    (dp : Distributes (world p) partsp) (dq : Distributes (world q) partsq) (lp lq : List Int)
    (hlp : sharedProcs p mask partsp = some lp) (hlq : sharedProcs q mask partsq = some lq) : q ∈ lp ↔ p ∈ lq := by
  have key : ∀ (p : Int), 0 ≤ p → ∀ parts l, ValidTypes (world p) → Distributes (world p) parts → sharedProcs p mask parts = some l →
      ∀ x, x ∈ l ↔ x ≠ p ∧ Names (world p) mask x := by
    intro p hp parts l v d h
    obtain ⟨h1, h2⟩ := C144_neighbours p hp mask (world p) parts v d
    by_cases hn : Names (world p) mask (-1)
    · rw [h1 hn] at h; cases h
    · obtain ⟨l', e, -, m⟩ := h2 hn
      rw [h] at e; cases e
      exact m
  have sym : ∀ p q, Names (world p) mask q → Names (world q) mask p := by
    rintro p q ⟨e, he, hm, hq⟩
    obtain ⟨e', he', ht, hp⟩ := hc p e he q hq
    exact ⟨e', he', ht ▸ hm, hp⟩
  rw [key p hp0 _ _ vp dp hlp, key q hq0 _ _ vq dq hlq]
  exact ⟨fun h => ⟨fun e => h.1 e.symm, sym _ _ h.2⟩, fun h => ⟨fun e => h.1 e.symm, sym _ _ h.2⟩⟩

/-- **C144**: from the lists of exchange. -/
theorem C144_exchange (rank : Int) (hr : 0 ≤ rank) (from_ to_ : List Int) :
    ((-1 : Int) ∈ from_ ∨ (-1 : Int) ∈ to_ → sharedProcsOf rank from_ to_ = none) ∧
    (¬ ((-1 : Int) ∈ from_ ∨ (-1 : Int) ∈ to_) → ∃ l, sharedProcsOf rank from_ to_ = some l ∧ l.Pairwise (· < ·) ∧
      ∀ p, p ∈ l ↔ p ≠ rank ∧ (p ∈ from_ ∨ p ∈ to_)) := by
  have hm : ∀ x, x ∈ insertAll to_ (insertAll from_ []) ↔ x ∈ from_ ∨ x ∈ to_ := by
    intro x; rw [(insertAll_spec _ _).1, (insertAll_spec _ _).1]; simp; tauto
  have hs : (insertAll to_ (insertAll from_ [])).Pairwise (· < ·) :=
    (insertAll_spec _ _).2 ((insertAll_spec _ _).2 List.Pairwise.nil)
  unfold sharedProcsOf finish
  constructor
  · intro h
    rw [if_pos]
    simp only [List.mem_filter, hm, h, true_and, decide_eq_true_eq]
    omega
  · intro h
    rw [if_neg (by simp only [List.mem_filter, hm, h, false_and, not_false_eq_true])]
    refine ⟨_, rfl, hs.filter _, fun p => ?_⟩
    simp only [List.mem_filter, hm, decide_eq_true_eq]
    tauto

/-- Process 1 with cells and faces on processes 0, 1, 2, 3; two threads for the cells. -/
def demoEls : List El := [⟨8, [1, 3]⟩, ⟨8, [0, 1]⟩, ⟨4, [1, 2]⟩]

def demoParts : Nat → List (List El) := fun t => if t = 8 then [[⟨8, [0, 1]⟩], [⟨8, [1, 3]⟩]] else if t = 4 then [[⟨4, [1, 2]⟩], []] else []

example : ValidTypes demoEls ∧ Distributes demoEls demoParts ∧ ¬ Names demoEls 8 (-1) ∧ sharedProcs 1 8 demoParts = some [0, 3] ∧
    sharedProcs 1 12 demoParts = some [0, 2, 3] ∧ sharedProcsOf 1 [2, 0] [1, 0] = some [0, 2] := by
  refine ⟨by simp [ValidTypes, demoEls], fun t => ?_, by simp [Names, demoEls], by decide +kernel, by decide +kernel, by decide +kernel⟩
  by_cases h8 : t = 8
  · subst h8; simp [demoParts, demoEls]; exact List.Perm.swap _ _ _
  · by_cases h4 : t = 4
    · subst h4; simp [demoParts, demoEls]
    · have h8' : ¬ 8 = t := fun h => h8 h.symm
      have h4' : ¬ 4 = t := fun h => h4 h.symm
      simp [demoParts, demoEls, h8, h4, h8', h4']

/-- Two processes that share a cell. -/
example : Consistent (fun p => if p = 0 ∨ p = 1 then [⟨8, [0, 1]⟩] else []) := by
  intro p e he q hq
  by_cases hp : p = 0 ∨ p = 1
  · simp only [hp, if_true, List.mem_singleton] at he
    subst he
    have hq' : q = 0 ∨ q = 1 := by simpa using hq
    refine ⟨⟨8, [0, 1]⟩, by simp [hq'], rfl, by simpa using hp⟩
  · simp [hp] at he

end Verif.Parallel.Neighbours
