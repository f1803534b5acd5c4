import Mathlib.Algebra.BigOperators.Group.List.Basic
import Mathlib.Data.List.Perm.Basic
import Mathlib.Tactic.Linarith
import Mathlib.Order.Lattice

/-!
# Sums, extrema and numbers over all processes: model and properties (C142)

Models `/repo/Source/Mesh/parallel.cpp` L769-791, L876-1190: `SynchronizeElementType`, `TotalNumberOf`, `Integrate`, `ExclusiveSum`, `AggregateMax`, `AggregateMin`.
`MPI_Allreduce` and `MPI_Scan` are taken as specified by MPI. Sums are exact (no rounding, no overflow of integers);
`enumerator` is arithmetic modulo 2^32.
-/

namespace Verif.Parallel.Reduce

/-- `MPI_Allreduce` with an operation: every process gets the combination of all inputs. -/
def allreduce {R : Type} (op : R → R → R) : List R → List R
  | [] => []
  | x :: r => (x :: r).map fun _ => r.foldl op x

/-- `MPI_Scan` with the sum: process `k` gets the sum of the inputs of processes `0..k`. -/
def scan {R : Type} [Add R] (acc : R) : List R → List R
  | [] => []
  | x :: r => (acc + x) :: scan (acc + x) r

/-- `Mesh::Integrate` of a number on every process, L876-914 -/
def integrate {R : Type} [Add R] (inputs : List R) : List R := allreduce (· + ·) inputs

/-- `Mesh::AggregateMax`, L1013-1050 -/
def aggregateMax {R : Type} [Max R] (inputs : List R) : List R := allreduce max inputs

/-- `Mesh::AggregateMin`, L1103-1140 -/
def aggregateMin {R : Type} [Min R] (inputs : List R) : List R := allreduce min inputs

/-- `Mesh::ExclusiveSum`, L967-993: the scan less the own input -/
def exclusiveSum {R : Type} [Add R] [Sub R] [Zero R] (inputs : List R) : List R :=
  List.zipWith (fun output input => output - input) (scan 0 inputs) inputs

inductive Status where
  | owned | shared | ghost | any
  deriving DecidableEq

/-- A copy of an element on a process: which element of the whole mesh it is, its type (one bit), its status, its values
of the tag (`none`: no data). -/
structure Copy (R : Type) where
  gid : Nat
  etype : Nat
  status : Status
  data : Option (List R)

/-- `if( arr.size() > entry ) input += arr[entry]`, L1003, for a copy that passes the tests of L999-1000 -/
def term {R : Type} [Zero R] (entry mask : Nat) (c : Copy R) : R :=
  if c.etype &&& mask ≠ 0 ∧ c.status ≠ .ghost then
    match c.data with
    | none => 0
    | some arr => if entry < arr.length then arr.getD entry 0 else 0
  else 0

/-- The loop of L999-1004 on one process -/
def localSum {R : Type} [Zero R] [Add R] (entry mask : Nat) (els : List (Copy R)) : R :=
  els.foldl (fun input c => input + term entry mask c) 0

/-- `Mesh::Integrate(tag, entry, mask)`, L995-1011, on all processes -/
def integrateTag {R : Type} [Zero R] [Add R] (entry mask : Nat) (procs : List (List (Copy R))) : List R :=
  allreduce (· + ·) (procs.map (localSum entry mask))

/-- `Mesh::TotalNumberOf`, L779-791, on all processes -/
def totalNumberOf {R : Type} (mask : Nat) (procs : List (List (Copy R))) : List Nat :=
  allreduce (· + ·) (procs.map fun els => els.foldl
    (fun number c => if c.etype &&& mask ≠ 0 then (if c.status ≠ .ghost then number + 1 else number) else number) 0)

/-- `Mesh::SynchronizeElementType`, L769-778 -/
def synchronizeElementType (masks : List Nat) : List Nat := allreduce (· ||| ·) masks

/-! ## specification -/

/-- The distributed mesh: `G` lists the elements of the whole mesh, `etype` and `val` their types and values. Every
element has exactly one copy that is not a ghost, and this copy has its type and values. -/
structure Distributed {R : Type} (G : List Nat) (etype : Nat → Nat) (val : Nat → Option (List R))
    (procs : List (List (Copy R))) : Prop where
  once : ((procs.flatten.filter fun c => c.status ≠ .ghost).map Copy.gid).Perm G
  same : ∀ c ∈ procs.flatten, c.status ≠ .ghost → c.etype = etype c.gid ∧ c.data = val c.gid

/-- What element `g` contributes: its component `entry`, if it has one and is of the types asked for. -/
def contribution {R : Type} [Zero R] (entry mask : Nat) (etype : Nat → Nat) (val : Nat → Option (List R)) (g : Nat) : R :=
  if etype g &&& mask = 0 then 0
  else
    match val g with
    | none => 0
    | some l => (l[entry]?).getD 0

/-! ## helpers -/

theorem foldl_add {R : Type} [AddCommMonoid R] (l : List R) (x : R) : l.foldl (· + ·) x = x + l.sum := by
  induction l generalizing x with
  | nil => simp
  | cons a r ih => simp only [List.foldl_cons, List.sum_cons, ih, add_assoc]

theorem localSum_eq {R : Type} [AddCommMonoid R] (entry mask : Nat) (els : List (Copy R)) :
    localSum entry mask els = (els.map (term entry mask)).sum := by
  have : ∀ (l : List (Copy R)) (x : R),
      l.foldl (fun input c => input + term entry mask c) x = x + (l.map (term entry mask)).sum := by
    intro l
    induction l with
    | nil => intro x; simp
    | cons a r ih => intro x; simp only [List.foldl_cons, List.map_cons, List.sum_cons, ih, add_assoc]
  simp [localSum, this]

theorem allreduce_sum {R : Type} [AddCommMonoid R] (l : List R) : allreduce (· + ·) l = List.replicate l.length l.sum := by
  cases l with
  | nil => rfl
  | cons x r =>
    simp only [allreduce, foldl_add, List.sum_cons]
    exact List.map_const' ..

theorem sum_filter {R : Type} [AddCommMonoid R] (entry mask : Nat) (l : List (Copy R)) :
    (l.map (term entry mask)).sum = ((l.filter fun c => c.status ≠ .ghost).map (term entry mask)).sum := by
  induction l with
  | nil => rfl
  | cons a r ih =>
    by_cases c : a.status = .ghost
    · rw [List.filter_cons_of_neg (by simp [c])]
      simp [term, c, ih]
    · rw [List.filter_cons_of_pos (by simp [c])]
      simp [ih]

theorem sum_procs {R : Type} [AddCommMonoid R] (entry mask : Nat) (procs : List (List (Copy R))) :
    (procs.map (localSum entry mask)).sum = (procs.flatten.map (term entry mask)).sum := by
  induction procs with
  | nil => rfl
  | cons a r ih => simp [ih, localSum_eq]

theorem foldl_ge {R : Type} [LinearOrder R] (l : List R) (x : R) :
    (x ≤ l.foldl max x ∧ ∀ y ∈ l, y ≤ l.foldl max x) ∧ (l.foldl max x = x ∨ l.foldl max x ∈ l) := by
  induction l generalizing x with
  | nil => simp
  | cons a r ih =>
    obtain ⟨⟨h1, h2⟩, h3⟩ := ih (max x a)
    simp only [List.foldl_cons]
    refine ⟨⟨le_trans (le_max_left _ _) h1, ?_⟩, ?_⟩
    · intro y hy
      rcases List.mem_cons.1 hy with e | e
      · rw [e]; exact le_trans (le_max_right _ _) h1
      · exact h2 y e
    · rcases h3 with e | e
      · rw [e]
        rcases max_choice x a with c | c
        · exact Or.inl c
        · right; rw [c]; exact List.mem_cons_self
      · right; exact List.mem_cons_of_mem _ e

theorem foldl_le {R : Type} [LinearOrder R] (l : List R) (x : R) :
    (l.foldl min x ≤ x ∧ ∀ y ∈ l, l.foldl min x ≤ y) ∧ (l.foldl min x = x ∨ l.foldl min x ∈ l) := by
  induction l generalizing x with
  | nil => simp
  | cons a r ih =>
    obtain ⟨⟨h1, h2⟩, h3⟩ := ih (min x a)
    simp only [List.foldl_cons]
    refine ⟨⟨le_trans h1 (min_le_left _ _), ?_⟩, ?_⟩
    · intro y hy
      rcases List.mem_cons.1 hy with e | e
      · rw [e]; exact le_trans h1 (min_le_right _ _)
      · exact h2 y e
    · rcases h3 with e | e
      · rw [e]
        rcases min_choice x a with c | c
        · exact Or.inl c
        · right; rw [c]; exact List.mem_cons_self
      · right; exact List.mem_cons_of_mem _ e

theorem scan_get {R : Type} [AddCommGroup R] : ∀ (l : List R) (acc : R) (k : Nat) (h : k < l.length),
    (List.zipWith (fun output input => output - input) (scan acc l) l)[k]? = some (acc + (l.take k).sum) := by
  intro l
  induction l with
  | nil => intro acc k h; simp at h
  | cons a r ih =>
    intro acc k h
    cases k with
    | zero => simp [scan]
    | succ k =>
      simp only [scan, List.zipWith_cons_cons, List.getElem?_cons_succ]
      rw [ih (acc + a) k (by simpa using h)]
      simp [add_assoc]

/-! ## C142 -/

/-- `Integrate` of a tag gives on every process the sum over the elements of the whole mesh, each taken once, whatever
the distribution and the ghost copies. -/
theorem C142_integrate {R : Type} [AddCommMonoid R] (G : List Nat) (etype : Nat → Nat) (val : Nat → Option (List R))
    (procs : List (List (Copy R))) (h : Distributed G etype val procs) (entry mask : Nat) :
    (integrateTag entry mask procs).length = procs.length ∧
    ∀ x ∈ integrateTag entry mask procs, x = (G.map (contribution entry mask etype val)).sum := by
  unfold integrateTag
  rw [allreduce_sum]
  refine ⟨by simp, ?_⟩
  intro x hx
  rw [(List.mem_replicate.1 hx).2, sum_procs, sum_filter, ← (h.once.map (contribution entry mask etype val)).sum_eq,
    List.map_map]
  congr 1
  apply List.map_congr_left
  intro c hc
  obtain ⟨hm, hg⟩ := List.mem_filter.1 hc
  have hg' : c.status ≠ .ghost := by simpa using hg
  obtain ⟨e1, e2⟩ := h.same c hm hg'
  simp only [term, contribution, Function.comp_apply, e1, e2, hg', ne_eq, not_false_eq_true, and_true]
  by_cases k : etype c.gid &&& mask = 0
  · simp [k]
  · simp only [k, not_false_eq_true, if_true, if_false]
    cases val c.gid with
    | none => rfl
    | some l =>
      simp only [List.getD_eq_getElem?_getD]
      by_cases q : entry < l.length
      · rw [if_pos q]
      · rw [if_neg q, List.getElem?_eq_none (by omega)]; rfl

/-- Sums, maxima and minima of one number per process are the same on all processes, and right. -/
theorem C142_numbers {R : Type} [AddCommMonoid R] [LinearOrder R] (inputs : List R) :
    (∀ x ∈ integrate inputs, x = inputs.sum) ∧
    (∀ x ∈ aggregateMax inputs, x ∈ inputs ∧ ∀ y ∈ inputs, y ≤ x) ∧
    (∀ x ∈ aggregateMin inputs, x ∈ inputs ∧ ∀ y ∈ inputs, x ≤ y) ∧
    (integrate inputs).length = inputs.length ∧ (aggregateMax inputs).length = inputs.length ∧
    (aggregateMin inputs).length = inputs.length := by
  refine ⟨?_, ?_, ?_, ?_, ?_, ?_⟩
  · intro x hx
    unfold integrate at hx
    rw [allreduce_sum] at hx
    exact (List.mem_replicate.1 hx).2
  · intro x hx
    cases inputs with
    | nil => simp [aggregateMax, allreduce] at hx
    | cons a r =>
      obtain ⟨_, _, e⟩ := List.mem_map.1 (show x ∈ (a :: r).map fun _ => r.foldl max a from hx)
      obtain ⟨⟨h1, h2⟩, h3⟩ := foldl_ge r a
      subst e
      refine ⟨?_, ?_⟩
      · rcases h3 with e | e
        · rw [e]; exact List.mem_cons_self
        · exact List.mem_cons_of_mem _ e
      · intro y hy
        rcases List.mem_cons.1 hy with e | e
        · rw [e]; exact h1
        · exact h2 y e
  · intro x hx
    cases inputs with
    | nil => simp [aggregateMin, allreduce] at hx
    | cons a r =>
      obtain ⟨_, _, e⟩ := List.mem_map.1 (show x ∈ (a :: r).map fun _ => r.foldl min a from hx)
      obtain ⟨⟨h1, h2⟩, h3⟩ := foldl_le r a
      subst e
      refine ⟨?_, ?_⟩
      · rcases h3 with e | e
        · rw [e]; exact List.mem_cons_self
        · exact List.mem_cons_of_mem _ e
      · intro y hy
        rcases List.mem_cons.1 hy with e | e
        · rw [e]; exact h1
        · exact h2 y e
  · unfold integrate; rw [allreduce_sum]; simp
  · cases inputs <;> simp [aggregateMax, allreduce]
  · cases inputs <;> simp [aggregateMin, allreduce]

/-- `ExclusiveSum` gives process `k` the sum of the inputs of the processes before it (for integers, and modulo 2^32 for
enumerators). -/
theorem C142_before {R : Type} [AddCommGroup R] (inputs : List R) (k : Nat) (h : k < inputs.length) :
    (exclusiveSum inputs)[k]? = some (inputs.take k).sum := by
  rw [exclusiveSum, scan_get inputs 0 k h, zero_add]

/-- So numbers `ExclusiveSum(n)`, ..., `ExclusiveSum(n) + n - 1` number things on all processes one after another: every
number below the total belongs to exactly one process and one thing on it. -/
theorem C142_numbering (inputs : List Int) (hn : ∀ x ∈ inputs, 0 ≤ x) (g : Int) (h0 : 0 ≤ g) (hg : g < inputs.sum) :
    ∃! p : Nat × Int, ∃ s, (exclusiveSum inputs)[p.1]? = some s ∧ 0 ≤ p.2 ∧ (∃ n, inputs[p.1]? = some n ∧ p.2 < n) ∧
      g = s + p.2 := by
  have hs : ∀ k, (hk : k < inputs.length) → (inputs.take (k + 1)).sum = (inputs.take k).sum + inputs[k] := by
    intro k hk
    rw [List.take_succ_eq_append_getElem hk, List.sum_append]; simp
  have mono1 : ∀ k, (inputs.take k).sum ≤ (inputs.take (k + 1)).sum := by
    intro k
    by_cases hk : k < inputs.length
    · rw [hs k hk]; have := hn _ (List.getElem_mem hk); omega
    · rw [List.take_of_length_le (by omega), List.take_of_length_le (by omega)]
  have mono : ∀ d k, (inputs.take k).sum ≤ (inputs.take (k + d)).sum := by
    intro d
    induction d with
    | zero => intro k; exact le_refl _
    | succ d ih => intro k; exact le_trans (ih k) (mono1 (k + d))
  have ex : ∀ k, g < (inputs.take k).sum → ∃ j, j < inputs.length ∧ (inputs.take j).sum ≤ g ∧ g < (inputs.take (j + 1)).sum := by
    intro k
    induction k with
    | zero => intro h; simp at h; omega
    | succ k ih =>
      intro h
      by_cases c : g < (inputs.take k).sum
      · exact ih c
      · by_cases hk : k < inputs.length
        · exact ⟨k, hk, by omega, h⟩
        · exfalso
          rw [List.take_of_length_le (by omega)] at h c
          exact c h
  obtain ⟨j, hj, h1, h2⟩ := ex inputs.length (by rw [List.take_length]; exact hg)
  refine ⟨(j, g - (inputs.take j).sum), ⟨(inputs.take j).sum, C142_before inputs j hj, by simp only; omega,
    ⟨inputs[j], List.getElem?_eq_getElem hj, ?_⟩, by simp only; omega⟩, ?_⟩
  · have := hs j hj
    simp only; omega
  · rintro ⟨i, r⟩ ⟨s, e1, e2, ⟨n, e3, e4⟩, e5⟩
    simp only at e1 e2 e3 e4 e5
    have hi : i < inputs.length := by
      by_contra c
      rw [List.getElem?_eq_none (by omega)] at e3
      simp at e3
    rw [C142_before inputs i hi] at e1
    simp only [Option.some.injEq] at e1
    rw [List.getElem?_eq_getElem hi] at e3
    simp only [Option.some.injEq] at e3
    have hi2 := hs i hi
    have hij : i = j := by
      rcases Nat.lt_trichotomy i j with c | c | c
      · have := mono (j - (i + 1)) (i + 1)
        rw [show i + 1 + (j - (i + 1)) = j by omega] at this
        omega
      · exact c
      · have := mono (i - (j + 1)) (j + 1)
        rw [show j + 1 + (i - (j + 1)) = i by omega] at this
        omega
    subst hij
    simp only [Prod.mk.injEq, true_and]
    omega

theorem count_eq {R : Type} (mask : Nat) (els : List (Copy R)) (n : Nat) : els.foldl
    (fun number c => if c.etype &&& mask ≠ 0 then (if c.status ≠ .ghost then number + 1 else number) else number) n =
    n + ((els.filter fun c => c.status ≠ .ghost).filter fun c => c.etype &&& mask ≠ 0).length := by
  induction els generalizing n with
  | nil => rfl
  | cons a r ih =>
    simp only [List.foldl_cons, ih]
    by_cases c : a.status = .ghost
    · rw [List.filter_cons_of_neg (by simp [c])]
      simp [c]
    · rw [List.filter_cons_of_pos (by simp [c])]
      by_cases k : a.etype &&& mask = 0
      · rw [List.filter_cons_of_neg (by simp [k])]
        simp [k]
      · rw [List.filter_cons_of_pos (by simp [k])]
        simp [k, c]; omega

/-- `TotalNumberOf` gives on every process the number of elements of the whole mesh of the types asked for. -/
theorem C142_total {R : Type} (G : List Nat) (etype : Nat → Nat) (val : Nat → Option (List R))
    (procs : List (List (Copy R))) (h : Distributed G etype val procs) (mask : Nat) :
    (totalNumberOf mask procs).length = procs.length ∧
    ∀ x ∈ totalNumberOf mask procs, x = (G.filter fun g => etype g &&& mask ≠ 0).length := by
  unfold totalNumberOf
  rw [allreduce_sum]
  refine ⟨by simp, ?_⟩
  intro x hx
  rw [(List.mem_replicate.1 hx).2]
  have e1 : (procs.map fun els => els.foldl
      (fun number c => if c.etype &&& mask ≠ 0 then (if c.status ≠ .ghost then number + 1 else number) else number) 0).sum =
      ((procs.flatten.filter fun c => c.status ≠ .ghost).filter fun c => c.etype &&& mask ≠ 0).length := by
    clear h hx
    induction procs with
    | nil => rfl
    | cons a r ih =>
      simp only [List.map_cons, List.sum_cons, ih, List.flatten_cons, List.filter_append, List.length_append]
      rw [count_eq, Nat.zero_add]
  rw [e1, ← (h.once.filter fun g => decide (etype g &&& mask ≠ 0)).length_eq, List.filter_map, List.length_map]
  congr 1
  apply List.filter_congr
  intro c hc
  obtain ⟨hm, hg⟩ := List.mem_filter.1 hc
  simp only [Function.comp_apply, (h.same c hm (by simpa using hg)).1]

/-- `SynchronizeElementType` gives every process the types that some process asked for. -/
theorem C142_types (masks : List Nat) (x : Nat) (hx : x ∈ synchronizeElementType masks) (i : Nat) :
    x.testBit i = masks.any fun m => m.testBit i := by
  have key : ∀ (l : List Nat) (a : Nat), (l.foldl (· ||| ·) a).testBit i = (a.testBit i || l.any fun m => m.testBit i) := by
    intro l
    induction l with
    | nil => intro a; simp
    | cons b r ih => intro a; simp [ih, Bool.or_assoc]
  cases masks with
  | nil => simp [synchronizeElementType, allreduce] at hx
  | cons a r =>
    obtain ⟨_, _, e⟩ := List.mem_map.1 (show x ∈ (a :: r).map fun _ => r.foldl (· ||| ·) a from hx)
    rw [← e, key]
    rfl

/-! ## the hypotheses are met -/

/-- two processes, element 1 shared with a ghost copy that has an old value -/
def demo : List (List (Copy Int)) :=
  [[⟨0, 8, .owned, some [5, 6]⟩, ⟨1, 8, .shared, some [7]⟩, ⟨3, 1, .owned, none⟩],
   [⟨1, 8, .ghost, some [100, 100]⟩, ⟨2, 8, .owned, some [9, 10]⟩]]

example : Distributed [0, 1, 2, 3] (fun g => if g = 3 then 1 else 8)
    (fun g => if g = 0 then some [5, 6] else if g = 1 then some [7] else if g = 2 then some [9, 10] else none) demo :=
  ⟨by decide, by decide⟩

example : integrateTag 1 8 demo = [16, 16] := by decide

example : totalNumberOf 8 demo = [3, 3] := by decide

example : exclusiveSum ([3, 0, 4] : List Int) = [0, 3, 3] := by decide

end Verif.Parallel.Reduce
