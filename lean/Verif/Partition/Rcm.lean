import Mathlib.Data.List.Nodup
import Mathlib.Data.List.Perm.Subperm
/-
The partitioner `INNER_RCM` (`Source/Partitioner/partitioner.cpp`, lines 298-410): model and
property C123.

Simplifications.  All cells are on one process (the other case is the exception of line 315), so
there are no ghosts.  A cell is a number; `cells` are the cells in the order of the iterator, `adj c` is
`BridgeAdjacencies(FACE,CELL)` of the cell after the sort of line 369, `order c` the number of
inner faces (lines 324-329).  The tags `CM_INDEX` and `ORDER` are functions; data of a new tag is
zero.
-/

namespace Verif.Partition

/-- `CM_INDEX`, `visited` and `queue` (partitioner.cpp, lines 320, 331, 333). -/
structure Rcm where
  index : Nat → Nat
  visited : Nat
  queue : List Nat

/-- Start (partitioner.cpp, lines 320, 331, 333). -/
def Rcm.start : Rcm := ⟨fun _ => 0, 1, []⟩

/-- `queue.push_back(c); m->Integer(queue.back(),index) = visited++` (partitioner.cpp, lines
363-364, 374-375). -/
def Rcm.push (s : Rcm) (c : Nat) : Rcm :=
  { index := fun x => if x = c then s.visited else s.index x, visited := s.visited + 1,
    queue := s.queue ++ [c] }

/-- The loop for the least order among the cells not visited (partitioner.cpp, lines 350-362). -/
def least (order : Nat → Nat) (index : Nat → Nat) : List Nat → Nat → Nat
  | [], c => c
  | d :: l, c => least order index l (if index d = 0 ∧ order d < order c then d else c)

/-- Choice of the next start (partitioner.cpp, lines 338-362). -/
def pick (order : Nat → Nat) (index : Nat → Nat) : List Nat → Option Nat
  | [] => none
  | c :: l => if index c = 0 then some (least order index (c :: l) c) else pick order index l

/-- The loop over the neighbours of one cell (partitioner.cpp, lines 370-384). -/
def scan (chunk : Nat) : List Nat → Rcm → Rcm
  | [], s => s
  | c :: l, s =>
    if s.index c = 0 then
      if (s.push c).visited % chunk = 0 then { s.push c with queue := [] }
      else scan chunk l (s.push c)
    else scan chunk l s

/-- The loop over the queue (partitioner.cpp, lines 365-387); `none` if it does not end within
`fuel` turns. -/
def drain (adj : Nat → List Nat) (chunk : Nat) : Nat → Rcm → Option Rcm
  | 0, s => if s.queue.isEmpty then some s else none
  | fuel + 1, s => match s.queue with
    | [] => some s
    | c :: q => drain adj chunk fuel (scan chunk (adj c) { s with queue := q })

/-- The outer loop (partitioner.cpp, lines 336-388). -/
def outer (cells : List Nat) (adj : Nat → List Nat) (order : Nat → Nat) (chunk : Nat) :
    Nat → Rcm → Option Rcm
  | 0, s => if s.visited = cells.length + 1 then some s else none
  | fuel + 1, s =>
    if s.visited = cells.length + 1 then some s
    else match pick order s.index cells with
      | none => some s
      | some c => match drain adj chunk (cells.length + 1) (s.push c) with
        | none => none
        | some t => outer cells adj order chunk fuel t

/-- `chunk` (partitioner.cpp, line 332). -/
def chunkOf (n procs : Nat) : Nat := n / procs + 1

/-- The new processor of each cell (partitioner.cpp, lines 331-404). -/
def rcm (cells : List Nat) (adj : Nat → List Nat) (order : Nat → Nat) (procs : Nat) :
    Option (Nat → Nat) :=
  match outer cells adj order (chunkOf cells.length procs) (cells.length + 1) Rcm.start with
  | none => none
  | some s => some fun c => s.index c / chunkOf cells.length procs

/-! ### Proofs -/

/-- `L` are the cells visited so far, in this order. -/
structure Seen (cells L : List Nat) (s : Rcm) : Prop where
  nodup : L.Nodup
  sub : L ⊆ cells
  visited : s.visited = L.length + 1
  index : ∀ c, s.index c = if c ∈ L then L.idxOf c + 1 else 0

theorem Seen.queue {cells L : List Nat} {s : Rcm} (h : Seen cells L s) (q : List Nat) :
    Seen cells L { s with queue := q } := ⟨h.nodup, h.sub, h.visited, h.index⟩

theorem Seen.zero {cells L : List Nat} {s : Rcm} (h : Seen cells L s) (c : Nat) :
    s.index c = 0 ↔ c ∉ L := by
  rw [h.index]
  split <;> simp_all

theorem Seen.push {cells L : List Nat} {s : Rcm} (h : Seen cells L s) {c : Nat} (hc : c ∈ cells)
    (h0 : s.index c = 0) : Seen cells (L ++ [c]) (s.push c) := by
  have hn := (h.zero c).1 h0
  refine ⟨?_, ?_, ?_, ?_⟩
  · rw [List.nodup_append]
    refine ⟨h.nodup, by simp, ?_⟩
    intro a ha b hb e
    rw [List.mem_singleton] at hb
    rw [e, hb] at ha
    exact hn ha
  · intro x hx
    rcases List.mem_append.1 hx with hx | hx
    · exact h.sub hx
    · rw [List.mem_singleton.1 hx]; exact hc
  · simp [Rcm.push, h.visited]
  · intro x
    simp only [Rcm.push]
    by_cases hx : x = c
    · rw [if_pos hx, if_pos (by simp [hx]), h.visited, hx, List.idxOf_append, if_neg hn]
      simp
    · rw [if_neg hx, h.index]
      by_cases hl : x ∈ L
      · rw [if_pos hl, if_pos (by simp [hl]), List.idxOf_append, if_pos hl]
      · rw [if_neg hl, if_neg (by simp [hl, hx])]

theorem Seen.le {cells L : List Nat} {s : Rcm} (h : Seen cells L s) : L.length ≤ cells.length :=
  (List.subperm_of_subset h.nodup h.sub).length_le

theorem scan_spec {cells : List Nat} (chunk : Nat) : ∀ (l L : List Nat) (s : Rcm), l ⊆ cells →
    Seen cells L s → ∃ M, Seen cells (L ++ M) (scan chunk l s) ∧
      (scan chunk l s).queue.length ≤ s.queue.length + M.length := by
  intro l
  induction l with
  | nil => intro L s _ h; exact ⟨[], by simpa [scan] using h, by simp [scan]⟩
  | cons c l ih =>
    intro L s hl h
    rw [scan]
    by_cases h0 : s.index c = 0
    · rw [if_pos h0]
      have hp := h.push (hl (by simp)) h0
      split
      · exact ⟨[c], hp.queue [], by simp⟩
      · obtain ⟨M, h1, h2⟩ := ih (L ++ [c]) (s.push c) (fun x hx => hl (by simp [hx])) hp
        refine ⟨c :: M, by simpa using h1, ?_⟩
        have : (s.push c).queue.length = s.queue.length + 1 := by simp [Rcm.push]
        simp only [List.length_cons]
        omega
    · rw [if_neg h0]
      exact ih L s (fun x hx => hl (by simp [hx])) h

theorem drain_spec {cells : List Nat} {adj : Nat → List Nat} (hadj : ∀ c, adj c ⊆ cells) (chunk : Nat) :
    ∀ (fuel : Nat) (L : List Nat) (s : Rcm), Seen cells L s →
    s.queue.length + cells.length ≤ fuel + L.length →
    ∃ t M, drain adj chunk fuel s = some t ∧ Seen cells (L ++ M) t ∧ t.queue = [] := by
  intro fuel
  induction fuel with
  | zero =>
    intro L s h hf
    have := h.le
    have hq : s.queue = [] := List.length_eq_zero_iff.1 (by omega)
    exact ⟨s, [], by simp [drain, hq], by simpa using h, hq⟩
  | succ fuel ih =>
    intro L s h hf
    rw [drain]
    cases hq : s.queue with
    | nil => exact ⟨s, [], rfl, by simpa using h, hq⟩
    | cons c q =>
      obtain ⟨M, h1, h2⟩ := scan_spec chunk (adj c) L _ (hadj c) (h.queue q)
      rw [hq] at hf
      simp only [List.length_cons] at hf
      simp only at h2
      obtain ⟨t, M', g1, g2⟩ := ih (L ++ M) _ h1 (by
        simp only [List.length_append]
        omega)
      exact ⟨t, M ++ M', g1, by simpa using g2.1, g2.2⟩

theorem least_spec (order index : Nat → Nat) (cells : List Nat) : ∀ (l : List Nat) (c : Nat), l ⊆ cells →
    c ∈ cells → index c = 0 → least order index l c ∈ cells ∧ index (least order index l c) = 0 := by
  intro l
  induction l with
  | nil => intro c _ hc h0; exact ⟨hc, h0⟩
  | cons d l ih =>
    intro c hl hc h0
    rw [least]
    split
    · rename_i hd
      exact ih d (fun x hx => hl (by simp [hx])) (hl (by simp)) hd.1
    · exact ih c (fun x hx => hl (by simp [hx])) hc h0

theorem pick_spec (order index : Nat → Nat) (cells : List Nat) : ∀ (l : List Nat), l ⊆ cells →
    (∃ c ∈ l, index c = 0) → ∃ c, pick order index l = some c ∧ c ∈ cells ∧ index c = 0 := by
  intro l
  induction l with
  | nil => rintro _ ⟨c, hc, _⟩; simp at hc
  | cons d l ih =>
    rintro hl ⟨c, hc, h0⟩
    rw [pick]
    split
    · rename_i hd
      exact ⟨_, rfl, least_spec order index cells (d :: l) d hl (hl (by simp)) hd⟩
    · rename_i hd
      refine ih (fun x hx => hl (by simp [hx])) ⟨c, ?_, h0⟩
      rcases List.mem_cons.1 hc with e | hc
      · rw [e] at h0; exact absurd h0 hd
      · exact hc

theorem outer_spec {cells : List Nat} (hnd : cells.Nodup) {adj : Nat → List Nat}
    (hadj : ∀ c, adj c ⊆ cells) (order : Nat → Nat) (chunk : Nat) :
    ∀ (fuel : Nat) (L : List Nat) (s : Rcm), Seen cells L s → s.queue = [] →
    cells.length ≤ fuel + L.length → ∃ t M, outer cells adj order chunk fuel s = some t ∧
      Seen cells M t ∧ M.length = cells.length := by
  intro fuel
  induction fuel with
  | zero =>
    intro L s h hq hf
    have := h.le
    refine ⟨s, L, ?_, h, by omega⟩
    rw [outer, if_pos]
    rw [h.visited]; omega
  | succ fuel ih =>
    intro L s h hq hf
    rw [outer]
    by_cases hv : s.visited = cells.length + 1
    · rw [if_pos hv]
      exact ⟨s, L, rfl, h, by have := h.visited; omega⟩
    · rw [if_neg hv]
      have hne : ∃ c ∈ cells, s.index c = 0 := by
        by_contra hno
        have hall : ∀ c ∈ cells, c ∈ L := by
          intro c hc
          by_contra hcl
          exact hno ⟨c, hc, (h.zero c).2 hcl⟩
        have h1 := (List.subperm_of_subset hnd hall).length_le
        have h2 := h.le
        have h3 := h.visited
        omega
      obtain ⟨c, hp, hc, h0⟩ := pick_spec order s.index cells cells (fun _ hx => hx) hne
      rw [hp]
      simp only
      obtain ⟨t, M, d1, d2⟩ : ∃ t M, drain adj chunk (cells.length + 1) (s.push c) = some t ∧
          Seen cells (L ++ [c] ++ M) t ∧ t.queue = [] := by
        refine drain_spec hadj chunk _ _ _ (h.push hc h0) ?_
        simp [Rcm.push, hq]
        omega
      rw [d1]
      simp only
      exact ih (L ++ [c] ++ M) t d2.1 d2.2 (by simp only [List.length_append, List.length_singleton]; omega)

theorem Seen.start (cells : List Nat) : Seen cells [] Rcm.start :=
  ⟨by simp, by simp, rfl, by simp [Rcm.start]⟩

/-- The number of positions of one chunk. -/
theorem chunk_count (n k p : Nat) (hk : 0 < k) :
    ((List.range n).filter fun i => (i + 1) / k = p).length ≤ k := by
  have h1 : (((List.range n).filter fun i => (i + 1) / k = p).map (· + 1)).Nodup :=
    List.Nodup.map (fun a b h => by simpa using h) (List.nodup_range.filter _)
  have h2 : (((List.range n).filter fun i => (i + 1) / k = p).map (· + 1)) ⊆
      List.range' (p * k) k := by
    intro x hx
    obtain ⟨i, hi, e⟩ := List.mem_map.1 hx
    have hi' := (List.mem_filter.1 hi).2
    have hp : (i + 1) / k = p := of_decide_eq_true hi'
    rw [List.mem_range'_1]
    have := Nat.div_add_mod (i + 1) k
    have := Nat.mod_lt (i + 1) hk
    have hc := Nat.mul_comm k p
    rw [hp] at *
    omega
  have := (List.subperm_of_subset h1 h2).length_le
  simpa using this

theorem map_idxOf {L : List Nat} (h : L.Nodup) : L.map (fun c => L.idxOf c) = List.range L.length := by
  apply List.ext_getElem
  · simp
  · intro i h1 h2
    simp only [List.getElem_map, List.getElem_range]
    exact List.Nodup.idxOf_getElem h i _

/-! ### C123 -/

/-- C123.  For a mesh on one process and any number of processors, `INNER_RCM` ends, gives each
cell a processor that exists, and gives no processor more than `cells / processors + 1` cells. -/
theorem C123_parts_partial {cells : List Nat} (hnd : cells.Nodup) {adj : Nat → List Nat}
    (hadj : ∀ c, adj c ⊆ cells) (order : Nat → Nat) {procs : Nat} (hp : 0 < procs) :
    ∃ part, rcm cells adj order procs = some part ∧ (∀ c ∈ cells, part c < procs) ∧
      ∀ p, (cells.filter fun c => part c = p).length ≤ cells.length / procs + 1 := by
  obtain ⟨s, L, h1, h2, h3⟩ := outer_spec hnd hadj order (chunkOf cells.length procs)
    (cells.length + 1) [] Rcm.start (Seen.start cells) rfl (by simp)
  have hperm : L.Perm cells :=
    (List.subperm_of_subset h2.nodup h2.sub).perm_of_length_le (by omega)
  refine ⟨_, by rw [rcm, h1], ?_, ?_⟩
  · intro c hc
    have hcl : c ∈ L := hperm.mem_iff.2 hc
    simp only [h2.index, if_pos hcl]
    have hlt := List.idxOf_lt_length_of_mem hcl
    rw [Nat.div_lt_iff_lt_mul (by simp [chunkOf])]
    have h4 := Nat.div_add_mod cells.length procs
    have h5 := Nat.mod_lt cells.length hp
    simp only [chunkOf, Nat.mul_add, Nat.mul_one]
    omega
  · intro p
    rw [(hperm.symm.filter _).length_eq]
    have h4 := chunk_count L.length (chunkOf cells.length procs) p (by simp [chunkOf])
    rw [← map_idxOf h2.nodup, List.filter_map, List.length_map] at h4
    have h5 : L.filter (fun c => decide (s.index c / chunkOf cells.length procs = p)) =
        L.filter ((fun i => decide ((i + 1) / chunkOf cells.length procs = p)) ∘
          fun c => L.idxOf c) := by
      apply List.filter_congr
      intro c hc
      simp only [h2.index, if_pos hc, Function.comp]
    rw [h5]
    exact h4

/-- C123, the size of each part is known in advance: processor `p` gets the cells with numbers
`p * chunk`, …, `p * chunk + chunk - 1` among `1`, …, `N`, hence at least one cell exactly if
`p * chunk ≤ N` (and `N > 0` for processor zero with `chunk > 1`). -/
theorem C123_used_partial {cells : List Nat} (hnd : cells.Nodup) {adj : Nat → List Nat}
    (hadj : ∀ c, adj c ⊆ cells) (order : Nat → Nat) {procs : Nat} (hp : 0 < procs) :
    ∃ part, rcm cells adj order procs = some part ∧
      ∀ p, 0 < p → ((∃ c ∈ cells, part c = p) ↔ p * (cells.length / procs + 1) ≤ cells.length) := by
  obtain ⟨s, L, h1, h2, h3⟩ := outer_spec hnd hadj order (chunkOf cells.length procs)
    (cells.length + 1) [] Rcm.start (Seen.start cells) rfl (by simp)
  have hperm : L.Perm cells :=
    (List.subperm_of_subset h2.nodup h2.sub).perm_of_length_le (by omega)
  refine ⟨_, by rw [rcm, h1], ?_⟩
  intro p hpos
  have hk : 0 < chunkOf cells.length procs := by simp [chunkOf]
  change _ ↔ p * chunkOf cells.length procs ≤ cells.length
  constructor
  · rintro ⟨c, hc, e⟩
    have hcl : c ∈ L := hperm.mem_iff.2 hc
    simp only [h2.index, if_pos hcl] at e
    have hlt := List.idxOf_lt_length_of_mem hcl
    have := Nat.div_mul_le_self (L.idxOf c + 1) (chunkOf cells.length procs)
    rw [e] at this
    omega
  · intro hle
    have hge : 1 ≤ p * chunkOf cells.length procs := Nat.mul_pos hpos hk
    have hlt : p * chunkOf cells.length procs - 1 < L.length := by omega
    refine ⟨L[p * chunkOf cells.length procs - 1], h2.sub (List.getElem_mem hlt), ?_⟩
    simp only [h2.index, if_pos (List.getElem_mem hlt)]
    rw [List.Nodup.idxOf_getElem h2.nodup _ hlt, Nat.sub_add_cancel hge, Nat.mul_div_cancel _ hk]

/-- A row of `n` cells. -/
def row (n c : Nat) : List Nat := (List.range n).filter fun d => d + 1 = c ∨ c + 1 = d

/-- C123, the stronger reading fails: four cells for four processors, in whatever mesh: the last
processor gets no cell, another one gets two. -/
theorem C123_idle_fails : ¬ ∀ (cells : List Nat) (adj : Nat → List Nat) (order : Nat → Nat) (procs : Nat),
    cells.Nodup → (∀ c, adj c ⊆ cells) → 0 < procs → procs ≤ cells.length →
    ∀ part, rcm cells adj order procs = some part → ∀ p < procs, ∃ c ∈ cells, part c = p := by
  intro h
  have hn : (List.range 4).Nodup := List.nodup_range
  have ha : ∀ c, row 4 c ⊆ List.range 4 := fun c => List.filter_subset' _
  obtain ⟨part, h1, h2⟩ := C123_used_partial hn ha (fun _ => 0) (procs := 4) (by decide)
  have := (h2 3 (by decide)).1 (h _ _ _ 4 hn ha (by decide) (by decide) part h1 3 (by decide))
  simp at this

/-- Seven cells in a row whose ends have the smallest number of neighbours, three processors. -/
example : (rcm (List.range 7) (row 7) (fun c => (row 7 c).length) 3).map
    (fun part => (List.range 7).map part) = some [0, 0, 2, 2, 1, 1, 1] := by decide +kernel

/-- The search starts at the end of the row although the iterator starts in the middle. -/
example : (rcm [2, 0, 1, 3] (row 4) (fun c => (row 4 c).length) 2).map
    (fun part => (List.range 4).map part) = some [0, 0, 1, 1] := by decide +kernel

end Verif.Partition
