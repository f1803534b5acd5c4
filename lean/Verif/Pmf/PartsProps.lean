import Verif.Pmf.PartsLemmas

/-!
# C76, C77: files of several processors read by another number of processors
-/

namespace Verif.Pmf
open Verif.Binary

/-- **C76.** A file with the parts of any number of processors, read by any number of processors with MPI file
routines: every processor gets whole consecutive parts, and every part is got exactly once. -/
theorem C76_parts_read_once {o : Order} {parts : List Bytes} {cmax q : Nat} (hc : 0 < cmax) (hq : 0 < q)
    (hn : parts.length < 256 ^ 8) (hs : ∀ p ∈ parts, p.length < 256 ^ 8) :
    ∃ groups, Groups q parts groups ∧
      ∀ k g, groups[k]? = some g → stream1 cmax q k (pfile o parts) = some g.flatten := by
  refine ⟨groupsOf q parts, groups_ok hq parts, ?_⟩
  intro k g hg
  obtain ⟨h1, h2⟩ := group_at parts hq hg
  obtain ⟨hd, hh⟩ := length_pfile o parts
  obtain ⟨off, h3, h4⟩ := h2 hd.length
  have hlen : (pfile o parts).length - parts.flatten.length = hd.length := by rw [hh, List.length_append]; omega
  unfold stream1
  simp only [pheader_pfile hn hs, hlen, h1, h3]
  rw [fetch_eq hc, hh, ← List.drop_drop, List.drop_left, h4]

example : stream1 2 2 1 (pfile .big [[1, 2], [3], [4, 5, 6], [7, 8], [9]]) = some [4, 5, 6, 7, 8, 9] ∧
    stream1 2 2 0 (pfile .big [[1, 2], [3], [4, 5, 6], [7, 8], [9]]) = some [1, 2, 3] := by decide +kernel

/-- With messages instead of MPI file routines: the same for all processors but the first one, and for the first one
when no other processor gets any bytes.

`_partial`: the first processor otherwise, see `C76_first_twice_fails`. -/
theorem C76_messages_partial {o : Order} {parts : List Bytes} {cmax q : Nat} (hc : 0 < cmax) (hq : 0 < q)
    (hn : parts.length < 256 ^ 8) (hs : ∀ p ∈ parts, p.length < 256 ^ 8) :
    ∃ groups, Groups q parts groups ∧
      ∀ k g, groups[k]? = some g → (k ≠ 0 ∨ ∀ j g', 0 < j → groups[j]? = some g' → g'.flatten = []) →
        stream0 cmax q k (pfile o parts) = some g.flatten := by
  refine ⟨groupsOf q parts, groups_ok hq parts, ?_⟩
  intro k g hg hk
  obtain ⟨h1, h2⟩ := group_at parts hq hg
  obtain ⟨off, h3, h4⟩ := h2 0
  have htake : parts.flatten.take (parts.map fun p => p.length).sum = parts.flatten := by
    rw [← List.length_flatten]; exact List.take_length
  unfold stream0
  simp only [pheader_pfile hn hs, h1, h3, htake, fetch_eq hc, Nat.zero_add, h4]
  split
  · next h0 =>
    have hz := hk.resolve_left (by simpa using h0)
    have hany : ((recvSizes q (parts.map fun p => p.length)).drop 1).any (fun r => decide (r ≠ 0)) = false := by
      rw [List.any_eq_false]
      intro r hr
      rw [recvSizes_eq, ← List.map_drop] at hr
      obtain ⟨g', hg', rfl⟩ := List.mem_map.1 hr
      obtain ⟨j, hj⟩ := List.mem_iff_getElem?.1 hg'
      rw [List.getElem?_drop] at hj
      have := hz (1 + j) g' (by omega) hj
      simp [bytesOf_eq, this]
    rw [hany]
    simp
  · rfl

example : stream0 2 2 1 (pfile .big [[1, 2], [3], [4, 5, 6], [7, 8], [9]]) = some [4, 5, 6, 7, 8, 9] := by decide +kernel

/-- With messages, the first processor gets its own bytes twice as soon as any other processor gets bytes. -/
theorem C76_first_twice_fails {o : Order} {parts : List Bytes} {cmax q : Nat} (hc : 0 < cmax) (hq : 0 < q)
    (hn : parts.length < 256 ^ 8) (hs : ∀ p ∈ parts, p.length < 256 ^ 8) :
    ∃ groups, Groups q parts groups ∧
      ∀ g, groups[0]? = some g → (∃ j g', 0 < j ∧ groups[j]? = some g' ∧ g'.flatten ≠ []) →
        stream0 cmax q 0 (pfile o parts) = some (g.flatten ++ g.flatten) := by
  refine ⟨groupsOf q parts, groups_ok hq parts, ?_⟩
  rintro g hg ⟨j, g', hj, hj', hne⟩
  obtain ⟨h1, h2⟩ := group_at parts hq hg
  obtain ⟨off, h3, h4⟩ := h2 0
  have htake : parts.flatten.take (parts.map fun p => p.length).sum = parts.flatten := by
    rw [← List.length_flatten]; exact List.take_length
  have hany : ((recvSizes q (parts.map fun p => p.length)).drop 1).any (fun r => decide (r ≠ 0)) = true := by
    rw [List.any_eq_true]
    refine ⟨bytesOf g', ?_, ?_⟩
    · rw [recvSizes_eq, ← List.map_drop]
      refine List.mem_map.2 ⟨g', ?_, rfl⟩
      refine List.mem_iff_getElem?.2 ⟨j - 1, ?_⟩
      rw [List.getElem?_drop, show 1 + (j - 1) = j by omega]; exact hj'
    · rw [bytesOf_eq, decide_eq_true_eq]
      intro h
      exact hne (List.length_eq_zero_iff.1 h)
  unfold stream0
  simp only [pheader_pfile hn hs, h1, h3, htake, fetch_eq hc, Nat.zero_add, h4, hany, if_true]

example : stream0 2 2 0 (pfile .little [[1, 2], [3]]) = some [1, 2, 1, 2] := by decide +kernel

/-- The parts that are read by `q` processors from a file of `P` processors: every part has one reader. -/
theorem C77_one_reader {q : Nat} (hq : 0 < q) (P : Nat) {read : List (List Nat)} (G : Groups q (List.range P) read) :
    ∃ r, Readers P read r ∧ (P ≤ q → ∀ p, p < P → r p = p) ∧ ∀ p, p < P → r p < q := by
  have hn : read.flatten.Nodup := by rw [G.all]; exact List.nodup_range
  have hex : ∀ p, ∃ k, p < P → ∀ j, p ∈ read.getD j [] ↔ j = k := by
    intro p
    by_cases hp : p < P
    · obtain ⟨k, hk⟩ := flatten_unique read hn p (by rw [G.all]; exact List.mem_range.2 hp)
      exact ⟨k, fun _ => hk⟩
    · exact ⟨0, fun h => absurd h hp⟩
  choose r hr using hex
  refine ⟨r, ⟨fun p hp k => hr p hp k⟩, ?_, ?_⟩
  · intro hP p hp
    have h1 : p < read.length := by rw [G.length]; omega
    have h2 := G.one (by simpa using hP) p read[p] (List.getElem?_eq_getElem h1)
    refine ((hr p hp p).1 ?_).symm
    rw [List.getD_eq_getElem?_getD, List.getElem?_eq_getElem h1, Option.getD_some, h2, List.getElem?_range hp]
    simp
  · intro p hp
    by_contra hc
    have := (hr p hp (r p)).2 rfl
    rw [List.getD_eq_getElem?_getD, List.getElem?_eq_none (by rw [G.length]; omega)] at this
    simp at this

example : Groups 2 (List.range 5) [[0, 1], [2, 3, 4]] :=
  ⟨rfl, by decide, fun h => by simp at h, fun _ k g h => by
    match k with
    | 0 => cases h; decide
    | 1 => cases h; decide
    | k + 2 => simp at h⟩

private theorem restoreState_true {read : List (List Nat)} (h : ∃ l ∈ read, 2 ≤ l.length) : restoreState read = true := by
  obtain ⟨l, h1, h2⟩ := h
  unfold restoreState
  rw [List.any_eq_true]
  exact ⟨l, h1, by simp; omega⟩

/-- **C77.** After reading with another number of processors, an element that was owned by processor `c.owner` and
present on the processors `c.procs` when the file was written, where some processor reads more than one part, is owned by the reader of its former owner, and present
exactly on the readers of its former processors, listed once each in increasing order; its status follows. -/
theorem C77_owner_of_reader {P : Nat} {read : List (List Nat)} {r : Nat → Nat} (R : Readers P read r) {me : Nat}
    {c : Copy} {st : Status} (hre : ∃ l ∈ read, 2 ≤ l.length) (hme : read.getD me [] ≠ []) (ho : c.owner < P)
    (hp : ∀ p ∈ c.procs, p < P) (hin : c.owner ∈ c.procs) :
    let c' := (remap read me c st).1
    let s' := (remap read me c st).2
    c'.owner = r c.owner ∧ c'.procs.Pairwise (· < ·) ∧ (∀ k, k ∈ c'.procs ↔ ∃ p ∈ c.procs, r p = k) ∧
      (s' = .ghost ↔ r c.owner ≠ me) ∧ (s' = .owned ↔ ∀ p ∈ c.procs, r p = me) ∧
      (s' = .shared ↔ r c.owner = me ∧ ∃ p ∈ c.procs, r p ≠ me) := by
  have hre := restoreState_true hre
  have e : remap read me c st = (⟨newRank read me c.owner, uniq (sortN (c.procs.map (newRank read me)))⟩,
      if me = newRank read me c.owner then
        (if (uniq (sortN (c.procs.map (newRank read me)))).length = 1 then .owned else .shared) else .ghost) := by
    unfold remap
    rw [if_pos hre, if_pos hme]
  rw [e]
  have hmap : c.procs.map (newRank read me) = c.procs.map r := List.map_congr_left fun p h => newRank_eq R (hp p h)
  rw [hmap, newRank_eq R ho]
  have hmem : ∀ k, k ∈ uniq (sortN (c.procs.map r)) ↔ ∃ p ∈ c.procs, r p = k := by
    intro k; rw [mem_uniq, mem_sortN, List.mem_map]
  have hsort := uniq_sorted _ (sortN_sorted (c.procs.map r))
  have hlen : r c.owner = me → ((uniq (sortN (c.procs.map r))).length = 1 ↔ ∀ p ∈ c.procs, r p = me) := by
    intro hown
    constructor
    · intro hl p hpm
      obtain ⟨a, ha⟩ := List.length_eq_one_iff.1 hl
      have h1 := (hmem (r p)).2 ⟨p, hpm, rfl⟩
      have h2 := (hmem (r c.owner)).2 ⟨c.owner, hin, rfl⟩
      rw [ha, List.mem_singleton] at h1 h2
      omega
    · intro hall
      have hsub : ∀ k ∈ uniq (sortN (c.procs.map r)), k = me := by
        intro k hk
        obtain ⟨p, h1, rfl⟩ := (hmem k).1 hk
        exact hall p h1
      have hmm := (hmem me).2 ⟨c.owner, hin, hown⟩
      generalize uniq (sortN (c.procs.map r)) = l at hsub hsort hmm
      match l with
      | [] => cases hmm
      | [a] => rfl
      | a :: b :: l =>
        have h1 := hsub a (List.mem_cons_self ..)
        have h2 := hsub b (List.mem_cons_of_mem _ (List.mem_cons_self ..))
        have h3 := (List.pairwise_cons.1 hsort).1 b (List.mem_cons_self ..)
        omega
  refine ⟨rfl, hsort, hmem, ?_, ?_, ?_⟩
  · show (if me = r c.owner then _ else _) = Status.ghost ↔ _
    by_cases h : me = r c.owner
    · rw [if_pos h]
      have h' : ¬ r c.owner ≠ me := fun h' => h' h.symm
      split <;> simp only [reduceCtorEq, h']
    · rw [if_neg h]; simp [Ne.symm h]
  · show (if me = r c.owner then _ else _) = Status.owned ↔ _
    by_cases h : me = r c.owner
    · rw [if_pos h, ← hlen h.symm]
      split
      · next hl => exact ⟨fun _ => hl, fun _ => rfl⟩
      · next hl => exact ⟨fun h => (by cases h), fun h => absurd h hl⟩
    · rw [if_neg h]
      simp only [reduceCtorEq, false_iff]
      intro hall
      exact h (hall _ hin).symm
  · show (if me = r c.owner then _ else _) = Status.shared ↔ _
    by_cases h : me = r c.owner
    · rw [if_pos h]
      have := hlen h.symm
      by_cases hl : (uniq (sortN (c.procs.map r))).length = 1
      · rw [if_pos hl]
        simp only [reduceCtorEq, false_iff, not_and, not_exists]
        intro _ p hpm hne
        exact hne (this.1 hl p hpm)
      · rw [if_neg hl]
        simp only [true_iff]
        refine ⟨h.symm, ?_⟩
        by_contra hc
        apply hl
        rw [this]
        intro p hpm
        by_contra hne
        exact hc ⟨p, hpm, hne⟩
    · rw [if_neg h]; simp [Ne.symm h]

example : remap [[0, 1], [2, 3, 4]] 1 ⟨2, [1, 2, 4]⟩ .shared = (⟨1, [0, 1]⟩, .shared) ∧
    remap [[0, 1], [2, 3, 4]] 0 ⟨2, [1, 2, 4]⟩ .ghost = (⟨1, [0, 1]⟩, .ghost) ∧
    remap [[0, 1], [2, 3, 4]] 1 ⟨2, [2, 4]⟩ .shared = (⟨1, [1]⟩, .owned) := by decide +kernel

/-- All processors that have read parts agree about the owner and the processors of an element. -/
theorem C77_agreement {P : Nat} {read : List (List Nat)} {r : Nat → Nat} (R : Readers P read r) {me me' : Nat} {c : Copy}
    {st st' : Status} (hre : ∃ l ∈ read, 2 ≤ l.length) (hme : read.getD me [] ≠ []) (hme' : read.getD me' [] ≠ [])
    (ho : c.owner < P) (hp : ∀ p ∈ c.procs, p < P) : (remap read me c st).1 = (remap read me' c st').1 := by
  have hre := restoreState_true hre
  unfold remap
  rw [if_pos hre, if_pos hme, if_pos hre, if_pos hme']
  have h1 : c.procs.map (newRank read me) = c.procs.map (newRank read me') :=
    List.map_congr_left fun p h => by rw [newRank_eq R (hp p h), newRank_eq R (hp p h)]
  simp only [h1, newRank_eq R ho]

example : (remap [[0, 1], [2, 3, 4]] 1 ⟨2, [1, 2, 4]⟩ .shared).1 = (remap [[0, 1], [2, 3, 4]] 0 ⟨2, [1, 2, 4]⟩ .ghost).1 := by
  obtain ⟨r, R, -⟩ := C77_one_reader (q := 2) (by omega) 5 (read := [[0, 1], [2, 3, 4]])
    ⟨rfl, by decide, fun h => absurd h (by decide), fun _ k g h => by
      match k with
      | 0 => cases h; decide
      | 1 => cases h; decide⟩
  exact C77_agreement R (by decide) (by decide) (by decide) (by decide) (by decide)

/-- With at most one part for every processor nothing changes, and the numbers in the file are those of the readers. -/
theorem C77_enough_processors {q P : Nat} (hq : 0 < q) (hP : P ≤ q) {read : List (List Nat)} (G : Groups q (List.range P) read)
    (me : Nat) (c : Copy) (st : Status) : remap read me c st = (c, st) ∧ ∃ r, Readers P read r ∧ ∀ p, p < P → r p = p := by
  constructor
  · have : restoreState read = false := by
      unfold restoreState
      rw [List.any_eq_false]
      intro l hl
      obtain ⟨k, hk⟩ := List.mem_iff_getElem?.1 hl
      rw [G.one (by simpa using hP) k l hk]
      cases (List.range P)[k]? <;> simp
    unfold remap
    rw [this]; simp
  · obtain ⟨r, R, h, _⟩ := C77_one_reader hq P G
    exact ⟨r, R, h hP⟩

example : Groups 3 (List.range 2) [[0], [1], []] :=
  ⟨rfl, by decide, fun _ k g h => by
    match k with
    | 0 => cases h; decide
    | 1 => cases h; decide
    | 2 => cases h; decide
    | k + 3 => simp at h, fun h => by simp at h⟩

end Verif.Pmf
