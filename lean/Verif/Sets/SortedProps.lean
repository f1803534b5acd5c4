import Verif.Sets.SortedLemmas

/-!
# Sets with a comparator: properties C17 (continued), C48 and C49
-/

namespace Verif.Sets

open Verif.Sort (SortHandles SortByGlobalID ElementHandles)

/-! ## C17: adding many elements to a set sorted by handles -/

theorem asc_of_sorted_nodup {l : List Nat} (h : l.Pairwise (· ≤ ·)) (hn : l.Nodup) :
    l.Pairwise (· < ·) := by
  refine (h.and hn).imp ?_
  rintro x y ⟨h1, h2⟩
  omega

theorem asc_last {l : List Nat} (h : l.Pairwise (· < ·)) {m : Nat} (hm : l.getLast? = some m) :
    ∀ x ∈ l, x ≤ m := by
  obtain ⟨l', rfl⟩ := List.getLast?_eq_some_iff.1 hm
  rw [List.pairwise_append] at h
  intro x hx
  rcases List.mem_append.1 hx with hx | hx
  · exact Nat.le_of_lt (h.2.2 x hx m (by simp))
  · simp only [List.mem_singleton] at hx; omega

/-- What `AddElements` does to a set sorted by handles, for every list of different
elements. -/
theorem addElementsHandle_exact {w : Nat} (hw : w = 4 ∨ w = 8) {s : ESet} (h : FullySorted s)
    {hs : List Nat} (hz : ElementHandles w hs) (hd : hs.Nodup) (hl : hs.length < 2 ^ 32) :
    (∃ s', AddElementsHandle w s hs s') ∧
    ∀ s', AddElementsHandle w s hs s' → FullySorted s' ∧
      ∀ x, x ∈ s'.lc ↔ (x ∈ s.lc ∨ x ∈ hs) ∧ ∀ m ∈ hs, (∀ y ∈ hs, y ≤ m) → m ∈ s.lc → x ≤ m := by
  obtain ⟨⟨b, hb⟩, h2⟩ := Verif.Sort.C20_sort_handles w hw hs hl hz
  refine ⟨⟨_, b, hb, rfl⟩, ?_⟩
  rintro s' ⟨input, g1, rfl⟩
  obtain ⟨p1, p2⟩ := h2 input g1
  have hasc := asc_of_sorted_nodup p2 (p1.nodup_iff.2 hd)
  have hzi : ∀ x ∈ input, x ≠ 0 := fun x hx => Nat.pos_iff_ne_zero.1 (hz x (p1.subset hx)).1
  by_cases hn : input = []
  · subst hn
    have : hs = [] := (p1.symm.eq_nil)
    subst this
    rw [mergeInto_nil h]
    exact ⟨h, by simp⟩
  · obtain ⟨q1, q2⟩ := mergeInto_spec h hn hzi hasc
    refine ⟨q1, fun x => ?_⟩
    rw [q2, p1.mem_iff]
    refine and_congr_right fun _ => ⟨fun hc m hm hmax hms => ?_, fun hc m hm hms => ?_⟩
    · obtain ⟨l, hlast⟩ : ∃ l, input.getLast? = some l := by
        cases hg : input.getLast? with
        | none => exact absurd (List.getLast?_eq_none_iff.1 hg) hn
        | some l => exact ⟨l, rfl⟩
      have hle := asc_last hasc hlast m (p1.symm.subset hm)
      have hge := hmax l (p1.subset (List.mem_of_getLast? hlast))
      have : l = m := by omega
      subst this
      exact hc l hlast hms
    · exact hc m (p1.subset (List.mem_of_getLast? hm))
        (fun y hy => asc_last hasc hm y (p1.symm.subset hy)) hms

/-- `AddElements` on a set sorted by handles, without holes, adds each of the elements once
and keeps the set sorted, if no new element is in the set and greater than all others added.
Missing: see `C17_sorted_fails`; sets with holes; the other comparators. -/
theorem C17_sorted_partial {w : Nat} (hw : w = 4 ∨ w = 8) {s : ESet} (h : FullySorted s)
    {hs : List Nat} (hz : ElementHandles w hs) (hd : hs.Nodup) (hl : hs.length < 2 ^ 32)
    (hm : ∀ m ∈ hs, (∀ y ∈ hs, y ≤ m) → m ∉ s.lc) :
    (∃ s', AddElementsHandle w s hs s') ∧
    ∀ s', AddElementsHandle w s hs s' → FullySorted s' ∧
      ∀ x, x ∈ elements s' ↔ x ∈ elements s ∨ x ∈ hs := by
  obtain ⟨h1, h2⟩ := addElementsHandle_exact hw h hz hd hl
  refine ⟨h1, fun s' hs' => ?_⟩
  obtain ⟨g1, g2⟩ := h2 s' hs'
  refine ⟨g1, fun x => ?_⟩
  rw [elements_eq, elements_eq, valid_eq_self g1.valid, valid_eq_self h.valid, g2]
  exact ⟨fun h => h.1, fun h => ⟨h, fun m hmm hmax hms => absurd hms (hm m hmm hmax)⟩⟩

theorem fullySorted_135 : FullySorted ⟨[1, 3, 5], [], 3, .handle⟩ :=
  ⟨rfl, rfl, rfl, by decide, by decide⟩

example : ∃ s', AddElementsHandle 4 ⟨[1, 3, 5], [], 3, .handle⟩ [6, 3, 2] s' ∧
    s'.lc = [1, 2, 3, 5, 6] := by
  refine ⟨_, ⟨[2, 3, 6], ?_, rfl⟩, ?_⟩
  · rw [SortHandles, if_neg (by decide)]
    exact ⟨by decide, by decide⟩
  · simp [mergeInto, mergeFirst, mergeAll, mergeRest, attach, attachTail]

/-- If the greatest of the new elements is already in the set, all elements of the set that
are greater are lost. -/
theorem C17_sorted_fails {w : Nat} (hw : w = 4 ∨ w = 8) {s : ESet} (h : FullySorted s)
    {hs : List Nat} (hz : ElementHandles w hs) (hd : hs.Nodup) (hl : hs.length < 2 ^ 32)
    (m : Nat) (hm : m ∈ hs) (hmax : ∀ y ∈ hs, y ≤ m) (hms : m ∈ s.lc) (s' : ESet)
    (hs' : AddElementsHandle w s hs s') : ∀ x ∈ elements s, m < x → x ∉ elements s' := by
  obtain ⟨g1, g2⟩ := (addElementsHandle_exact hw h hz hd hl).2 s' hs'
  intro x _ hx hx'
  rw [elements_eq, valid_eq_self g1.valid, g2] at hx'
  have := hx'.2 m hm hmax hms
  omega

example : ∃ s', AddElementsHandle 4 ⟨[1, 3, 5], [], 3, .handle⟩ [1] s' ∧ s'.lc = [1] := by
  refine ⟨_, ⟨[1], ?_, rfl⟩, ?_⟩
  · rw [SortHandles, if_neg (by decide)]
    exact ⟨by decide, by decide⟩
  · simp [mergeInto, mergeFirst, mergeAll, mergeRest, attach, attachTail]

/-! ## C48: SortSet -/

theorem takeWhile_all {l : List Nat} (h : ∀ x ∈ l, x ≠ 0) :
    l.takeWhile (fun x => decide (x ≠ 0)) = l := by
  induction l with
  | nil => rfl
  | cons x l ih =>
    rw [List.takeWhile_cons_of_pos (by simpa using h x (by simp)),
      ih fun y hy => h y (by simp [hy])]

theorem mergeParts_spec (f : Nat → Int) (n : Nat) : ∀ (it jt : List Nat),
    it.length + jt.length = n → (∀ x ∈ it, x ≠ 0) → (∀ x ∈ jt, x ≠ 0) →
    (it.Pairwise fun x y => f x ≤ f y) → (jt.Pairwise fun x y => f x ≤ f y) →
    (mergeParts (fun x y => decide (f x < f y)) it jt).Perm (it ++ jt) ∧
    (mergeParts (fun x y => decide (f x < f y)) it jt).Pairwise fun x y => f x ≤ f y := by
  induction n using Nat.strongRecOn with
  | _ n ih =>
    intro it jt hn hz1 hz2 h1 h2
    have tw : ∀ l : List Nat, (∀ x ∈ l, x ≠ 0) → l.takeWhile (fun x => decide (x ≠ 0)) = l := by
      intro l hl
      exact takeWhile_all hl
    cases it with
    | nil =>
      rw [mergeParts, tw jt hz2]
      exact ⟨.refl _, h2⟩
    | cons x it =>
      cases jt with
      | nil =>
        rw [mergeParts, tw _ hz1, List.append_nil]
        exact ⟨.refl _, h1⟩
      | cons y jt =>
        rw [mergeParts, if_neg (hz1 x (by simp)), if_neg (hz2 y (by simp))]
        rw [List.pairwise_cons] at h1 h2
        by_cases hl : f x < f y
        · rw [if_pos (decide_eq_true hl)]
          obtain ⟨g1, g2⟩ := ih (it.length + (y :: jt).length)
            (by simp only [List.length_cons] at hn ⊢; omega) it (y :: jt) rfl
            (fun z hz => hz1 z (by simp [hz])) hz2 h1.2 (List.pairwise_cons.2 h2)
          refine ⟨g1.cons x, List.pairwise_cons.2 ⟨fun z hz => ?_, g2⟩⟩
          have hz' := g1.subset hz
          rw [List.mem_append, List.mem_cons] at hz'
          rcases hz' with hz' | rfl | hz'
          · exact h1.1 z hz'
          · omega
          · have := h2.1 z hz'; omega
        · rw [if_neg (by simpa using hl)]
          obtain ⟨g1, g2⟩ := ih ((x :: it).length + jt.length)
            (by simp only [List.length_cons] at hn ⊢; omega) (x :: it) jt rfl
            hz1 (fun z hz => hz2 z (by simp [hz])) (List.pairwise_cons.2 h1) h2.2
          refine ⟨(g1.cons y).trans List.perm_middle.symm, List.pairwise_cons.2 ⟨fun z hz => ?_, g2⟩⟩
          have hz' := g1.subset hz
          rw [List.mem_append, List.mem_cons] at hz'
          rcases hz' with (rfl | hz') | hz'
          · omega
          · have := h1.1 z hz'; omega
          · exact h2.1 z hz'

theorem finishSort_spec (f : Nat → Int) (c : Cmp) {s : ESet} {p : List Nat}
    (hh : s.holes = []) (hs : s.sorted ≤ s.lc.length) (hz : ∀ x ∈ s.lc, x ≠ 0)
    (h1 : (s.lc.take s.sorted).Pairwise fun x y => f x ≤ f y)
    (h2 : p.Perm (s.lc.drop s.sorted)) (h3 : p.Pairwise fun x y => f x ≤ f y) :
    ∃ s', finishSort (fun x y => decide (f x < f y)) c s (s.lc.take s.sorted ++ p) = some s' ∧
      s'.lc.Perm s.lc ∧ (s'.lc.Pairwise fun x y => f x ≤ f y) ∧ s'.holes = [] ∧
      s'.sorted = s'.lc.length ∧ s'.cmp = c := by
  have hp : (s.lc.take s.sorted ++ p).Perm s.lc := by
    conv => rhs; rw [← List.take_append_drop s.sorted s.lc]
    exact h2.append_left _
  have hlt : (s.lc.take s.sorted).length = s.sorted := by rw [List.length_take]; omega
  simp only [finishSort, hh, List.length_nil, Nat.sub_zero]
  by_cases h0 : 0 < s.sorted
  · rw [if_pos h0, List.take_left' hlt, List.drop_left' hlt]
    obtain ⟨g1, g2⟩ := mergeParts_spec f _ (s.lc.take s.sorted) p rfl
      (fun x hx => hz x (List.mem_of_mem_take hx))
      (fun x hx => hz x (List.mem_of_mem_drop (h2.subset hx))) h1 h3
    have e := g1.length_eq
    rw [if_pos (by omega)]
    refine ⟨_, rfl, ?_⟩
    rw [← e, Nat.sub_self, List.replicate_zero, List.append_nil, List.take_length]
    exact ⟨g1.trans hp, g2, rfl, rfl, rfl⟩
  · rw [if_neg h0]
    have h00 : s.sorted = 0 := by omega
    refine ⟨_, rfl, ?_⟩
    rw [List.take_length]
    refine ⟨hp, ?_, rfl, rfl, rfl⟩
    rw [h00]; simpa using h3

/-- `SortSet(HANDLE_COMPARATOR)` on a set without holes whose sorted part, if there is one, is
sorted by handles: the same elements in ascending order. -/
theorem C48_handle_partial (w : Nat) (hw : w = 4 ∨ w = 8) (gid : Nat → Int) (s : ESet)
    (hh : s.holes = []) (hs : s.sorted ≤ s.lc.length) (hz : ElementHandles w s.lc)
    (hl : s.lc.length < 2 ^ 32) (ha : (s.lc.take s.sorted).Pairwise (· ≤ ·)) :
    (∃ r, SortSet w gid .handle s r) ∧
    ∀ r, SortSet w gid .handle s r → ∃ s', r = some s' ∧ s'.lc.Perm s.lc ∧
      s'.lc.Pairwise (· ≤ ·) ∧ s'.holes = [] ∧ s'.sorted = s'.lc.length ∧ s'.cmp = .handle := by
  obtain ⟨⟨b, hb⟩, h2⟩ := Verif.Sort.C20_sort_handles w hw (s.lc.drop s.sorted)
    (by rw [List.length_drop]; omega) (fun x hx => hz x (List.mem_of_mem_drop hx))
  simp only [SortSet, if_pos hs]
  refine ⟨⟨_, b, hb, rfl⟩, ?_⟩
  rintro r ⟨p, hp, rfl⟩
  obtain ⟨g1, g2⟩ := h2 p hp
  obtain ⟨s', e1, e2, e3, e4⟩ := finishSort_spec (fun x => (x : Int)) .handle hh hs
    (fun x hx => Nat.pos_iff_ne_zero.1 (hz x hx).1) (ha.imp fun h => Int.ofNat_le.2 h) g1
    (g2.imp fun h => Int.ofNat_le.2 h)
  refine ⟨s', ?_, e2, e3.imp fun h => Int.ofNat_le.1 h, e4⟩
  rw [← e1]
  congr 1
  funext x y
  simp

example : SortSet 4 (fun _ => 0) .handle ⟨[2, 8, 5, 3], [], 2, .handle⟩
    (some ⟨[2, 3, 5, 8], [], 4, .handle⟩) := by
  refine ⟨[3, 5], ?_, ?_⟩
  · rw [SortHandles, if_neg (by decide)]; exact ⟨by decide, by decide⟩
  · simp [finishSort, mergeParts]

/-- `SortSet(GLOBALID_COMPARATOR)` on a set without holes whose sorted part, if there is one,
is sorted by global IDs; the global IDs are not negative. -/
theorem C48_global_id_partial (w : Nat) (hw : w = 4 ∨ w = 8) (gid : Nat → Int) (s : ESet)
    (hh : s.holes = []) (hs : s.sorted ≤ s.lc.length) (hz : ∀ x ∈ s.lc, x ≠ 0)
    (hg : ∀ x ∈ s.lc, Verif.Sort.InRange w (gid x) ∧ 0 ≤ gid x)
    (hl : s.lc.length < 2 ^ 32) (ha : (s.lc.take s.sorted).Pairwise fun x y => gid x ≤ gid y) :
    (∃ r, SortSet w gid .globalID s r) ∧
    ∀ r, SortSet w gid .globalID s r → ∃ s', r = some s' ∧ s'.lc.Perm s.lc ∧
      (s'.lc.Pairwise fun x y => gid x ≤ gid y) ∧ s'.holes = [] ∧ s'.sorted = s'.lc.length ∧
      s'.cmp = .globalID := by
  obtain ⟨⟨b, hb⟩, h2⟩ := Verif.Sort.C21_partial w hw gid (s.lc.drop s.sorted)
    (by rw [List.length_drop]; omega) (fun x hx => hz x (List.mem_of_mem_drop hx))
    (fun x hx => ⟨(hg x (List.mem_of_mem_drop hx)).1, fun _ => (hg x (List.mem_of_mem_drop hx)).2⟩)
  have hlen : (s.lc.drop s.sorted).take (s.lc.length - s.sorted) = s.lc.drop s.sorted := by
    rw [List.take_of_length_le]; rw [List.length_drop]; omega
  have hdr : s.lc.drop (s.sorted + (s.lc.length - s.sorted)) = [] :=
    List.drop_eq_nil_of_le (by omega)
  simp only [SortSet, if_pos hs, hh, ne_eq, not_true_eq_false, if_false, Nat.sub_zero, hlen, hdr,
    List.append_nil]
  refine ⟨⟨_, b, hb, rfl⟩, ?_⟩
  rintro r ⟨p, hp, rfl⟩
  obtain ⟨g1, g2⟩ := h2 p hp
  exact finishSort_spec gid .globalID hh hs hz ha g1 g2

example : SortSet 4 (fun x => 20 - x) .globalID ⟨[8, 2, 5, 9], [], 2, .globalID⟩
    (some ⟨[9, 8, 5, 2], [], 4, .globalID⟩) := by
  refine ⟨[9, 5], ?_, ?_⟩
  · rw [SortByGlobalID, if_neg (by decide)]
    exact ⟨by decide, by simp [Verif.Sort.globalIDLess]⟩
  · simp [finishSort, mergeParts]

/-- The holes listed are those of the set. -/
def HolesCounted (s : ESet) : Prop := s.holes.length = s.lc.count 0

theorem perm_split_zero {l : List Nat} : (l.filter (· ≠ 0) ++ List.replicate (l.count 0) 0).Perm l := by
  have := List.filter_append_perm (fun x => decide (x ≠ 0)) l
  refine List.Perm.trans (List.Perm.of_eq ?_) this
  congr 1
  rw [List.eq_replicate_of_mem (a := 0) (l := l.filter fun x => !decide (x ≠ 0))
    (by intro x hx; simpa using (List.mem_filter.1 hx).2)]
  congr 1
  rw [List.count_eq_countP, List.countP_eq_length_filter]
  congr 1
  apply List.filter_congr
  intro x _
  by_cases h : x = 0 <;> simp [h]

/-- With holes, on more than 32 (64) entries, none of which is sorted yet: the elements are
kept and ordered, the holes are gone. -/
theorem C48_holes_long_partial (w : Nat) (hw : w = 4 ∨ w = 8) (gid : Nat → Int) (s : ESet)
    (hh : HolesCounted s) (hs : s.sorted = 0) (hz : ∀ x ∈ s.lc, x < 256 ^ w - 1)
    (hl : s.lc.length < 2 ^ 32) (hlong : 8 * w < s.lc.length) (r : Option ESet)
    (hr : SortSet w gid .handle s r) :
    ∃ s', r = some s' ∧ (elements s').Perm (elements s) ∧ (elements s').Pairwise (· ≤ ·) ∧
      s'.lc = elements s' ∧ s'.holes = [] ∧ s'.sorted = s'.lc.length := by
  simp only [SortSet, hs, Nat.zero_le, if_true, List.drop_zero, List.take_zero,
    List.nil_append] at hr
  obtain ⟨p, hp, rfl⟩ := hr
  obtain ⟨g1, g2, -⟩ := Verif.Sort.C20_invalid_handles w hw s.lc p hl hz hp
  have g2 := g2 hlong
  -- `p` is the valid handles followed by the invalid ones
  have split : ∀ q : List Nat, (q.Pairwise fun x y => y = 0 ∨ (x ≠ 0 ∧ x ≤ y)) →
      q.take (q.length - q.count 0) = q.filter (· ≠ 0) ∧ (q.filter (· ≠ 0)).Pairwise (· ≤ ·) := by
    intro q
    induction q with
    | nil => simp
    | cons x q ih =>
      intro hq
      rw [List.pairwise_cons] at hq
      obtain ⟨i1, i2⟩ := ih hq.2
      have hc := List.count_le_length (a := 0) (l := q)
      by_cases hx : x = 0
      · subst hx
        have hall : ∀ y ∈ q, y = 0 := fun y hy => by
          rcases hq.1 y hy with h | h
          · exact h
          · exact absurd rfl h.1
        have hcq : q.count 0 = q.length := by
          rw [List.count_eq_length]; exact fun y hy => (hall y hy).symm
        have hf : q.filter (fun x => decide (x ≠ 0)) = [] := by
          rw [List.filter_eq_nil_iff]; intro y hy; simp [hall y hy]
        rw [List.filter_cons_of_neg (by simp), hf, List.count_cons_self, List.length_cons, hcq]
        simp
      · rw [List.filter_cons_of_pos (by simpa using hx), List.count_cons_of_ne hx,
          List.length_cons, show q.length + 1 - q.count 0 = (q.length - q.count 0) + 1 by omega,
          List.take_succ_cons, i1]
        refine ⟨rfl, List.pairwise_cons.2 ⟨fun y hy => ?_, i2⟩⟩
        have hy' := List.mem_filter.1 hy
        rcases hq.1 y hy'.1 with h | h
        · exact absurd h (by simpa using hy'.2)
        · exact h.2
  obtain ⟨k1, k2⟩ := split p g2
  have hlen := g1.length_eq
  simp only [finishSort, hs, Nat.lt_irrefl, if_false]
  refine ⟨_, rfl, ?_⟩
  rw [hh, ← g1.count_eq, k1, elements_eq, elements_eq]
  have vv : valid (p.filter fun x => decide (x ≠ 0)) = p.filter fun x => decide (x ≠ 0) := by
    rw [valid, List.filter_filter]; simp
  simp only [vv]
  refine ⟨g1.filter _, k2, trivial, trivial, ?_⟩
  rw [← k1, List.length_take]; omega

/-- With holes, on at most 32 (64) entries: elements are lost. -/
theorem C48_holes_fails (w : Nat) (hw : w = 4 ∨ w = 8) (gid : Nat → Int) (s : ESet)
    (hh : HolesCounted s) (hhole : s.holes ≠ []) (hne : elements s ≠ []) (hs : s.sorted = 0)
    (hz : ∀ x ∈ s.lc, x < 256 ^ w - 1) (hshort : s.lc.length ≤ 8 * w) :
    (∃ r, SortSet w gid .handle s r) ∧
    ∀ r, SortSet w gid .handle s r →
      ∃ s', r = some s' ∧ (elements s').length < (elements s).length := by
  simp only [SortSet, hs, Nat.zero_le, if_true, List.drop_zero, List.take_zero, List.nil_append]
  have hl : s.lc.length < 2 ^ 32 := by omega
  constructor
  · obtain ⟨b, hb⟩ := Verif.Sort.stdSort_exists (le := fun x y => decide (x ≤ y))
      (less := (· < ·)) s.lc
      (by intro x y h; simp at h; omega) (by intro x y z h1 h2; simp at *; omega)
      (by intro x y; simp; omega)
    exact ⟨_, b, by rw [SortHandles, if_neg (by omega)]; exact hb, rfl⟩
  rintro r ⟨p, hp, rfl⟩
  obtain ⟨g1, -, g2⟩ := Verif.Sort.C20_invalid_handles w hw s.lc p hl hz hp
  have g2 := g2 hshort
  simp only [finishSort, hs, Nat.lt_irrefl, if_false]
  refine ⟨_, rfl, ?_⟩
  rw [elements_eq, elements_eq]
  have e1 : (valid s.lc).length = (valid p).length := (g1.filter _).length_eq.symm
  rw [elements_eq] at hne
  have hcnt : p.count 0 = s.holes.length := by rw [hh, g1.count_eq]
  have hpos : 0 < p.count 0 := by
    rw [hcnt]; exact List.length_pos_iff.2 hhole
  have hvp : valid p ≠ [] := by
    intro h; rw [h] at e1; exact hne (List.length_eq_zero_iff.1 e1)
  -- the last entry of `p` is valid and it is cut
  rw [e1, ← hcnt]
  rcases List.eq_nil_or_concat p with hp0 | ⟨q, z, rfl⟩
  · rw [hp0] at hpos; simp at hpos
  · rw [List.concat_eq_append] at *
    have hzne : z ≠ 0 := by
      rintro rfl
      apply hvp
      rw [valid, List.filter_eq_nil_iff]
      intro y hy
      rcases List.mem_append.1 hy with hy | hy
      · have := (List.pairwise_append.1 g2).2.2 y hy 0 (by simp)
        simp only [Nat.le_zero] at this; simp [this]
      · simpa using hy
    have hle : (q ++ [z]).length - (q ++ [z]).count 0 ≤ q.length := by
      rw [List.length_append, List.length_singleton]; omega
    rw [List.take_append_of_le_length hle, valid, valid, List.filter_append]
    have h1 : ((q.take ((q ++ [z]).length - (q ++ [z]).count 0)).filter fun x => decide (x ≠ 0)).length
        ≤ (q.filter fun x => decide (x ≠ 0)).length :=
      ((List.take_sublist _ _).filter _).length_le
    simp only [List.length_append, List.filter_cons, hzne, ne_eq, not_false_eq_true, decide_true,
      if_true, List.filter_nil, List.length_singleton] at h1 ⊢
    omega

example : HolesCounted ⟨[7, 0, 5], [1], 0, .unsorted⟩ ∧
    SortSet 4 (fun _ => 0) .handle ⟨[7, 0, 5], [1], 0, .unsorted⟩
      (some ⟨[0, 5], [], 2, .handle⟩) := by
  refine ⟨by simp [HolesCounted], [0, 5, 7], ?_, ?_⟩
  · rw [SortHandles, if_neg (by decide)]; exact ⟨by decide, by decide⟩
  · simp [finishSort]

/-- A set that is sorted already is not sorted again when another comparator is asked for,
only the comparator is changed.  Here the set is sorted by handles, the global IDs are in the
opposite order. -/
theorem C48_other_comparator_fails (w : Nat) (hw : w = 4 ∨ w = 8) (gid : Nat → Int) (s : ESet)
    (h : FullySorted s) (r : Option ESet) (hr : SortSet w gid .globalID s r) :
    r = some { s with cmp := .globalID } := by
  simp only [SortSet, h.sorted, Nat.le_refl, if_true, h.holes, ne_eq, not_true_eq_false, if_false,
    Nat.sub_zero, Nat.sub_self, List.take_zero, Nat.add_zero, List.drop_length, List.append_nil] at hr
  obtain ⟨p, hp, rfl⟩ := hr
  have hp0 : p = [] := by
    rw [SortByGlobalID, if_neg (by simp)] at hp
    exact hp.1.eq_nil
  subst hp0
  simp only [List.take_length, List.append_nil, finishSort, h.holes, List.length_nil, Nat.sub_zero,
    h.sorted, List.drop_length]
  cases hl : s.lc with
  | nil => simp [h.sorted, hl, h.holes]
  | cons x l =>
    have tw : (x :: l).takeWhile (fun x => decide (x ≠ 0)) = x :: l := by
      exact takeWhile_all fun y hy => h.valid y (hl ▸ hy)
    simp only [mergeParts, tw, List.length_cons, Nat.zero_lt_succ, if_true, Nat.sub_self,
      List.replicate_zero, List.append_nil]
    rw [List.take_of_length_le (by simp)]

example : FullySorted ⟨[1, 3, 5], [], 3, .handle⟩ ∧
    SortSet 4 (fun x => 20 - x) .globalID ⟨[1, 3, 5], [], 3, .handle⟩
      (some ⟨[1, 3, 5], [], 3, .globalID⟩) ∧
    ¬ [1, 3, 5].Pairwise fun x y : Nat => (20 - x : Int) ≤ 20 - y := by
  refine ⟨fullySorted_135, ⟨[], ?_, ?_⟩, by decide⟩
  · rw [SortByGlobalID, if_neg (by decide)]; exact ⟨by decide, by simp⟩
  · simp [finishSort, mergeParts]

/-- After `Clear` on a sorted set the next `SortSet` is undefined: the number of sorted
elements was not reset. -/
theorem C48_after_clear_fails (w : Nat) (gid : Nat → Int) (s : ESet) (h : 0 < s.sorted)
    (c : Cmp) (hc : c = .handle ∨ c = .globalID) (r : Option ESet)
    (hr : SortSet w gid c (clearSet s) r) : r = none := by
  have h1 : ¬ (clearSet s).sorted ≤ (clearSet s).lc.length := by
    simp only [clearSet, List.length_nil]; omega
  rcases hc with rfl | rfl
  · simp only [SortSet, if_neg h1] at hr; exact hr
  · simp only [SortSet, if_neg h1] at hr; exact hr

example : (0 : Nat) < (ESet.mk [1, 3, 5] [] 3 .handle).sorted := by decide

/-- `SortSet(UNSORTED_COMPARATOR)` keeps the elements of any set. -/
theorem C48_unsorted (w : Nat) (gid : Nat → Int) (s : ESet) (r : Option ESet)
    (hr : SortSet w gid .unsorted s r) :
    ∃ s', r = some s' ∧ elements s' = elements s ∧ size s' = size s ∧ s'.cmp = .unsorted :=
  ⟨_, hr, rfl, rfl, rfl⟩

/-! ## C49: sorted sets as sets -/

/-- After any history of `AddElement` on a set sorted by handles, without holes, it is sorted
and enumerates exactly the elements it had and those added, each once; `FindHandle` by binary
search answers whether an element is among them, and `RemoveElement` removes that element and
no other.  Missing: a second removal and additions after a removal, see `C49_holes_fails`;
elements added by `PutElement`, see `C49_put_fails`. -/
theorem C49_partial (s : ESet) (h : FullySorted s) (es : List Nat) (he : ∀ e ∈ es, e ≠ 0) :
    let t := es.foldl addSorted s
    (∀ x, x ∈ elements t ↔ x ∈ elements s ∨ x ∈ es) ∧ (elements t).Pairwise (· < ·) ∧
    size t = (elements t).length ∧
    (∀ e, findHandle t e = true ↔ e ∈ elements s ∨ e ∈ es) ∧
    ∀ e, e ≠ 0 → (∀ x, x ∈ elements (removeSorted t e) ↔ x ∈ elements t ∧ x ≠ e) ∧
      (elements (removeSorted t e)).Pairwise (· < ·) ∧
      size (removeSorted t e) = (elements (removeSorted t e)).length := by
  have key : ∀ (es : List Nat) (s : ESet), FullySorted s → (∀ e ∈ es, e ≠ 0) →
      FullySorted (es.foldl addSorted s) ∧
      ∀ x, x ∈ (es.foldl addSorted s).lc ↔ x ∈ s.lc ∨ x ∈ es := by
    intro es
    induction es with
    | nil => intro s h _; exact ⟨h, by simp⟩
    | cons e es ih =>
      intro s h he
      obtain ⟨g1, g2⟩ := addSorted_spec h (he e (by simp))
      obtain ⟨k1, k2⟩ := ih _ g1 fun e' h' => he e' (by simp [h'])
      refine ⟨k1, fun x => ?_⟩
      rw [List.foldl_cons, k2, g2, List.mem_cons, or_assoc]
  obtain ⟨k1, k2⟩ := key es s h he
  have e1 : elements (es.foldl addSorted s) = (es.foldl addSorted s).lc := by
    rw [elements_eq, valid_eq_self k1.valid]
  have e2 : elements s = s.lc := by rw [elements_eq, valid_eq_self h.valid]
  refine ⟨fun x => by rw [e1, e2, k2], by rw [e1]; exact k1.asc, ?_, fun e => ?_,
    fun e he0 => removeSorted_spec k1 e he0⟩
  · rw [e1, size, k1.holes]; rfl
  · rw [findHandle_spec k1, e2, k2]

example : FullySorted ⟨[1, 3, 5], [], 3, .handle⟩ ∧
    ([4, 3, 9, 2].foldl addSorted ⟨[1, 3, 5], [], 3, .handle⟩).lc = [1, 2, 3, 4, 5, 9] := by
  refine ⟨fullySorted_135, ?_⟩
  simp [addSorted, findPos, lowerBound]

/-- A hole spoils the binary search: after removing 3 and 5 from `{1,3,5,7,9}` the element 1,
which is still in the set, is neither found nor removed, and adding it makes it appear
twice. -/
theorem C49_holes_fails :
    let s := removeSorted (removeSorted ⟨[1, 3, 5, 7, 9], [], 5, .handle⟩ 3) 5
    1 ∈ elements s ∧ findHandle s 1 = false ∧ elements (removeSorted s 1) = elements s ∧
      elements (addSorted s 1) = [1, 1, 7, 9] := by
  simp [removeSorted, findPos, lowerBound, elements_eq, valid, findHandle, addSorted, removeTail]

/-- An element added by `PutElement` to a sorted set is not found, and can be added again. -/
theorem C49_put_fails :
    let s := putSorted ⟨[1, 3, 5], [], 3, .handle⟩ 2
    2 ∈ elements s ∧ findHandle s 2 = false ∧ elements (removeSorted s 2) = elements s ∧
      elements (addSorted s 2) = [1, 2, 3, 5, 2] := by
  simp [putSorted, removeSorted, findPos, lowerBound, elements_eq, valid, findHandle, addSorted]

end Verif.Sets
