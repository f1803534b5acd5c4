import Verif.Storage.Lemmas

/-! # Invariant of the links of one element type and its preservation -/

namespace Verif.Storage

variable {V : Type} {zero : Nat → Option Nat → V}

/-- Consistency of `links`, `back_links` and the two stacks of holes of one type. -/
structure LInv (t : ET) (S : TS V) : Prop where
  l1 : S.emptyLinks.Nodup
  l2 : ∀ i, i ∈ S.emptyLinks ↔ i < S.nlinks ∧ S.links i = none
  s1 : S.emptySpace.Nodup
  s2 : ∀ a, a ∈ S.emptySpace ↔ a < S.occupied ∧ S.back a = none
  b1 : ∀ i a, i < S.nlinks → S.links i = some a → a < S.occupied ∧ S.back a = some i
  b2 : ∀ a i, a < S.nback → S.back a = some i → i < S.nlinks ∧ S.links i = some a
  cap : S.nback = clampSize t S.capacity
  mesh : t = 5 → S.occupied ≤ 1

theorem length_le_of_nodup_lt {l : List Nat} {n : Nat} (h : l.Nodup) (hl : ∀ i ∈ l, i < n) :
    l.length ≤ n := by
  have : l.Subperm (List.range n) := List.subperm_of_subset h (by
    intro x hx; exact List.mem_range.2 (hl x hx))
  simpa using this.length_le

theorem LInv.elen {t : ET} {S : TS V} (L : LInv t S) : S.emptyLinks.length ≤ S.nlinks :=
  length_le_of_nodup_lt L.l1 (fun i hi => ((L.l2 i).1 hi).1)

theorem LInv.occ_le {t : ET} {S : TS V} (L : LInv t S) : S.occupied ≤ S.nback := by
  rw [L.cap]
  by_cases e : t = 5
  · have := L.mesh e
    have := clamp_pos t S.capacity
    omega
  · have := le_clamp t S.capacity (fun h => absurd h e)
    have := le_physical S.occupied
    unfold TS.capacity at *
    omega

theorem linv_tie {t : ET} {S S' : TS V} (L : LInv t S) (ht : t ≠ 5) {addr id : Nat}
    (hes : S.emptySpace = addr :: S'.emptySpace ∨
      (addr = S.occupied ∧ S'.emptySpace = S.emptySpace))
    (hel : (S.emptyLinks = id :: S'.emptyLinks ∧ S'.nlinks = S.nlinks) ∨
      (S.emptyLinks = [] ∧ S'.emptyLinks = [] ∧ id = S.nlinks ∧ S'.nlinks = S.nlinks + 1))
    (hl : S'.links = upd S.links id (some addr))
    (hb : ∀ k, k < S'.nback → S'.back k =
      if k = addr then some id else if k < S.nback then S.back k else none)
    (hn : S'.nback = clampSize t S'.capacity) :
    LInv t S' ∧ addr < S'.nback ∧ id < S'.nlinks ∧
      ¬ (id < S.nlinks ∧ S.links id ≠ none) ∧ (∀ i, i < S.nlinks → i < S'.nlinks) ∧
      (∀ i, i < S'.nlinks → i ≠ id → i < S.nlinks) ∧
      ∀ i a, i < S.nlinks → S.links i = some a → a ≠ addr := by
  have hlen := L.elen
  have hocc := L.occ_le
  have occ' : S'.occupied = if S.emptySpace = addr :: S'.emptySpace then S.occupied
      else S.occupied + 1 := by
    unfold TS.occupied
    rcases hel with ⟨h1, h2⟩ | ⟨h1, h2, h3, h4⟩
    · rw [h1] at hlen ⊢
      simp only [List.length_cons] at hlen ⊢
      split
      · next e => rw [e]; simp only [List.length_cons]; omega
      · next e =>
        rcases hes with h | ⟨_, h⟩
        · exact absurd h e
        · rw [h]; omega
    · rw [h1, h2] at *
      split
      · next e => rw [e]; simp only [List.length_cons, List.length_nil]; omega
      · next e =>
        rcases hes with h | ⟨_, h⟩
        · exact absurd h e
        · rw [h]; simp only [List.length_nil]; omega
  have haddr : addr < S'.occupied := by
    rw [occ']
    split
    · next e => exact ((L.s2 addr).1 (by rw [e]; simp)).1
    · next e =>
      rcases hes with h | ⟨h, _⟩
      · exact absurd h e
      · omega
  have hcap : S'.occupied ≤ S'.nback := by
    rw [hn]
    have := le_clamp t S'.capacity (fun h => absurd h ht)
    have := le_physical S'.occupied
    unfold TS.capacity at *
    omega
  have hfresh : ∀ i a, i < S.nlinks → S.links i = some a → a ≠ addr := by
    rintro i a hi ha rfl
    obtain ⟨h1, h2⟩ := L.b1 i a hi ha
    rcases hes with h | ⟨h, _⟩
    · have := ((L.s2 a).1 (by rw [h]; simp)).2
      rw [this] at h2; cases h2
    · omega
  have hid : id < S'.nlinks := by
    rcases hel with ⟨h1, h2⟩ | ⟨h1, h2, h3, h4⟩
    · have := (L.l2 id).1 (by rw [h1]; simp); omega
    · omega
  have hidfree : ¬ (id < S.nlinks ∧ S.links id ≠ none) := by
    rintro ⟨h5, h6⟩
    rcases hel with ⟨h1, h2⟩ | ⟨h1, h2, h3, h4⟩
    · exact h6 ((L.l2 id).1 (by rw [h1]; simp)).2
    · omega
  have hnl : ∀ i, i < S.nlinks → i < S'.nlinks := by
    intro i hi
    rcases hel with ⟨h1, h2⟩ | ⟨h1, h2, h3, h4⟩ <;> omega
  have hnl' : ∀ i, i < S'.nlinks → i ≠ id → i < S.nlinks := by
    intro i hi hne
    rcases hel with ⟨h1, h2⟩ | ⟨h1, h2, h3, h4⟩ <;> omega
  have hmono : S.occupied ≤ S'.occupied := by rw [occ']; split <;> omega
  refine ⟨⟨?_, ?_, ?_, ?_, ?_, ?_, hn, fun h => absurd h ht⟩, by omega, hid, hidfree, hnl, hnl',
    hfresh⟩
  · rcases hel with ⟨h1, h2⟩ | ⟨h1, h2, h3, h4⟩
    · have := L.l1; rw [h1] at this; exact this.of_cons
    · rw [h2]; exact List.nodup_nil
  · intro i
    rw [hl]
    by_cases e : i = id
    · subst e
      rw [upd_self]
      simp only [reduceCtorEq, and_false, iff_false]
      rcases hel with ⟨h1, h2⟩ | ⟨h1, h2, h3, h4⟩
      · have := L.l1; rw [h1, List.nodup_cons] at this; exact this.1
      · rw [h2]; simp
    · rw [upd_ne _ _ e]
      have := L.l2 i
      rcases hel with ⟨h1, h2⟩ | ⟨h1, h2, h3, h4⟩
      · rw [h1] at this
        simp only [List.mem_cons, e, false_or] at this
        rw [this, h2]
      · rw [h1] at this
        rw [h2]
        simp only [List.not_mem_nil, false_iff] at this ⊢
        rintro ⟨h5, h6⟩
        exact this ⟨by omega, h6⟩
  · rcases hes with h | ⟨_, h⟩
    · have := L.s1; rw [h] at this; exact this.of_cons
    · rw [h]; exact L.s1
  · intro a
    by_cases e : a = addr
    · subst e
      rw [hb a (by omega), if_pos rfl]
      simp only [reduceCtorEq, and_false, iff_false]
      rcases hes with h | ⟨h, h'⟩
      · have := L.s1; rw [h, List.nodup_cons] at this; exact this.1
      · rw [h']; intro hm; have := ((L.s2 a).1 hm).1; omega
    · have key : a ∈ S'.emptySpace ↔ a ∈ S.emptySpace := by
        rcases hes with h | ⟨_, h⟩
        · rw [h]; simp [e]
        · rw [h]
      rw [key, L.s2]
      constructor
      · rintro ⟨h1, h2⟩
        refine ⟨by omega, ?_⟩
        rw [hb a (by omega), if_neg e, if_pos (by omega)]; exact h2
      · rintro ⟨h1, h2⟩
        have h3 : a < S.occupied := by
          rw [occ'] at h1
          split at h1
          · exact h1
          · next e2 =>
            rcases hes with h | ⟨h, _⟩
            · exact absurd h e2
            · omega
        rw [hb a (by omega), if_neg e, if_pos (by omega)] at h2
        exact ⟨h3, h2⟩
  · intro i a hi ha
    rw [hl] at ha
    by_cases e : i = id
    · subst e
      rw [upd_self] at ha
      cases ha
      exact ⟨haddr, by rw [hb addr (by omega), if_pos rfl]⟩
    · rw [upd_ne _ _ e] at ha
      obtain ⟨h1, h2⟩ := L.b1 i a (hnl' i hi e) ha
      have := hfresh i a (hnl' i hi e) ha
      refine ⟨by omega, ?_⟩
      rw [hb a (by omega), if_neg this, if_pos (by omega)]; exact h2
  · intro a i ha hba
    rw [hb a ha] at hba
    by_cases e : a = addr
    · rw [if_pos e] at hba
      cases hba
      exact ⟨hid, by rw [hl, upd_self, e]⟩
    · rw [if_neg e] at hba
      split at hba
      · next h =>
        obtain ⟨h1, h2⟩ := L.b2 a i h hba
        refine ⟨hnl i h1, ?_⟩
        rw [hl, upd_ne]
        · exact h2
        · rintro rfl
          exact hidfree ⟨h1, by rw [h2]; simp⟩
      · cases hba

/-- Untying an element. -/
theorem linv_untie {t : ET} {S : TS V} (L : LInv t S) {id a : Nat} (hi : id < S.nlinks)
    (ha : S.links id = some a) :
    LInv t { S with
        links := upd S.links id none
        back := upd S.back a none
        emptySpace := a :: S.emptySpace
        emptyLinks := id :: S.emptyLinks } := by
  have hlen := L.elen
  obtain ⟨ho, hb⟩ := L.b1 id a hi ha
  have hnl : id ∉ S.emptyLinks := by
    intro h; have := ((L.l2 id).1 h).2; rw [ha] at this; cases this
  have hns : a ∉ S.emptySpace := by
    intro h; have := ((L.s2 a).1 h).2; rw [hb] at this; cases this
  have hlt : S.emptyLinks.length < S.nlinks := by
    have : (id :: S.emptyLinks).length ≤ S.nlinks := by
      apply length_le_of_nodup_lt (List.nodup_cons.2 ⟨hnl, L.l1⟩)
      intro i h
      rcases List.mem_cons.1 h with rfl | h
      · exact hi
      · exact ((L.l2 i).1 h).1
    simp only [List.length_cons] at this
    omega
  have hocc : TS.occupied { S with
        links := upd S.links id none
        back := upd S.back a none
        emptySpace := a :: S.emptySpace
        emptyLinks := id :: S.emptyLinks } = S.occupied := by
    simp only [TS.occupied, List.length_cons]; omega
  refine ⟨List.nodup_cons.2 ⟨hnl, L.l1⟩, ?_, List.nodup_cons.2 ⟨hns, L.s1⟩, ?_, ?_, ?_, ?_, ?_⟩
  · intro i
    simp only [List.mem_cons]
    by_cases e : i = id
    · subst e; simp [upd_self, hi]
    · rw [upd_ne _ _ e, ← L.l2]; simp [e]
  · intro x
    rw [hocc]
    simp only [List.mem_cons]
    by_cases e : x = a
    · subst e; simp [upd_self, ho]
    · rw [upd_ne _ _ e, ← L.s2]; simp [e]
  · intro i x h1 h2
    rw [hocc]
    simp only at h1 h2 ⊢
    by_cases e : i = id
    · subst e; rw [upd_self] at h2; cases h2
    · rw [upd_ne _ _ e] at h2
      obtain ⟨h3, h4⟩ := L.b1 i x h1 h2
      refine ⟨h3, ?_⟩
      rw [upd_ne]
      · exact h4
      · rintro rfl; rw [hb] at h4; cases h4; exact e rfl
  · intro x i h1 h2
    simp only at h1 h2 ⊢
    by_cases e : x = a
    · subst e; rw [upd_self] at h2; cases h2
    · rw [upd_ne _ _ e] at h2
      obtain ⟨h3, h4⟩ := L.b2 x i h1 h2
      refine ⟨h3, ?_⟩
      rw [upd_ne]
      · exact h4
      · rintro rfl; rw [ha] at h4; cases h4; exact e rfl
  · simp only [TS.capacity, hocc]; exact L.cap
  · intro h; rw [hocc]; exact L.mesh h

end Verif.Storage
