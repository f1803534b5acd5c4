import Mathlib.Data.List.Nodup

/-!
# Renaming a tag (C153)

Models `TagManager::RenameTag` (`/repo/Source/Data/tag.cpp` L318-334) and `Tag::ChangeName` (L92-96).

A tag is a name and its record; all copies of a `Tag` refer to the record, which is here its number.
-/

namespace Verif.Names.Rename

/-- the second loop, L325-332 -/
def change (old new : String) : List (String × Nat) → Option (List (String × Nat))
  | [] => none
  | (n, m) :: r => if n = old then some ((new, m) :: r) else (change old new r).map ((n, m) :: ·)

/-- `RenameTag`: the result and the tags -/
def rename (old new : String) (tags : List (String × Nat)) : Bool × List (String × Nat) :=
  if tags.any fun t => t.1 == new then (false, tags)
  else match change old new tags with
    | some t => (true, t)
    | none => (false, tags)

theorem change_spec (old new : String) : ∀ tags : List (String × Nat), (tags.map Prod.fst).Nodup → new ∉ tags.map Prod.fst →
    (change old new tags = none ∧ old ∉ tags.map Prod.fst) ∨
    ∃ t, change old new tags = some t ∧ old ∈ tags.map Prod.fst ∧ t.map Prod.snd = tags.map Prod.snd ∧
      (∀ n m, (n, m) ∈ t ↔ (n = new ∧ (old, m) ∈ tags) ∨ (n ≠ old ∧ (n, m) ∈ tags)) ∧ (t.map Prod.fst).Nodup
  | [], _, _ => .inl ⟨rfl, by simp⟩
  | (n, m) :: r, hnd, hnew => by
    simp only [List.map_cons, List.nodup_cons, List.mem_cons, not_or] at hnd hnew
    unfold change
    by_cases h : n = old
    · subst h
      rw [if_pos rfl]
      refine .inr ⟨_, rfl, by simp, by simp, ?_, ?_⟩
      · intro a b
        simp only [List.mem_cons, Prod.mk.injEq]
        have hno : ∀ b, (n, b) ∉ r := fun b hb => hnd.1 (List.mem_map.2 ⟨_, hb, rfl⟩)
        constructor
        · rintro (⟨rfl, rfl⟩ | hb)
          · exact .inl ⟨rfl, .inl (by simp)⟩
          · refine .inr ⟨?_, .inr hb⟩
            rintro rfl; exact hno b hb
        · rintro (⟨rfl, ⟨-, rfl⟩ | hb⟩ | ⟨ha, ⟨hc, -⟩ | hb⟩)
          · exact .inl ⟨rfl, rfl⟩
          · exact absurd hb (hno b)
          · exact absurd hc ha
          · exact .inr hb
      · simp only [List.map_cons, List.nodup_cons]
        exact ⟨hnew.2, hnd.2⟩
    · rw [if_neg h]
      rcases change_spec old new r hnd.2 hnew.2 with ⟨h1, h2⟩ | ⟨t, h1, h2, h3, h4, h5⟩
      · left
        rw [h1]
        refine ⟨rfl, ?_⟩
        simp only [List.map_cons, List.mem_cons, not_or]
        exact ⟨fun e => h e.symm, h2⟩
      · right
        rw [h1]
        refine ⟨_, rfl, by simp [h2], by simp [h3], ?_, ?_⟩
        · intro a b
          simp only [List.mem_cons, Prod.mk.injEq, h4]
          constructor
          · rintro (⟨rfl, rfl⟩ | ⟨rfl, hb⟩ | ⟨ha, hb⟩)
            · exact .inr ⟨h, .inl ⟨rfl, rfl⟩⟩
            · exact .inl ⟨rfl, .inr hb⟩
            · exact .inr ⟨ha, .inr hb⟩
          · rintro (⟨rfl, ⟨hc, -⟩ | hb⟩ | ⟨ha, ⟨rfl, rfl⟩ | hb⟩)
            · exact absurd hc.symm h
            · exact .inr (.inl ⟨rfl, hb⟩)
            · exact .inl ⟨rfl, rfl⟩
            · exact .inr (.inr ⟨ha, hb⟩)
        · simp only [List.map_cons, List.nodup_cons]
          refine ⟨?_, h5⟩
          intro hm
          obtain ⟨⟨a, b⟩, hab, rfl⟩ := List.mem_map.1 hm
          rcases (h4 a b).1 hab with ⟨e, _⟩ | ⟨_, hb⟩
          · exact hnew.1 e.symm
          · exact hnd.1 (List.mem_map.2 ⟨_, hb, rfl⟩)

/-- **C153**: renaming succeeds exactly if there is a tag of the old name and none of the new one. Then the tag has the new name, all other tags keep theirs, the order of
tags is the same and names stay distinct. Otherwise nothing changes. -/
theorem C153_rename (old new : String) (tags : List (String × Nat)) (hnd : (tags.map Prod.fst).Nodup) :
    ((rename old new tags).1 = true ↔ old ∈ tags.map Prod.fst ∧ new ∉ tags.map Prod.fst) ∧
    ((rename old new tags).1 = false → (rename old new tags).2 = tags) ∧
    ((rename old new tags).1 = true → ∀ n m, (n, m) ∈ (rename old new tags).2 ↔ (n = new ∧ (old, m) ∈ tags) ∨ (n ≠ old ∧ (n, m) ∈ tags)) ∧
    (rename old new tags).2.map Prod.snd = tags.map Prod.snd ∧ ((rename old new tags).2.map Prod.fst).Nodup := by
  unfold rename
  by_cases hn : new ∈ tags.map Prod.fst
  · have : (tags.any fun t => t.1 == new) = true := by
      obtain ⟨t, ht, e⟩ := List.mem_map.1 hn
      exact List.any_eq_true.2 ⟨t, ht, by simpa using e⟩
    simp only [this, if_true]
    exact ⟨by simp [hn], by simp, by simp, trivial, hnd⟩
  · have : ¬ (tags.any fun t => t.1 == new) = true := by
      intro h
      obtain ⟨t, ht, e⟩ := List.any_eq_true.1 h
      exact hn (List.mem_map.2 ⟨t, ht, by simpa using e⟩)
    rw [if_neg this]
    rcases change_spec old new tags hnd hn with ⟨h1, h2⟩ | ⟨t, h1, h2, h3, h4, h5⟩
    · rw [h1]
      exact ⟨by simp only [Bool.false_eq_true, false_iff, not_and]; exact fun h => absurd h h2, fun _ => rfl, by simp, rfl, hnd⟩
    · rw [h1]
      exact ⟨by simp only [true_iff]; exact ⟨h2, hn⟩, by simp, fun _ => h4, h3, h5⟩

/-- After every history of renamings, the tags are the same as at the start, in their order, and have distinct names. -/
theorem C153_history : ∀ (ops : List (String × String)) (tags : List (String × Nat)), (tags.map Prod.fst).Nodup →
    (ops.foldl (fun t o => (rename o.1 o.2 t).2) tags).map Prod.snd = tags.map Prod.snd ∧
    ((ops.foldl (fun t o => (rename o.1 o.2 t).2) tags).map Prod.fst).Nodup
  | [], _, h => ⟨rfl, h⟩
  | o :: r, tags, h => by
    obtain ⟨_, _, _, h1, h2⟩ := C153_rename o.1 o.2 tags h
    obtain ⟨h3, h4⟩ := C153_history r _ h2
    exact ⟨h3.trans h1, h4⟩

/-- Three tags: the second is renamed. -/
example : rename "b" "d" [("a", 1), ("b", 2), ("c", 3)] = (true, [("a", 1), ("d", 2), ("c", 3)]) ∧
    rename "b" "c" [("a", 1), ("b", 2), ("c", 3)] = (false, [("a", 1), ("b", 2), ("c", 3)]) := by decide

end Verif.Names.Rename
