import Verif.Copy.Assign
import Verif.Storage.Props

/-! # Calls on a copy -/

namespace Verif.Copy

open Verif.Storage

variable {V : Type} {zero : Nat → Option Nat → V}

/-- A state that is consistent but for `back_links`. -/
def Usable (zero : Nat → Option Nat → V) (s : Sto V) : Prop := ∃ B, Inv zero (withBack B s)

theorem map_some_inv {α β : Type} {f : α → β} {x : Option α} {b : β} (h : x.map f = some b) :
    ∃ a, x = some a ∧ f a = b := by
  cases x with
  | none => cases h
  | some a => exact ⟨a, rfl, Option.some.inj h⟩

theorem slot_back (B : ET → Nat → Option Nat) (s : Sto V) (t : ET) (id : Nat) : slot (withBack B s) t id = slot s t id := rfl

theorem find_back (B : ET → Nat → Option Nat) (s : Sto V) (i : Nat) : findTag (withBack B s) i = findTag s i := rfl

theorem readAt_back (B : ET → Nat → Option Nat) (s : Sto V) (t : ET) (a i : Nat) :
    readAt (withBack B s) t a i = readAt s t a i := rfl

theorem read_back (B : ET → Nat → Option Nat) (s : Sto V) (t : ET) (id i : Nat) :
    Storage.read (withBack B s) t id i = Storage.read s t id i := rfl

theorem Usable.tie {s s' : Sto V} {t : ET} {id : Nat} (U : Usable zero s) (ht : t ≠ 5)
    (e : Storage.tie zero s t = some (s', id)) : Usable zero s' := by
  obtain ⟨B, I⟩ := U
  obtain ⟨B', h⟩ := tie_back (zero := zero) B s t
  obtain ⟨s1, id1, e1, I1, -⟩ := tie_spec I ht
  rw [e1, e] at h
  cases h
  exact ⟨B', I1⟩

theorem Usable.destroy {s s' : Sto V} {t : ET} {id : Nat} (U : Usable zero s)
    (e : Storage.destroy zero s t id = some s') : Usable zero s' := by
  obtain ⟨B, I⟩ := U
  obtain ⟨B', h⟩ := destroy_back (zero := zero) B s t id
  have hs : slot s t id ≠ none := by
    intro h; unfold Storage.destroy at e; rw [h] at e; cases e
  obtain ⟨a, ha⟩ := Option.ne_none_iff_exists'.1 hs
  have hm : s.modified = false := by
    cases hm : s.modified with
    | false => rfl
    | true =>
      unfold Storage.destroy untie at e
      rw [ha] at e
      simp [hm] at e
  obtain ⟨s1, e1, I1, -⟩ := destroy_spec I (t := t) (id := id) (a := a) hm ha
  rw [e1, e] at h
  cases h
  exact ⟨B', I1⟩

theorem Usable.write {s s' : Sto V} {t : ET} {id i : Nat} {v : V} (U : Usable zero s)
    (e : Storage.write s t id i v = some s') : Usable zero s' := by
  obtain ⟨B, I⟩ := U
  have h := write_back B s t id i v
  rw [e] at h
  have e' := e
  unfold Storage.write at e'
  split at e'
  · next a τ h1 h2 =>
    by_cases hd : τ.defined t = true
    · obtain ⟨s1, e1, I1, -⟩ := write_spec I (t := t) (id := id) (i := i) h1 h2 hd v
      rw [e1] at h; cases h; exact ⟨B, I1⟩
    · rw [if_neg hd] at e'; cases e'
  · cases e'

theorem Usable.delData {s s' : Sto V} {t : ET} {id i : Nat} (U : Usable zero s)
    (e : Storage.delData zero s t id i = some s') : Usable zero s' := by
  obtain ⟨B, I⟩ := U
  have h := delData_back (zero := zero) B s t id i
  rw [e] at h
  have e' := e
  unfold Storage.delData at e'
  split at e'
  · next a τ h1 h2 =>
    by_cases hd : τ.defined t = true
    · obtain ⟨s1, e1, I1, -⟩ := delData_spec I (t := t) (id := id) (i := i) h1 h2 hd
      rw [e1] at h; cases h; exact ⟨B, I1⟩
    · rw [if_neg hd] at e'; cases e'
  · cases e'

theorem Usable.createTag {s s' : Sto V} {i : Nat} {name : String} {dtype : Nat} {size : Option Nat}
    {mask sparse : ET → Bool} {newId : Nat} (U : Usable zero s) (P : CreatePre s name dtype size mask sparse newId)
    (e : Storage.createTag zero s name dtype size mask sparse newId = some (s', i)) : Usable zero s' := by
  obtain ⟨B, I⟩ := U
  have h := createTag_back (zero := zero) B s name dtype size mask sparse newId
  obtain ⟨s1, i1, e1, I1, -⟩ := createTag_spec I (name := name) (dtype := dtype) (size := size) (mask := mask)
    (sparse := sparse) (newId := newId) ⟨P.fresh, P.same, P.stale⟩
  rw [e1, e] at h; cases h; exact ⟨B, I1⟩

theorem Usable.deleteTag {s s' : Sto V} {i : Nat} {mask : ET → Bool} (U : Usable zero s)
    (e : Storage.deleteTag zero s i mask = some s') : Usable zero s' := by
  obtain ⟨B, I⟩ := U
  have h := deleteTag_back (zero := zero) B s i mask
  cases hf : findTag s i with
  | none => unfold Storage.deleteTag at e; rw [hf] at e; cases e
  | some τ =>
    obtain ⟨s1, e1, I1, -⟩ := deleteTag_spec I (mask := mask) (i := i) hf
    rw [e1, e] at h; cases h; exact ⟨B, I1⟩

theorem Usable.later {c s : Sto V} (U : Usable zero c) (L : Later zero false c s) : Usable zero s := by
  induction L with
  | copy => exact U
  | create t _ ht e ih => exact ih.tie ht e
  | destroy t id _ e ih => exact ih.destroy e
  | reorder t h => cases h
  | write t id i v _ e ih => exact ih.write e
  | delData t id i _ e ih => exact ih.delData e
  | createTag _ P e ih => exact ih.createTag P e
  | deleteTag i mask _ e ih => exact ih.deleteTag e
  | modification b _ ih =>
    obtain ⟨B, I⟩ := ih
    exact ⟨B, I.liveEq rfl rfl rfl rfl rfl⟩

theorem Usable.sound {s : Sto V} (U : Usable zero s) : Sound zero s := by
  obtain ⟨B, I⟩ := U
  refine ⟨fun t id id' a h h' => I.slot_inj (t := t) h h', ?_, ?_, ?_, ?_⟩
  · intro τ hτ σ hσ t u p h1 h2 h3 h4
    exact I.D.dist τ hτ σ hσ t u p (colOf_some.2 ⟨h1, h2⟩) (colOf_some.2 ⟨h3, h4⟩)
  · intro t ht
    obtain ⟨B', h⟩ := tie_back (zero := zero) B s t
    obtain ⟨s1, id, e1, -, -, -, h1, ⟨a, h2, -⟩, h4, h5, h6⟩ := tie_spec I ht
    rw [e1] at h
    obtain ⟨⟨s', id'⟩, e, h'⟩ := map_some_inv h.symm
    cases h'
    refine ⟨s', _, e, by rw [alive, ← slot_back B, h1]; simp, by rw [alive, ← slot_back B', h2]; simp, ?_, ?_⟩
    · intro u j hne
      have hs : slot s' u j = slot s u j := h4 u j hne
      refine ⟨hs, fun i => ?_⟩
      unfold Storage.read
      rw [hs]
      cases h : slot s u j with
      | none => rfl
      | some b => exact h5 u b ⟨j, h⟩ i
    · intro τ hτ hd
      have h6' := h6 τ.id
      rw [freshVal, I.D.find hτ] at h6'
      simp only [hd, if_true] at h6'
      refine Eq.trans h6' ?_
      split <;> rfl
  · intro hm t id ha
    obtain ⟨a, ha⟩ := Option.ne_none_iff_exists'.1 ha
    obtain ⟨B', h⟩ := destroy_back (zero := zero) B s t id
    obtain ⟨s1, e1, -, -, -, h1, h2, h3⟩ := destroy_spec I (t := t) (id := id) (a := a) hm ha
    rw [e1] at h
    obtain ⟨s', e, h'⟩ := map_some_inv h.symm
    cases h'
    refine ⟨s', e, by rw [alive, ← slot_back B', h1]; simp, ?_⟩
    intro u j hne
    have hs : slot s' u j = slot s u j := h2 u j hne
    refine ⟨hs, fun i => ?_⟩
    unfold Storage.read
    rw [hs]
    cases hj : slot s u j with
    | none => rfl
    | some b =>
      refine h3 u b ?_ i
      by_cases e : u = t
      · subst e
        right
        rintro rfl
        exact hne.elim (fun h => h rfl) (fun h => h (I.slot_inj (t := u) hj ha))
      · exact Or.inl e
  · intro t id i τ v ha hf hd
    obtain ⟨a, ha⟩ := Option.ne_none_iff_exists'.1 ha
    have h := write_back B s t id i v
    obtain ⟨s1, e1, -, -, -, h2, h3, h4⟩ := write_spec I (t := t) (id := id) (i := i) ha hf hd v
    rw [e1] at h
    obtain ⟨s', e, h'⟩ := map_some_inv h.symm
    cases h'
    exact ⟨s', e, h3, h4, h2⟩

end Verif.Copy
