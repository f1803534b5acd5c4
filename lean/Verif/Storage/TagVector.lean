import Mathlib.Data.List.Basic

/-!
# Values of a tag in an array (C152)

Models `Mesh::CopyVector2Tag` and `Mesh::CopyTag2Vector` (`/repo/Source/Mesh/mesh.cpp` L2715-2860): four types of values, with positions by `DataLocalID()` or by a tag.

Simplifications: one type of values; positions are a given function; `none` is an access behind the end of the array (or before its start), which is undefined.
-/

namespace Verif.Storage.TagVector

/-- the loops of `CopyVector2Tag`, e.g. L2718-2719, L2725-2726: the tag is a function of the element -/
def vector2Tag {α : Type} (pos : Nat → Int) (input : List α) : List Nat → (Nat → α) → Option (Nat → α)
  | [], out => some out
  | e :: r, out =>
    if 0 ≤ pos e then
      match input[(pos e).toNat]? with
      | none => none
      | some v => vector2Tag pos input r (fun x => if x = e then v else out x)
    else none

/-- the first loop of `CopyTag2Vector`, e.g. L2732-2734 -/
def size (pos : Nat → Int) : List Nat → Int → Int
  | [], s => s
  | e :: r, s => size pos r (max s (pos e))

/-- `output.resize(size)` -/
def resize {α : Type} (dflt : α) (out : List α) (n : Nat) : List α := out.take n ++ List.replicate (n - out.length) dflt

/-- the second loop, e.g. L2736-2737 -/
def fill {α : Type} (pos : Nat → Int) (input : Nat → α) : List Nat → List α → Option (List α)
  | [], out => some out
  | e :: r, out => if 0 ≤ pos e ∧ (pos e).toNat < out.length then fill pos input r (out.set (pos e).toNat (input e)) else none

/-- `CopyTag2Vector`, L2729-2749 -/
def tag2Vector {α : Type} (dflt : α) (pos : Nat → Int) (input : Nat → α) (elems : List Nat) (out : List α) : Option (List α) :=
  fill pos input elems (resize dflt out (size pos elems 0).toNat)

/-! ## Lemmas -/

theorem size_spec (pos : Nat → Int) : ∀ (l : List Nat) (s : Int), s ≤ size pos l s ∧ (∀ e ∈ l, pos e ≤ size pos l s) ∧ (size pos l s = s ∨ ∃ e ∈ l, pos e = size pos l s)
  | [], s => ⟨Int.le_refl _, by simp, .inl rfl⟩
  | e :: r, s => by
    obtain ⟨h1, h2, h3⟩ := size_spec pos r (max s (pos e))
    refine ⟨by unfold size; omega, ?_, ?_⟩
    · intro x hx
      unfold size
      rcases List.mem_cons.1 hx with c | c
      · subst c; omega
      · exact h2 x c
    · unfold size
      rcases h3 with h | ⟨x, hx, h⟩
      · rcases Int.le_total s (pos e) with c | c
        · exact .inr ⟨e, by simp, by omega⟩
        · exact .inl (by omega)
      · exact .inr ⟨x, by simp [hx], h⟩

theorem resize_length {α : Type} (dflt : α) (out : List α) (n : Nat) : (resize dflt out n).length = n := by
  unfold resize
  simp only [List.length_append, List.length_take, List.length_replicate]
  omega

theorem fill_none {α : Type} (pos : Nat → Int) (input : Nat → α) : ∀ (l : List Nat) (out : List α) (e : Nat), e ∈ l → ¬ (0 ≤ pos e ∧ (pos e).toNat < out.length) →
    fill pos input l out = none
  | [], _, _, he, _ => by simp at he
  | x :: r, out, e, he, h => by
    unfold fill
    split
    · rename_i hx
      rcases List.mem_cons.1 he with c | c
      · subst c; exact absurd hx h
      · exact fill_none pos input r _ e c (by simpa using h)
    · rfl

/-! ## The property -/

/-- **C152** (partial): `CopyVector2Tag` gives each element of the type the value at its position and changes no other element, exactly if all positions are in the array.
Missing: the other direction, see `C152_last_value_fails`. -/
theorem C152_vector_to_tag_partial {α : Type} (pos : Nat → Int) (input : List α) : ∀ (elems : List Nat) (out : Nat → α),
    ((∀ e ∈ elems, 0 ≤ pos e ∧ pos e < input.length) → ∃ t, vector2Tag pos input elems out = some t ∧
      (∀ e ∈ elems, some (t e) = input[(pos e).toNat]?) ∧ ∀ e, e ∉ elems → t e = out e) ∧
    ((∃ e ∈ elems, ¬ (0 ≤ pos e ∧ pos e < input.length)) → vector2Tag pos input elems out = none)
  | [], out => ⟨fun _ => ⟨out, rfl, by simp, fun _ _ => rfl⟩, by simp⟩
  | e :: r, out => by
    unfold vector2Tag
    by_cases h0 : 0 ≤ pos e
    · by_cases hl : (pos e).toNat < input.length
      · have hv : input[(pos e).toNat]? = some input[(pos e).toNat] := List.getElem?_eq_getElem hl
        simp only [if_pos h0, hv]
        obtain ⟨h1, h2⟩ := C152_vector_to_tag_partial pos input r (fun x => if x = e then input[(pos e).toNat] else out x)
        constructor
        · intro h
          obtain ⟨t, ht, a, b⟩ := h1 fun x hx => h x (by simp [hx])
          refine ⟨t, ht, ?_, ?_⟩
          · intro x hx
            by_cases hr : x ∈ r
            · exact a x hr
            · have hxe : x = e := (List.mem_cons.1 hx).resolve_right hr
              rw [b x hr, if_pos hxe, hxe, hv]
          · intro x hx
            have hx' : x ≠ e ∧ x ∉ r := by simpa using hx
            rw [b x hx'.2, if_neg hx'.1]
        · rintro ⟨x, hx, hn⟩
          rcases List.mem_cons.1 hx with c | c
          · subst c; exact absurd ⟨h0, by omega⟩ hn
          · exact h2 ⟨x, c, hn⟩
      · have hv : input[(pos e).toNat]? = none := List.getElem?_eq_none (by omega)
        simp only [if_pos h0, hv]
        exact ⟨fun h => absurd (h e (by simp)) (by omega), by simp⟩
    · simp only [if_neg h0]
      exact ⟨fun h => absurd (h e (by simp)).1 h0, by simp⟩

/-- `CopyTag2Vector` makes the array as long as the last position, which is one too short: for every mesh with elements of the type it writes out of the array. -/
theorem C152_last_value_fails {α : Type} (dflt : α) (pos : Nat → Int) (input : Nat → α) (elems : List Nat) (hne : elems ≠ []) (out : List α) :
    tag2Vector dflt pos input elems out = none := by
  unfold tag2Vector
  obtain ⟨h1, h2, h3⟩ := size_spec pos elems 0
  have hex : ∃ e ∈ elems, ¬ (0 ≤ pos e ∧ (pos e).toNat < (size pos elems 0).toNat) := by
    rcases h3 with h | ⟨e, he, h⟩
    · obtain ⟨e, he⟩ := List.exists_mem_of_ne_nil elems hne
      exact ⟨e, he, by omega⟩
    · exact ⟨e, he, by omega⟩
  obtain ⟨e, he, hn⟩ := hex
  exact fill_none pos input elems _ e he (by rw [resize_length]; exact hn)

/-- without elements the array becomes empty -/
theorem C152_no_elements {α : Type} (dflt : α) (pos : Nat → Int) (input : Nat → α) (out : List α) : tag2Vector dflt pos input [] out = some [] := by
  simp [tag2Vector, fill, resize, size]

/-- Three elements with positions 2, 0, 1. -/
example : ∃ t, vector2Tag (fun e => if e = 5 then 2 else if e = 6 then 0 else 1) [10, 20, 30] [5, 6, 7] (fun _ => 0) = some t ∧ t 5 = 30 ∧ t 6 = 10 ∧ t 7 = 20 ∧ t 8 = 0 :=
  ⟨_, rfl, by decide⟩

end Verif.Storage.TagVector
