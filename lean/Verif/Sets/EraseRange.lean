import Mathlib.Data.List.Nodup
import Mathlib.Data.List.Basic

/-!
Removal of a range of elements of a set, `ElementSet::Erase(beg,end)`, eset.cpp L1630-1649.
-/

namespace Verif.EraseRange

/-- A set: the places of elements (`none` is an invalid handle), the list of free places that is kept
in `HighConn` after the reserved entries, hidden elements, and whether the mesh is being modified. -/
structure St where
  places : List (Option Nat)
  free : List Nat
  hidden : Nat → Bool
  modified : Bool

/-- The loop L1641-1648 from the place `i` over `n` places; `none` is an access outside of the array. -/
def eraseLoop : Nat → Nat → St → Option St
  | 0, _, s => some s
  | n + 1, i, s =>
    match s.places[i]? with
    | none => none
    | some none => eraseLoop n (i + 1) s
    | some (some h) =>
      if !s.modified || !s.hidden h then eraseLoop n (i + 1) { s with places := s.places.set i none, free := s.free ++ [i] }
      else eraseLoop n (i + 1) s

/-- `ElementSet::Erase(beg,end)`, L1630-1649, with positions of the iterators; `none` is a failed
assertion of L1639-1640. That both iterators belong to this set (L1637-1638) is taken for granted. -/
def erase (s : St) (ibeg iend : Nat) : Option St :=
  if ibeg ≤ s.places.length ∧ iend ≤ s.places.length then eraseLoop (iend - ibeg) ibeg s else none

/-! ## Specification -/

/-- The list of free places has exactly the places without an element, each once. -/
structure Good (s : St) : Prop where
  once : s.free.Nodup
  exact : ∀ i, i ∈ s.free ↔ s.places[i]? = some none

/-- The element `h` is seen: it is not hidden in a mesh that is being modified. -/
def Seen (s : St) (h : Nat) : Prop := s.modified = false ∨ s.hidden h = false

/-- The set has the element `h` at the place `i`. -/
def At (s : St) (i h : Nat) : Prop := s.places[i]? = some (some h)

/-! ## Lemmas -/

theorem loop_spec : ∀ (n i : Nat) (s : St), Good s → i + n ≤ s.places.length →
    ∃ s', eraseLoop n i s = some s' ∧ Good s' ∧ s'.places.length = s.places.length ∧ s'.hidden = s.hidden ∧ s'.modified = s.modified ∧
      (∀ j h, At s' j h ↔ At s j h ∧ ¬ (i ≤ j ∧ j < i + n ∧ Seen s h)) ∧ s.free <+: s'.free
  | 0, i, s, g, _ => ⟨s, rfl, g, rfl, rfl, rfl, fun j h => ⟨fun w => ⟨w, by omega⟩, fun w => w.1⟩, List.prefix_rfl⟩
  | n + 1, i, s, g, hl => by
    have hi : i < s.places.length := by omega
    have step : ∀ t : St, Good t → t.places.length = s.places.length → t.hidden = s.hidden → t.modified = s.modified →
        (∀ j h, At t j h ↔ At s j h ∧ ¬ (j = i ∧ Seen s h)) → s.free <+: t.free →
        ∃ s', eraseLoop n (i + 1) t = some s' ∧ Good s' ∧ s'.places.length = s.places.length ∧ s'.hidden = s.hidden ∧ s'.modified = s.modified ∧
          (∀ j h, At s' j h ↔ At s j h ∧ ¬ (i ≤ j ∧ j < i + (n + 1) ∧ Seen s h)) ∧ s.free <+: s'.free := by
      intro t gt h1 h2 h3 h4 h5
      obtain ⟨s', e1, e2, e3, e4, e5, e6, e7⟩ := loop_spec n (i + 1) t gt (by omega)
      refine ⟨s', e1, e2, e3.trans h1, e4.trans h2, e5.trans h3, fun j h => ?_, h5.trans e7⟩
      have seen : Seen t h ↔ Seen s h := by unfold Seen; rw [h2, h3]
      rw [e6, h4, seen]
      constructor
      · rintro ⟨⟨a, b⟩, c⟩
        refine ⟨a, fun ⟨p, q, r⟩ => ?_⟩
        by_cases hj : j = i
        · exact b ⟨hj, r⟩
        · exact c ⟨by omega, by omega, r⟩
      · rintro ⟨a, b⟩
        exact ⟨⟨a, fun ⟨p, r⟩ => b ⟨by omega, by omega, r⟩⟩, fun ⟨p, q, r⟩ => b ⟨by omega, by omega, r⟩⟩
    unfold eraseLoop
    cases hp : s.places[i]? with
    | none => exact absurd (List.getElem?_eq_none_iff.1 hp) (by omega)
    | some o =>
      cases o with
      | none =>
        refine step s g rfl rfl rfl (fun j h => ⟨fun w => ⟨w, ?_⟩, fun w => w.1⟩) List.prefix_rfl
        rintro ⟨rfl, -⟩
        unfold At at w
        rw [hp] at w
        simp at w
      | some h0 =>
        simp only
        by_cases hs : Seen s h0
        · rw [if_pos (by unfold Seen at hs; simpa [Bool.or_eq_true] using hs)]
          refine step _ ⟨?_, ?_⟩ (by simp) rfl rfl ?_ (List.prefix_append _ _)
          · simp only
            refine List.nodup_append.2 ⟨g.once, by simp, ?_⟩
            rintro a ha b hb rfl
            rw [List.mem_singleton.1 hb, g.exact, hp] at ha
            simp at ha
          · intro j
            simp only [List.mem_append, List.mem_singleton, g.exact]
            by_cases hj : j = i
            · subst hj
              simp [hi]
            · rw [List.getElem?_set_ne (Ne.symm hj)]
              simp [hj]
          · intro j h
            unfold At
            simp only
            by_cases hj : j = i
            · subst hj
              rw [List.getElem?_set_self hi, hp]
              refine iff_of_false (by simp) ?_
              rintro ⟨a, b⟩
              obtain rfl : h0 = h := by simpa using a
              exact b ⟨rfl, hs⟩
            · rw [List.getElem?_set_ne (Ne.symm hj)]
              simp [hj]
        · rw [if_neg (by unfold Seen at hs; simpa [Bool.or_eq_true] using hs)]
          refine step s g rfl rfl rfl (fun j h => ⟨fun w => ⟨w, ?_⟩, fun w => w.1⟩) List.prefix_rfl
          rintro ⟨rfl, r⟩
          unfold At at w
          rw [hp] at w
          obtain rfl : h0 = h := by simpa using w
          exact hs r

/-! ## Properties -/

/-- C163: `Erase(beg,end)` removes exactly the elements of the range that are not hidden, keeps the
other elements at their places, and enters each place that became free once. -/
theorem C163_range (s : St) (g : Good s) (ibeg iend : Nat) (hb : ibeg ≤ s.places.length) (he : iend ≤ s.places.length) :
    ∃ s', erase s ibeg iend = some s' ∧ Good s' ∧ s'.places.length = s.places.length ∧
      (∀ j h, At s' j h ↔ At s j h ∧ ¬ (ibeg ≤ j ∧ j < iend ∧ Seen s h)) ∧
      ∀ j, j ∈ s'.free ↔ j ∈ s.free ∨ ∃ h, At s j h ∧ ibeg ≤ j ∧ j < iend ∧ Seen s h := by
  have hseq : ∀ s' : St, Good s' → s'.places.length = s.places.length → (∀ j h, At s' j h ↔ At s j h ∧ ¬ (ibeg ≤ j ∧ j < iend ∧ Seen s h)) →
      s.free <+: s'.free → ∀ j, j ∈ s'.free ↔ j ∈ s.free ∨ ∃ h, At s j h ∧ ibeg ≤ j ∧ j < iend ∧ Seen s h := by
    intro s' g' hlen hat hpre j
    constructor
    · intro hj
      rw [g'.exact] at hj
      have hjl : j < s.places.length := by
        rw [← hlen]
        exact (List.getElem?_eq_some_iff.1 hj).1
      cases hp : s.places[j]? with
      | none => exact absurd (List.getElem?_eq_none_iff.1 hp) (by omega)
      | some o =>
        cases o with
        | none => exact .inl ((g.exact j).2 hp)
        | some h =>
          right
          refine ⟨h, hp, ?_⟩
          by_contra hc
          have := (hat j h).2 ⟨hp, hc⟩
          unfold At at this
          rw [hj] at this
          simp at this
    · rintro (hj | ⟨h, h1, h2⟩)
      · exact hpre.subset hj
      · rw [g'.exact]
        have hjl : j < s'.places.length := by
          rw [hlen]
          exact (List.getElem?_eq_some_iff.1 h1).1
        cases hp : s'.places[j]? with
        | none => exact absurd (List.getElem?_eq_none_iff.1 hp) (by omega)
        | some o =>
          cases o with
          | none => rfl
          | some h' =>
            obtain ⟨a, b⟩ := (hat j h').1 hp
            obtain rfl : h = h' := by
              unfold At at a h1
              rw [h1] at a
              simpa using a
            exact absurd h2 b
  unfold erase
  rw [if_pos ⟨hb, he⟩]
  by_cases hle : ibeg ≤ iend
  · obtain ⟨s', e1, e2, e3, e4, e5, e6, e7⟩ := loop_spec (iend - ibeg) ibeg s g (by omega)
    have hat : ∀ j h, At s' j h ↔ At s j h ∧ ¬ (ibeg ≤ j ∧ j < iend ∧ Seen s h) := by
      intro j h
      rw [e6, show ibeg + (iend - ibeg) = iend by omega]
    exact ⟨s', e1, e2, e3, hat, hseq s' e2 e3 hat e7⟩
  · have hat : ∀ j h, At s j h ↔ At s j h ∧ ¬ (ibeg ≤ j ∧ j < iend ∧ Seen s h) := fun j h => ⟨fun w => ⟨w, by omega⟩, fun w => w.1⟩
    rw [show iend - ibeg = 0 by omega]
    exact ⟨s, rfl, g, rfl, hat, hseq s g rfl hat List.prefix_rfl⟩

/-- C163: a position after the end of the set is rejected. -/
theorem C163_outside (s : St) (ibeg iend : Nat) (h : s.places.length < ibeg ∨ s.places.length < iend) : erase s ibeg iend = none := by
  unfold erase
  rw [if_neg (by omega)]

/-- A set with a free place and a hidden element meets the hypotheses. -/
example : Good { places := [some 4, none, some 7, some 9], free := [1], hidden := fun h => h == 7, modified := true } := by
  refine ⟨by simp, fun i => ?_⟩
  match i with
  | 0 => simp
  | 1 => simp
  | 2 => simp
  | 3 => simp
  | n + 4 => simp

example : (erase { places := [some 4, none, some 7, some 9], free := [1], hidden := fun h => h == 7, modified := true } 0 4).map
    (fun s => (s.places, s.free)) = some ([none, none, some 7, none], [1, 0, 3]) := by decide

end Verif.EraseRange
