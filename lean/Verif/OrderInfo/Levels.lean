import Verif.OrderInfo.PrepareInv

/-!
# Which rows are added by the iterations of `PrepareMatrix`
-/

namespace Verif.OrderInfo

variable {K : Type}

theorem scan_keys (lb le : Nat) (last : Bool) (inds : List Nat) (s : List (Nat × Nat) × Nat × List (Nat × Nat)) (g : Nat)
    (hg : g ∈ (inds.foldl (scanIndex lb le last) s).1.map (·.1)) : g ∈ s.1.map (·.1) ∨ g ∈ inds := by
  induction inds generalizing s with
  | nil => exact Or.inl hg
  | cons i inds ih =>
    rw [List.foldl_cons] at hg
    rcases ih _ hg with h | h
    · unfold scanIndex at h
      split at h
      · split at h
        · simp only [List.map_append, List.mem_append, List.map_cons, List.map_nil, List.mem_singleton] at h
          rcases h with h | h
          · left
            obtain ⟨e, he, rfl⟩ := List.mem_map.1 h
            exact List.mem_map.2 ⟨e, (List.mem_filter.1 he).1, rfl⟩
          · right; simp [h]
        · exact Or.inl h
      · exact Or.inl h
    · right; simp [h]

theorem Near.mono {size : Nat} {gtp : Nat → Nat} {A : Nat → Row K} {p n g : Nat} (h : Near size gtp A p n g) : Near size gtp A p (n + 1) g := by
  induction h with
  | own n g ho => exact Near.own _ _ ho
  | step n g e _ he ih => exact Near.step _ _ _ ih he

/-- The map holds exactly the external rows within `n` steps. -/
def LInv (size : Nat) (gtp : Nat → Nat) (A : Nat → Row K) (p n : Nat) (m : List (Nat × Nat)) : Prop :=
  ∀ g, Near size gtp A p n g ↔ (Owns size gtp p g ∨ g ∈ m.map (·.1))

section

variable (size : Nat) (gtp : Nat → Nat) (h : Intervals size gtp) (A : Nat → Row K) (hA : Square (gtp size) A)
include h hA

theorem scan_level (last : Bool) (s : PSt K) (p n : Nat) (hp : p < size) (hs : PInv (gtp size) (gtp p) (gtp (p + 1)) A s) (hl : LInv size gtp A p n s.map) :
    LInv size gtp A p (n + 1) (scan (gtp p) (gtp (p + 1)) last s).1 := by
  have hN := h.le (show p + 1 ≤ size by omega) (le_refl _)
  obtain ⟨new, h1, h2, h3⟩ := scan_spec (gtp size) (gtp p) (gtp (p + 1)) A hA last s hs hN (le_pos size gtp h A hA p hp)
  intro g
  constructor
  · intro hg
    rw [h2]
    cases hg with
    | own _ _ ho => exact Or.inl ho
    | step _ g' e hg' he =>
      have hk : ∃ k, gtp p ≤ k ∧ k < s.stop ∧ s.rows k = A g' := by
        have hm := h.mono p hp
        have hst := hs.stop
        rcases (hl g').1 hg' with ho | hm'
        · exact ⟨g', ho.2.1, by have := ho.2.2; omega, hs.own g' ho.2.1 ho.2.2⟩
        · obtain ⟨i, hi⟩ := List.getElem?_of_mem hm'
          have hlt : i < s.map.length := by
            rcases Nat.lt_or_ge i s.map.length with h' | h'
            · exact h'
            · rw [List.getElem?_eq_none (by simpa using h')] at hi; cases hi
          exact ⟨gtp (p + 1) + i, by omega, by omega, hs.added i g' hi⟩
      obtain ⟨k, hk1, hk2, hk3⟩ := hk
      rcases h3 k hk1 hk2 e (by rw [hk3]; exact he) with h' | h'
      · exact Or.inl ⟨hp, h'.1, h'.2⟩
      · exact Or.inr h'
  · rintro (ho | hg)
    · exact Near.own _ _ ho
    · rcases scan_keys _ _ _ _ _ g hg with hg | hg
      · exact Near.mono ((hl g).2 (Or.inr hg))
      · simp only [List.mem_flatMap, List.mem_range'_1, List.mem_map] at hg
        obtain ⟨k, hk, e, he, rfl⟩ := hg
        have hlb := hs.start
        have hst := hs.stop
        rcases Nat.lt_or_ge k (gtp (p + 1)) with hlt | hge
        · rw [hs.own k (by omega) hlt] at he
          exact Near.step _ k e (Near.own _ _ ⟨hp, by omega, hlt⟩) he
        · have hi : k - gtp (p + 1) < (s.map.map (·.1)).length := by rw [List.length_map]; omega
          have := hs.added (k - gtp (p + 1)) _ (List.getElem?_eq_getElem hi)
          rw [show gtp (p + 1) + (k - gtp (p + 1)) = k by omega] at this
          rw [this] at he
          exact Near.step _ _ e ((hl _).2 (Or.inr (List.getElem_mem hi))) he

theorem start_level (p : Nat) : LInv size gtp A p 0 (start gtp A p).map := by
  intro g
  constructor
  · intro hg
    cases hg with
    | own _ _ ho => exact Or.inl ho
  · rintro (ho | hg)
    · exact Near.own _ _ ho
    · cases hg

theorem iters_level (n m : Nat) (S S' : Nat → PSt K) (hS : ∀ p, p < size → PInv (gtp size) (gtp p) (gtp (p + 1)) A (S p))
    (hL : ∀ p, p < size → LInv size gtp A p m (S p).map) (hi : Iters size gtp n S S') (p : Nat) (hp : p < size) :
    ∃ old, old <+: (S' p).map ∧ (S' p).stop = gtp (p + 1) + old.length ∧ LInv size gtp A p (m + n) old ∧ LInv size gtp A p (m + n + 1) (S' p).map := by
  induction n generalizing S m with
  | zero =>
    obtain ⟨new, _, _, h2, _⟩ := iter_spec size gtp h A hA true S hS p hp
    have hl := scan_level size gtp h A hA true (S p) p m hp (hS p hp) (hL p hp)
    obtain ⟨R, Sd, _, _, hS'⟩ := hi
    have hSp := hS' p hp
    simp only [if_true, finishLast, h2] at hSp
    rw [h2] at hl
    refine ⟨(S p).map, ?_, ?_, hL p hp, ?_⟩
    · rw [hSp]; exact ⟨new, rfl⟩
    · rw [hSp]; exact (hS p hp).stop
    · rw [hSp]; exact hl
  | succ n ih =>
    obtain ⟨S1, hi1, hi2⟩ := hi
    have := ih (m + 1) S1 (middle_inv size gtp h A hA S S1 hS hi1) (fun q hq => by
      have hl := scan_level size gtp h A hA false (S q) q m hq (hS q hq) (hL q hq)
      obtain ⟨R, Sd, _, _, hS'⟩ := hi1
      rw [hS' q hq]
      exact hl) hi2
    rwa [show m + 1 + n = m + (n + 1) by omega] at this

theorem prepare_level (overlap : Nat) (S' : Nat → PSt K) (hpr : Prepare size gtp A overlap S') (p : Nat) (hp : p < size) :
    ∃ old, old <+: (S' p).map ∧ (S' p).stop = gtp (p + 1) + old.length ∧ LInv size gtp A p overlap old ∧
      LInv size gtp A p (overlap + 1) (S' p).map := by
  have := iters_level size gtp h A hA overlap 0 _ S' (start_inv size gtp h A hA) (fun q _ => start_level size gtp h A hA q) hpr p hp
  simpa using this

end

end Verif.OrderInfo
