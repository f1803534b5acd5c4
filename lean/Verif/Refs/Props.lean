import Verif.Refs.Histories
import Mathlib.Data.List.Perm.Subperm

/-!
# C91: links to deleted elements

After `ApplyModification` nothing refers to a deleted element, and `EndModification` removes the
deleted elements without leaving references to them.
-/

namespace Verif.Refs

open Verif.Topology (El Topo Inv)
open Verif.Sets

/-- **C91**, histories.  In every history of a mesh in which elements are taken away only by a
modification ended by `ApplyModification` and `EndModification`, every reference in a tag of type
`DATA_REFERENCE`, every element of a set, every link between sets and every entry of the arrays of
shared and ghost elements is an element that exists. -/
theorem C91_histories_partial {cn : Bool} {W : World} (h : Hist cn W) : NoDangling W :=
  (hist_sound h).nd

/-- **C91**, `ApplyModification`.  It returns, and then:
* every reference to a deleted element is `InvalidHandle()`, and all other references and all other data
  are as before;
* the sets have lost the deleted elements, in particular their other elements stay in order;
* a set has the children it had, without the deleted ones and in the same order; a set
  that was the child of a deleted set has no parent; deleted sets have no parent and no children;
* the arrays of shared and ghost elements have lost the deleted elements. -/
theorem C91_apply_partial {cn : Bool} {W : World} (h : Hist cn W) (O : Orderly W) :
    ∃ W', Applied W W' ∧ W'.live = W.live ∧ W'.marked = W.marked ∧
      (∀ t ∈ W.tags, W.remote t = false → ∀ x l, W.holds x → W.data t x = some l →
        W'.data t x = some (l.map fun y => if W.marked y = true then 0 else y)) ∧
      (∀ t x, (t ∉ W.tags ∨ W.remote t = true ∨ ¬ W.holds x ∨ W.data t x = none) →
        W'.data t x = W.data t x) ∧
      (∀ s, W.isSet s → elements (W'.sets s) = (elements (W.sets s)).filter fun x => !W.marked x) ∧
      Forest W'.tree ∧
      (∀ s l, W.isSet s → W.marked s = false → Children W.tree s l →
        Children W'.tree s (l.filter fun x => !W.marked x)) ∧
      (∀ s, W.isSet s → W.marked s = false → (W'.tree s).parent =
        if W.marked (W.tree s).parent = true then 0 else (W.tree s).parent) ∧
      (∀ s, W.isSet s → W.marked s = true → (W'.tree s).parent = 0 ∧ Children W'.tree s []) ∧
      W'.shared = W.shared.map fun l => l.filter fun x => !W.marked x := by
  have S := hist_sound h
  obtain ⟨W', a, R⟩ := apply_result S O
  refine ⟨W', a, R.same.live, R.same.marked, ?_, ?_, ?_, R.part.forest, ?_, ?_, ?_, R.shared⟩
  · intro t ht hr x l hx hl
    rw [R.data, if_pos ⟨ht, hr, hx⟩, hl]
    rfl
  · intro t x hor
    rw [R.data]
    split
    · rename_i g
      rcases hor with g1 | g1 | g1 | g1
      · exact absurd g.1 g1
      · rw [g.2.1] at g1; cases g1
      · exact absurd g.2.2 g1
      · rw [g1]; rfl
    · rfl
  · intro s hs
    rw [R.sets, if_pos hs, elements_eraseMarked]
  · intro s l hs hm hl
    have h0 := isSet_ne hs
    obtain ⟨l0, k1, k2, k3⟩ := S.forest.children s h0
    cases hl.unique k1
    obtain ⟨l', g1, g2, g3⟩ := R.part.forest.children s h0
    have hsub := R.part.sub s l l' h0 k1 g1
    have hun := clean_chain R.clean g1 (R.clean s).2.2
    have hmem : ∀ c, c ∈ l' ↔ c ∈ l.filter fun x => !W.marked x := by
      intro c
      rw [List.mem_filter]
      constructor
      · intro hc; exact ⟨hsub.subset hc, by simp [hun c hc]⟩
      · rintro ⟨hc, hmc⟩
        rw [g3]
        obtain ⟨c0, cp⟩ := (k3 c).1 hc
        refine ⟨c0, ?_⟩
        rcases R.part.par c with e | ⟨e, e' | e'⟩
        · rw [e, cp]
        · rw [e'] at hmc; cases hmc
        · rw [cp, hm] at e'; cases e'
    have hs2 : l'.Sublist (l.filter fun x => !W.marked x) := by
      have := hsub.filter fun x => !W.marked x
      rwa [List.filter_eq_self.2 fun c hc => by simp [hun c hc]] at this
    have hlen : l'.length = (l.filter fun x => !W.marked x).length := by
      refine Nat.le_antisymm hs2.length_le ?_
      exact (List.subperm_of_subset (k2.filter _) fun c hc => (hmem c).2 hc).length_le
    rw [← hs2.eq_of_length hlen]
    exact g1
  · intro s hs hm
    have hc := (R.clean s).1
    split
    · rename_i hp
      rcases R.part.par s with e | ⟨e, _⟩
      · rw [e, hp] at hc; cases hc
      · exact e
    · rename_i hp
      rcases R.part.par s with e | ⟨e, e' | e'⟩
      · exact e
      · rw [hm] at e'; cases e'
      · exact absurd e' hp
  · intro s hs hm
    refine ⟨R.marked_parent (isSet_ne hs) hm, ?_⟩
    rw [Children, R.marked_child (isSet_ne hs) hm]
    exact .nil

/-- **C91**, `EndModification` after `ApplyModification`.  It returns; the elements that exist are those
that were not deleted, and what `ApplyModification` left on them stays; nothing refers to
an element that does not exist. -/
theorem C91_end_partial {cn : Bool} {W : World} (flip : Topo → El → Bool) (h : Hist cn W) (O : Orderly W)
    (hm : W.T.hide = true) :
    ∃ W1 W2, Applied W W1 ∧ Ended flip W1 W2 ∧ NoDangling W2 ∧ W2.T.hide = false ∧
      (∀ x, W2.live x = true ↔ W.live x = true ∧ W.marked x = false) ∧
      (∀ t x, W2.holds x → W2.data t x = W1.data t x) ∧
      (∀ s, W2.isSet s → W2.sets s = W1.sets s ∧ W2.tree s = W1.tree s) ∧
      Forest W2.tree ∧ W2.shared = W1.shared := by
  have S := hist_sound h
  obtain ⟨W1, a, R⟩ := apply_result S O
  obtain ⟨W2, e, C⟩ := end_result (flip := flip) S R hm
  have S2 := closed_sound S R C hm
  refine ⟨W1, W2, a, e, S2.nd, C.hide, C.live, C.data, ?_, S2.forest, C.shared⟩
  intro s hs
  have : ¬ (W1.isSet s ∧ W.marked s = true) := by
    rintro ⟨_, h1⟩
    have := ((C.live s).1 hs.1).2
    rw [this] at h1; cases h1
  exact ⟨by rw [C.sets, if_neg this], by rw [C.tree, if_neg this]⟩

/-- The sets to be deleted are in order if each was taken away from its parent first, as `DeleteSet`
does (eset.cpp L1736-1741). -/
theorem C91_deleteSet {W : World} (h : ∀ s, W.marked s = true → (W.tree s).parent = 0) : Orderly W :=
  ⟨fun s hs => by rw [h s hs]; exact marked_zero, fun s _ hs => h _ hs⟩

end Verif.Refs
