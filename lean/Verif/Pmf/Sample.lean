import Verif.Pmf.Restore

/-!
# Concrete meshes
-/

namespace Verif.Pmf
open Verif.Topology Verif.Binary

/-- The numbers of nodes, edges, faces and cells of two tetrahedra. -/
def twoNum : Nat → Nat := fun ty => [5, 9, 7, 2].getD ty 0

/-- The boundaries and the nodes of cells of two tetrahedra with a common face. -/
def twoLow : Nat → List (List Nat)
  | 1 => [[0, 1], [1, 2], [0, 2], [0, 3], [1, 3], [2, 3], [1, 4], [0, 4], [2, 4]]
  | 2 => [[0, 1, 2], [3, 4, 0], [2, 5, 3], [1, 5, 4], [0, 6, 7], [7, 8, 2], [6, 8, 1]]
  | 3 => [[0, 1, 2, 3], [0, 4, 5, 6]]
  | _ => []

def twoNodes : List (List Nat) := [[0, 1, 2, 3], [0, 1, 2, 4]]

def twoTable : Topo :=
  { Topo.init true with
    low := fun x => ((twoLow x.ty).getD x.id []).map fun k => ⟨x.ty - 1, k⟩
    high := fun x => if x.ty = 3 then (twoNodes.getD x.id []).map fun k => ⟨0, k⟩ else [] }

/-- Two tetrahedra with a common face. -/
def two : Topo := { upTo twoTable (cut4 twoNum) with hide := false }

theorem two_table : Table twoTable twoNum where
  low ty k h1 h4 hk := by
    interval_cases ty
    · have hk : k < 9 := hk
      interval_cases k <;> decide
    · have hk : k < 7 := hk
      interval_cases k <;> decide
    · have hk : k < 2 := hk
      interval_cases k <;> decide
  nodes _ k hk := by
    have hk : k < 2 := hk
    interval_cases k <;> decide

theorem two_reach : Reach true two := reach_upTo two_table

/-- The same with the cells of the common face exchanged, as after `FixNormalOrientation`. -/
def twoSwapped : Topo := (two.fixNormal (fun _ _ => true) ⟨2, 0⟩).get (by decide +kernel)

theorem twoSwapped_reach : Reach true twoSwapped := .fixNormal _ _ two_reach (Option.some_get _).symm

theorem twoSwapped_high : twoSwapped.high ⟨2, 0⟩ = [⟨3, 1⟩, ⟨3, 0⟩] := by decide +kernel

theorem twoSwapped_same (x : El) : twoSwapped.alive x = two.alive x ∧ twoSwapped.low x = two.low x ∧
    twoSwapped.last = two.last ∧ twoSwapped.hide = two.hide ∧ twoSwapped.cn = true ∧
    (x.ty = 3 → twoSwapped.high x = two.high x) := by
  refine ⟨rfl, rfl, rfl, rfl, rfl, ?_⟩
  intro h
  have : x ≠ ⟨2, 0⟩ := by rintro rfl; cases h
  show set1 _ _ _ x = _
  rw [set1_ne _ _ this]

/-- A machine with the bytes of a number in the order big-endian, integers of 4 bytes. -/
def big4 : Machine := ⟨.big, 4⟩

theorem big4_ok : Machines big4 8 := ⟨⟨by decide, by decide, fun h => by cases h⟩, by decide, by decide⟩

def extra0 : Extra := ⟨0, 0, List.replicate 15 0⟩

/-- A set with a cell, a hole and a face, the parent of the second one. -/
def twoSets : List SetRec :=
  [⟨[97], [some (3, 1), none, some (2, 4)], [none, none, some (4, 1)], [0]⟩,
   ⟨[98], [some (0, 3), some (4, 0)], [some (4, 0), none, none], [0]⟩]

/-- A number on every cell. -/
def tReal : TagRec := ⟨[112], 0, fun _ => false, fun ty => ty == 3, some 1, fun ty k => if ty = 3 ∧ k < 2 then some [.real (k + 1)] else none⟩
/-- References on some nodes. -/
def tRef : TagRec := ⟨[114], 3, fun ty => ty == 0, fun ty => ty == 0, none,
  fun ty k => if ty = 0 ∧ k = 2 then some [.ref (some (3, 1)), .ref none] else none⟩
/-- Bytes of any number on the mesh; here none. -/
def tBulk : TagRec := ⟨[115], 2, fun _ => false, fun ty => ty == 5, none, fun ty k => if ty = 5 ∧ k = 0 then some [] else none⟩

/-- A mesh of the two tetrahedra with data. -/
def twoMesh (T : Topo) : PMesh := ⟨3, T, fun k => [k, 2 * k, 7], twoSets, [tReal, tRef, tBulk]⟩

/-- An empty mesh with a tag that is also in the file and one that is not. -/
def fresh0 : PMesh := ⟨3, Topo.init true, fun _ => [], [],
  [⟨[113], 1, fun _ => false, fun ty => ty == 3, some 1, fun _ _ => some [.int 0]⟩,
   { tReal with data := fun _ _ => some [.real 0] }]⟩

theorem fits48 {v : Nat} (h : v < 256 ^ 4) : Fits big4 8 v := ⟨h, lt_of_lt_of_le h (by norm_num)⟩

theorem two_saveable {T : Topo} (hr : Reach true T) (hs : ∀ x, T.alive x = two.alive x ∧ T.low x = two.low x ∧
    T.last = two.last ∧ T.hide = two.hide ∧ T.cn = true ∧ (x.ty = 3 → T.high x = two.high x)) :
    Saveable big4 8 extra0 [] [] (twoMesh T) := by
  have hw : ∀ y : El, T.alive y = true ↔ y.ty < 4 ∧ y.id < T.last y.ty := by
    intro y
    rw [(hs y).1, (hs y).2.2.1]
    simp [two, upTo]
  have hcn : T.cn = true := (hs ⟨0, 0⟩).2.2.2.2.1
  have hlast : ∀ ty, T.last ty = cut4 twoNum ty := fun ty => by rw [(hs ⟨0, 0⟩).2.2.1]; rfl
  have hsave : savedTags [] [] (twoMesh T) = [tReal, tRef, tBulk] := rfl
  have hnum : (twoMesh T).num = fun ty => [5, 9, 7, 2, 2, 1].getD ty 0 := by
    funext ty
    unfold PMesh.num
    by_cases h : ty < 4
    · rw [if_pos h]
      show T.last ty = _
      rw [hlast]
      interval_cases ty <;> rfl
    · rw [if_neg h]
      by_cases h4 : ty = 4
      · subst h4; rfl
      · rw [if_neg h4]
        by_cases h5 : ty = 5
        · subst h5; rfl
        · rw [if_neg h5]
          rw [List.getD_eq_getElem?_getD, List.getElem?_eq_none (by simp; omega)]; rfl
  have hall : ∀ y : El, T.alive y = true → 0 < y.ty → y.ty < 4 ∧ y.id < twoNum y.ty := by
    intro y hy _
    obtain ⟨h1, h2⟩ := (hw y).1 hy
    rw [hlast, cut4, if_pos h1] at h2
    exact ⟨h1, h2⟩
  refine ⟨?_, hw, (hs ⟨0, 0⟩).2.2.2.1, Or.inr rfl, ?_, ?_, ?_, ?_, ?_, ?_, ?_, ?_, ?_, ?_⟩
  · show Reach T.cn T
    rw [hcn]; exact hr
  · intro y hy h0
    obtain ⟨h4, hk⟩ := hall y hy h0
    show T.low y ≠ [] ∧ Fits big4 8 (T.low y).length
    rw [(hs y).2.1]
    obtain ⟨t, k⟩ := y
    simp only at h0 h4 hk
    have key : two.low ⟨t, k⟩ ≠ [] ∧ (two.low ⟨t, k⟩).length < 256 := by
      interval_cases t
      · have hk : k < 9 := hk
        interval_cases k <;> decide
      · have hk : k < 7 := hk
        interval_cases k <;> decide
      · have hk : k < 2 := hk
        interval_cases k <;> decide
    exact ⟨key.1, fits48 (by omega)⟩
  · intro y hy h3 _
    obtain ⟨h4, hk⟩ := hall y hy (by omega)
    show T.high y ≠ [] ∧ Fits big4 8 (T.high y).length
    rw [(hs y).2.2.2.2.2 h3]
    obtain ⟨t, k⟩ := y
    simp only at h3
    subst h3
    have hk : k < 2 := hk
    have key : two.high ⟨3, k⟩ ≠ [] ∧ (two.high ⟨3, k⟩).length < 256 := by interval_cases k <;> decide
    exact ⟨key.1, fits48 (by omega)⟩
  · intro ty h
    rw [hnum]
    interval_cases ty <;> exact fits48 (by decide)
  · intro k hk
    rw [hnum] at hk
    have hk : k < 5 := hk
    refine ⟨rfl, ?_⟩
    intro v hv
    simp only [twoMesh, List.mem_cons, List.not_mem_nil, or_false] at hv
    omega
  · intro s hs'
    rw [hnum]
    simp only [twoMesh, twoSets, List.mem_cons, List.not_mem_nil, or_false] at hs'
    rcases hs' with rfl | rfl
    · refine ⟨by decide, ⟨by decide, fits48 (by decide)⟩, ?_, fits48 (by decide), ?_, rfl, ?_, fits48 (by decide)⟩
      · intro ty k h
        simp only [List.mem_cons, Option.some.injEq, Prod.mk.injEq, reduceCtorEq, List.not_mem_nil, or_false, false_or] at h
        rcases h with ⟨rfl, rfl⟩ | ⟨rfl, rfl⟩ <;> exact ⟨by decide, by decide, fits48 (by decide)⟩
      · intro ty k h
        simp only [List.mem_cons, Option.some.injEq, Prod.mk.injEq, reduceCtorEq, List.not_mem_nil, or_false, false_or] at h
        obtain ⟨rfl, rfl⟩ := h
        exact ⟨by decide, by decide, fits48 (by decide)⟩
      · intro v hv
        rw [List.mem_singleton] at hv
        subst hv; exact fits48 (by decide)
    · refine ⟨by decide, ⟨by decide, fits48 (by decide)⟩, ?_, fits48 (by decide), ?_, rfl, ?_, fits48 (by decide)⟩
      · intro ty k h
        simp only [List.mem_cons, Option.some.injEq, Prod.mk.injEq, reduceCtorEq, List.not_mem_nil, or_false, false_or] at h
        rcases h with ⟨rfl, rfl⟩ | ⟨rfl, rfl⟩ <;> exact ⟨by decide, by decide, fits48 (by decide)⟩
      · intro ty k h
        simp only [List.mem_cons, Option.some.injEq, Prod.mk.injEq, reduceCtorEq, List.not_mem_nil, or_false, false_or] at h
        obtain ⟨rfl, rfl⟩ := h
        exact ⟨by decide, by decide, fits48 (by decide)⟩
      · intro v hv
        rw [List.mem_singleton] at hv
        subst hv; exact fits48 (by decide)
  · show (twoSets.map fun s : SetRec => s.name).Nodup
    decide
  · intro t ht
    rw [hsave] at ht
    rw [hnum]
    have hcnt : ∀ ty, ty < 6 → Fits big4 8 (([5, 9, 7, 2, 2, 1] : List Nat).getD ty 0) := by
      intro ty h
      interval_cases ty <;> exact fits48 (by decide)
    simp only [List.mem_cons, List.not_mem_nil, or_false] at ht
    rcases ht with rfl | rfl | rfl
    · refine ⟨⟨by decide, ⟨by decide, fits48 (by decide)⟩, ?_⟩, hcnt, ?_, ?_⟩
      · intro s hs'; cases hs'; exact ⟨by decide, by decide⟩
      · intro ty k r h1 h2 h3 h4
        have h2 : ty = 3 := by simpa [tReal] using h2
        subst h2
        have h3 : k < 2 := h3
        simp only [tReal, true_and, if_pos h3, Option.some.injEq] at h4
        subst h4
        refine ⟨Or.inr rfl, fits48 (show 1 < 256 ^ 4 by decide), ?_⟩
        intro v hv
        rw [List.mem_singleton] at hv
        subst hv
        exact ⟨rfl, by omega⟩
      · intro ty k h1 h2 h3 h4
        have h2 : ty = 3 := by simpa [tReal] using h2
        subst h2
        have h4 : k < 2 := h4
        simp only [tReal, true_and, if_pos h4]
        simp
    · refine ⟨⟨by decide, ⟨by decide, fits48 (by decide)⟩, ?_⟩, hcnt, ?_, ?_⟩
      · intro s hs'; cases hs'
      · intro ty k r h1 h2 h3 h4
        simp only [tRef] at h4
        split at h4
        · cases h4
          refine ⟨Or.inl rfl, fits48 (by decide), ?_⟩
          intro v hv
          simp only [List.mem_cons, List.not_mem_nil, or_false] at hv
          rcases hv with rfl | rfl
          · exact ⟨rfl, by decide, by decide, fits48 (by decide)⟩
          · rfl
        · cases h4
      · intro ty k h1 h2 h3 h4
        have h2 : ty = 0 := by simpa [tRef] using h2
        subst h2
        simp [tRef] at h3
    · refine ⟨⟨by decide, ⟨by decide, fits48 (by decide)⟩, ?_⟩, hcnt, ?_, ?_⟩
      · intro s hs'; cases hs'
      · intro ty k r h1 h2 h3 h4
        simp only [tBulk] at h4
        split at h4
        · cases h4
          refine ⟨Or.inl rfl, fits48 (by decide), ?_⟩
          intro v hv; cases hv
        · cases h4
      · intro ty k h1 h2 h3 h4
        have h2 : ty = 5 := by simpa [tBulk] using h2
        subst h2
        have h4 : k < 1 := h4
        have h4 : k = 0 := by omega
        subst h4
        simp [tBulk]
  · show ([tReal, tRef, tBulk].map _).Nodup
    decide
  · rw [hsave]; exact fits48 (by decide)
  · exact ⟨fits48 (by decide), fits48 (by decide), rfl⟩

theorem two_fresh (T : Topo) (h : T.cn = true) : Fresh [] [] (twoMesh T) fresh0 := by
  refine ⟨by show Topo.init true = Topo.init T.cn; rw [h], rfl, by decide, ?_⟩
  intro t ht u hu he
  have ht : t ∈ [tReal, tRef, tBulk] := ht
  simp only [fresh0, List.mem_cons, List.not_mem_nil, or_false] at ht hu
  rcases hu with rfl | rfl
  · rcases ht with rfl | rfl | rfl <;> exact absurd he (by decide)
  · rcases ht with rfl | rfl | rfl
    · exact ⟨fun ty k _ => rfl, rfl, rfl, fun ty _ h => ⟨h, rfl⟩⟩
    · exact absurd he (by decide)
    · exact absurd he (by decide)

theorem two_self (x : El) : two.alive x = two.alive x ∧ two.low x = two.low x ∧
    two.last = two.last ∧ two.hide = two.hide ∧ two.cn = true ∧ (x.ty = 3 → two.high x = two.high x) :=
  ⟨rfl, rfl, rfl, rfl, rfl, fun _ => rfl⟩

end Verif.Pmf
