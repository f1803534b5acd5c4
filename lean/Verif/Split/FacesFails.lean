import Verif.Split.FacesTotal
import Verif.Split.CellsFails

/-!
# Property C90: examples, and what uniting faces does not do
-/

namespace Verif.Split
open Verif.Topology Verif.EdgeLoop

/-- The decidable form of the condition about coinciding edges. -/
theorem separate_of {T : Topo} {unite : List El} (h : ∀ f ∈ unite, ∀ g ∈ unite, ∀ e ∈ edgesOf T f, ∀ e' ∈ edgesOf T g,
    (facesOf T e = facesOf T e' ∨ facesOf T e = (facesOf T e').reverse) → e = e') : ∀ f ∈ unite, ∀ g ∈ unite, ∀ e ∈ edgesOf T f,
    ∀ e' ∈ edgesOf T g, ∀ a b, Joins T e a b → Joins T e' a b → e = e' := by
  intro f hf g hg e he e' he' a b h1 h2
  refine h f hf g hg e he e' he' ?_
  unfold facesOf
  rcases h1 with h1 | h1 <;> rcases h2 with h2 | h2 <;> rw [h1, h2] <;> simp

/-- The number of faces at an edge that no face has. -/
theorem visits_of {T : Topo} {unite : List El} {P : El → Nat → Prop} (h0 : ∀ e, P e 0) (h : ∀ e ∈ visited T unite, P e (visits T unite e))
    (e : El) : P e (visits T unite e) := by
  by_cases hm : e ∈ visited T unite
  · exact h e hm
  · have : visits T unite e = 0 := by
      unfold visits
      rw [List.countP_eq_zero]
      intro f hf he
      exact hm (mem_visited.2 ⟨f, hf, of_decide_eq_true he⟩)
    rw [this]; exact h0 e

/-- Neighbouring faces in the list have common edges. -/
theorem joined_of {T : Topo} {unite : List El} (h : ∀ i < unite.length - 1, ∃ f ∈ unite[i]?, ∃ g ∈ unite[i + 1]?,
    ∃ e ∈ edgesOf T f, e ∈ edgesOf T g) : Joined T unite := by
  suffices k : ∀ (i : Nat) (f g : El), unite[0]? = some f → unite[i]? = some g → Chained T unite f g by
    intro f hf g hg
    obtain ⟨i, hi⟩ := List.getElem?_of_mem hf
    obtain ⟨j, hj⟩ := List.getElem?_of_mem hg
    cases h0 : unite[0]? with
    | none =>
      rw [List.getElem?_eq_none_iff] at h0
      have := (List.getElem?_eq_some_iff.1 hi).1
      omega
    | some x => exact (k i x f h0 hi).symm.trans (k j x g h0 hj)
  intro i
  induction i with
  | zero => intro f g h1 h2; rw [h1] at h2; cases h2; exact .refl
  | succ i ih =>
    intro f g h1 h2
    obtain ⟨a, ha, b, hb, e, e1, e2⟩ := h i (by have := (List.getElem?_eq_some_iff.1 h2).1; omega)
    have hb' : b = g := by
      have : unite[i + 1]? = some b := hb
      rw [h2] at this; cases this; rfl
    subst hb'
    exact (ih f a h1 ha).step (List.mem_of_getElem? ha) (List.mem_of_getElem? h2) e1 e2

/-- A pyramid; its square is divided into four triangles by the node 5. -/
def tent : Topo := (build (Topo.init true) [(0, 0, [], []), (0, 1, [], []), (0, 2, [], []), (0, 3, [], []), (0, 4, [], []), (0, 5, [], []),
  (1, 0, [nd 0, nd 1], []), (1, 1, [nd 1, nd 2], []), (1, 2, [nd 2, nd 3], []), (1, 3, [nd 3, nd 0], []),
  (1, 4, [nd 0, nd 4], []), (1, 5, [nd 1, nd 4], []), (1, 6, [nd 2, nd 4], []), (1, 7, [nd 3, nd 4], []),
  (1, 8, [nd 0, nd 5], []), (1, 9, [nd 1, nd 5], []), (1, 10, [nd 2, nd 5], []), (1, 11, [nd 3, nd 5], []),
  (2, 0, [ed 0, ed 9, ed 8], []), (2, 1, [ed 0, ed 5, ed 4], []),
  (2, 2, [ed 1, ed 6, ed 5], []), (2, 3, [ed 2, ed 7, ed 6], []), (2, 4, [ed 3, ed 4, ed 7], []),
  (2, 5, [ed 1, ed 10, ed 9], []), (2, 6, [ed 2, ed 11, ed 10], []), (2, 7, [ed 3, ed 8, ed 11], []),
  (3, 0, [fc 0, fc 1, fc 2, fc 3, fc 4, fc 5, fc 6, fc 7], [nd 0, nd 1, nd 2, nd 3, nd 4, nd 5])]).get (by decide +kernel)

theorem reach_tent : Reach true tent := build_reach _ _ _ .init (getEq _)

def floor : List El := [fc 0, fc 5, fc 6, fc 7]

theorem args_tent : FacesArgs tent floor := by
  refine ⟨by decide +kernel, by decide, fun f hf => ?_, separate_of (by decide +kernel)⟩
  simp only [floor, List.mem_cons, List.not_mem_nil, or_false] at hf
  rcases hf with rfl | rfl | rfl | rfl
  · exact ⟨[nd 0, nd 1, nd 5], loop_of (by decide +kernel) (by decide +kernel) (by decide +kernel), by decide +kernel⟩
  · exact ⟨[nd 1, nd 2, nd 5], loop_of (by decide +kernel) (by decide +kernel) (by decide +kernel), by decide +kernel⟩
  · exact ⟨[nd 2, nd 3, nd 5], loop_of (by decide +kernel) (by decide +kernel) (by decide +kernel), by decide +kernel⟩
  · exact ⟨[nd 3, nd 0, nd 5], loop_of (by decide +kernel) (by decide +kernel) (by decide +kernel), by decide +kernel⟩

def tent1 : Topo × Option El := (uniteFaces (fun _ _ => false) tent false noProt floor 8).get (by decide +kernel)

theorem tent1_eq : uniteFaces (fun _ _ => false) tent false noProt floor 8 = some (tent1.1, some (fc 8)) := by
  have h : tent1.2 = some (fc 8) := by decide +kernel
  rw [← h]; exact getEq2 _

/-- The triangles are replaced by a square, the node in the middle and its edges disappear. -/
example : tent1.1.low (fc 8) = [ed 0, ed 3, ed 2, ed 1] ∧ tent1.1.alive (nd 5) = false ∧ tent1.1.alive (ed 8) = false ∧
    tent1.1.alive (fc 0) = false ∧ tent1.1.low ⟨3, 0⟩ = [fc 1, fc 2, fc 3, fc 4, fc 8] ∧ tent1.1.high (fc 8) = [⟨3, 0⟩] := by
  decide +kernel

/-- The theorems applied to this mesh. -/
example : Reach true tent1.1 := C90_reach reach_tent args_tent tent1_eq
example := C90_new args_tent tent1_eq (by decide) (fun _ _ => rfl)
example := C90_elements reach_tent args_tent tent1_eq (nd 5)
example := C90_face reach_tent args_tent tent1_eq
example := C90_cells reach_tent args_tent tent1_eq ⟨3, 0⟩ (by decide +kernel) rfl
example := C90_nodes reach_tent args_tent tent1_eq ⟨3, 0⟩ (by decide +kernel) rfl
example : facesAt tent1.1 ⟨3, 0⟩ (ed 0) = facesAt tent ⟨3, 0⟩ (ed 0) := by
  rw [C90_closed reach_tent args_tent tent1_eq ⟨3, 0⟩ (ed 0) (by decide +kernel) rfl (by decide +kernel) rfl
    (Or.inl (by decide +kernel)), if_neg (by decide +kernel)]
example := (C90_rest reach_tent args_tent tent1_eq (fc 1) (by decide +kernel) (by
  rintro (h | h | ⟨⟨e, h1, h2, h3⟩, h4⟩)
  · exact absurd h (by decide)
  · exact absurd h (by decide +kernel)
  · have := (absorbed_ok (reach_inv reach_tent).1 args_tent).2 _ ((mem_innerCorners args_tent).2 ⟨⟨e, h1, h2, h3⟩, h4⟩)
    simp [fc] at this)).1 rfl

example : facesAt tent1.1 ⟨3, 0⟩ (ed 3) = 0 ∨ facesAt tent1.1 ⟨3, 0⟩ (ed 3) = 2 :=
  C90_together reach_tent args_tent tent1_eq ⟨3, 0⟩ (ed 3) (by decide +kernel) rfl (by decide +kernel) (facesAt_of (by decide +kernel))
    (joined_of (by decide +kernel)) (by decide +kernel) rfl

/-- The conditions of `C90_defined`. -/
example : ∃ T', uniteFaces (fun _ _ => false) tent false noProt floor 8 = some (T', some (fc 8)) :=
  C90_defined reach_tent args_tent (by decide) (fun _ _ => rfl) ⟨⟨3, 0⟩, ⟨3, 0⟩, by decide +kernel⟩
    (visits_of (P := fun _ n => n ≤ 2) (by simp) (by decide +kernel))
    ⟨[ed 0, ed 1, ed 2, ed 3], [nd 0, nd 1, nd 2, nd 3], loop_of (by decide +kernel) (by decide +kernel) (by decide +kernel),
      by decide +kernel, by
        intro e
        have h : ∀ e ∈ visited tent floor, e ∈ [ed 0, ed 1, ed 2, ed 3] ↔ visits tent floor e = 1 := by decide +kernel
        by_cases he : e ∈ visited tent floor
        · exact h e he
        · constructor
          · intro hm
            exact absurd ((by decide +kernel : ∀ e ∈ [ed 0, ed 1, ed 2, ed 3], e ∈ visited tent floor) e hm) he
          · intro hv
            exact absurd (List.count_pos_iff.1 (by rw [visited_visits args_tent, hv]; omega)) he⟩
    (fun e => visits_of (P := fun e n => n = 2 → ∀ f ∈ tent.cellsOf e, f ∈ floor) (by simp) (by decide +kernel) e)
    (by decide +kernel) (by decide +kernel)

/-- A protected node in the middle: nothing happens. -/
example : tent = tent ∧ (none : Option El) = none :=
  C90_refuse (dup := false) (flip := fun _ _ => false) (id := 8) (prot := fun x => decide (x = nd 5)) (T' := tent) (ret := none) args_tent
    (by
      have h : (uniteFaces (fun _ _ => false) tent false (fun x => decide (x = nd 5)) floor 8).map (·.2) = some none := by decide +kernel
      unfold uniteFaces at h ⊢
      rw [if_neg (by decide +kernel), if_neg (by decide), if_neg (by decide +kernel), if_neg (by decide +kernel),
        if_neg (by decide +kernel), if_pos (by decide +kernel)])
    (Or.inr ⟨nd 5, Or.inr (Or.inr ((mem_innerCorners args_tent).1 (by decide +kernel))), by decide⟩)

/-- C90: `TestUniteFaces` refuses protected faces and an empty list. -/
theorem C90_test_partial {T : Topo} {unite : List El} {prot : El → Bool} (A : FacesArgs T unite) :
    (unite = [] → testUniteFaces T prot unite = some false) ∧
    ((∃ f ∈ unite, prot f = true) → testUniteFaces T prot unite = some false) ∧
    (unite ≠ [] → (∀ f ∈ unite, prot f = false) → (∀ e, visits T unite e ≤ 1) → testUniteFaces T prot unite = some true) := by
  have hal : ¬ unite.any (fun f => !T.alive f) = true := by
    intro h
    obtain ⟨c, h1, h2⟩ := List.any_eq_true.1 h
    rw [(A.face c h1).2.1] at h2
    cases h2
  refine ⟨fun h => by unfold testUniteFaces; rw [if_pos h], fun ⟨f, hf, hp⟩ => ?_, fun hne hp hv => ?_⟩
  · unfold testUniteFaces
    rw [if_neg (by rintro rfl; cases hf), if_neg hal, if_pos (List.any_eq_true.2 ⟨f, hf, hp⟩)]
  · unfold testUniteFaces
    rw [if_neg hne, if_neg hal, if_neg (by
      intro h
      obtain ⟨f, h1, h2⟩ := List.any_eq_true.1 h
      rw [hp f h1] at h2; cases h2), if_neg]
    intro h
    obtain ⟨e, h1, h2⟩ := List.any_eq_true.1 h
    have h3 := of_decide_eq_true h2
    have h4 := List.count_pos_iff.2 ((mem_keys _).1 h1)
    rw [visited_visits A] at h3 h4
    have := hv e
    omega

/-- C90: whenever two of the faces have a common edge, so whenever there is something to unite, `TestUniteFaces` fails an assertion. -/
theorem C90_test_fails {T : Topo} {unite : List El} {prot : El → Bool} (A : FacesArgs T unite) (hp : ∀ f ∈ unite, prot f = false)
    (e : El) (he : visits T unite e = 2) : testUniteFaces T prot unite = none := by
  have hm : e ∈ visited T unite := List.count_pos_iff.1 (by rw [visited_visits A, he]; omega)
  have hne : unite ≠ [] := by
    rintro rfl
    exact absurd he (by simp [visits])
  unfold testUniteFaces
  rw [if_neg hne]
  split
  · rfl
  rw [if_neg (by
    intro h
    obtain ⟨f, h1, h2⟩ := List.any_eq_true.1 h
    rw [hp f h1] at h2; cases h2), if_pos]
  exact List.any_eq_true.2 ⟨e, (mem_keys _).2 hm, by rw [visited_visits A, he]; rfl⟩

example : testUniteFaces tent noProt floor = none := C90_test_fails args_tent (fun _ _ => rfl) (ed 8) (by decide +kernel)
example : testUniteFaces tent noProt [fc 0] = some true :=
  (C90_test_partial ⟨by decide +kernel, by decide, fun f hf => by
    cases List.mem_singleton.1 hf
    exact ⟨[nd 0, nd 1, nd 5], loop_of (by decide +kernel) (by decide +kernel) (by decide +kernel), by decide +kernel⟩,
    separate_of (by decide +kernel)⟩).2.2 (by decide) (fun _ _ => rfl) (visits_of (P := fun _ n => n ≤ 1) (by simp) (by decide +kernel))

/-- Two tetrahedra with one common node. -/
def eight : Topo := (build (Topo.init true) [(0, 0, [], []), (0, 1, [], []), (0, 2, [], []), (0, 3, [], []), (0, 4, [], []), (0, 5, [], []),
  (0, 6, [], []), (1, 0, [nd 1, nd 2], []), (1, 1, [nd 0, nd 4], []), (1, 2, [nd 4, nd 5], []), (1, 3, [nd 5, nd 0], []),
  (1, 4, [nd 0, nd 1], []), (1, 5, [nd 0, nd 2], []), (1, 6, [nd 0, nd 3], []), (1, 7, [nd 1, nd 3], []),
  (1, 8, [nd 2, nd 3], []), (1, 9, [nd 0, nd 6], []), (1, 10, [nd 4, nd 6], []), (1, 11, [nd 5, nd 6], []),
  (2, 0, [ed 4, ed 0, ed 5], []), (2, 1, [ed 1, ed 2, ed 3], []), (2, 2, [ed 4, ed 7, ed 6], []), (2, 3, [ed 0, ed 8, ed 7], []),
  (2, 4, [ed 5, ed 8, ed 6], []), (2, 5, [ed 1, ed 10, ed 9], []), (2, 6, [ed 2, ed 11, ed 10], []), (2, 7, [ed 3, ed 9, ed 11], []),
  (3, 0, [fc 0, fc 2, fc 3, fc 4], [nd 0, nd 1, nd 2, nd 3]),
  (3, 1, [fc 1, fc 5, fc 6, fc 7], [nd 0, nd 4, nd 5, nd 6])]).get (by decide +kernel)

theorem reach_eight : Reach true eight := build_reach _ _ _ .init (getEq _)

theorem args_eight : FacesArgs eight [fc 0, fc 1] := by
  refine ⟨by decide +kernel, by decide, fun f hf => ?_, separate_of (by decide +kernel)⟩
  simp only [List.mem_cons, List.not_mem_nil, or_false] at hf
  rcases hf with rfl | rfl
  · exact ⟨[nd 0, nd 1, nd 2], loop_of (by decide +kernel) (by decide +kernel) (by decide +kernel), by decide +kernel⟩
  · exact ⟨[nd 0, nd 4, nd 5], loop_of (by decide +kernel) (by decide +kernel) (by decide +kernel), by decide +kernel⟩

/-- C90: faces of different cells that have only a node in common are united, and the cells are not closed any more: the edge
2 of the second cell is an edge of one face of the first cell. -/
theorem C90_closed_fails : ∃ (T T' : Topo) (unite : List El) (c e : El), Reach true T ∧ FacesArgs T unite ∧
    uniteFaces (fun _ _ => false) T false noProt unite 8 = some (T', some (fc 8)) ∧ c.ty = 3 ∧
    (∀ e, facesAt T c e = 0 ∨ facesAt T c e = 2) ∧ facesAt T' c e = 1 := by
  have h : ((uniteFaces (fun _ _ => false) eight false noProt [fc 0, fc 1] 8).get (by decide +kernel)).2 = some (fc 8) := by decide +kernel
  refine ⟨eight, ((uniteFaces (fun _ _ => false) eight false noProt [fc 0, fc 1] 8).get (by decide +kernel)).1, [fc 0, fc 1], ⟨3, 0⟩, ed 2,
    reach_eight, args_eight, ?_, rfl, facesAt_of (by decide +kernel), by decide +kernel⟩
  rw [← h]; exact getEq2 _

end Verif.Split
