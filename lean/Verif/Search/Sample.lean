import Verif.Search.SegLemmas
import Verif.Search.Float
import Mathlib.Analysis.Real.Sqrt
import Mathlib.Tactic.IntervalCases

/-!
# A tetrahedron

Element 0 is the cell, elements 1 to 4 are its faces.
-/

namespace Verif.Search

theorem sqrt_isSqrt : IsSqrt Real.sqrt := fun x hx => ⟨Real.sqrt_nonneg x, Real.mul_self_sqrt hx⟩

/-- Coordinates of the nodes. -/
def tetraNode : Nat → V ℝ
  | 0 => ⟨0, 0, 0⟩
  | 1 => ⟨1, 0, 0⟩
  | 2 => ⟨0, 1, 0⟩
  | _ => ⟨0, 0, 1⟩

/-- Nodes of the faces. -/
def tetraFace : Nat → List Nat
  | 1 => [0, 1, 2]
  | 2 => [0, 1, 3]
  | 3 => [0, 2, 3]
  | 4 => [1, 2, 3]
  | _ => []

noncomputable def tetraCen : Nat → V ℝ
  | 0 => ⟨1 / 4, 1 / 4, 1 / 4⟩
  | 1 => ⟨1 / 3, 1 / 3, 0⟩
  | 2 => ⟨1 / 3, 0, 1 / 3⟩
  | 3 => ⟨0, 1 / 3, 1 / 3⟩
  | _ => ⟨1 / 3, 1 / 3, 1 / 3⟩

/-- The tetrahedron with vertices at the origin and on the axes. -/
noncomputable def tetraMesh : Mesh ℝ where
  fl := fl32
  sq := Real.sqrt
  dims := 3
  isCell e := decide (e = 0)
  isFace e := decide (0 < e)
  gdim e := if e = 0 then 3 else 2
  modif := false
  hidden _ := false
  new _ := false
  nodes e := if e = 0 then [0, 1, 2, 3] else tetraFace e
  coord := tetraNode
  key e d := if d = 0 then (if e = 0 then 0x3E800000#32 else 0x3EAAAAAB#32) else 0
  cen := tetraCen
  faceNodes := tetraFace
  cellFaces e := if e = 0 then [1, 2, 3, 4] else []
  faceCells e := if 0 < e ∧ e ≤ 4 then [0] else []
  inside _ _ := false
  insideOld _ _ := false

theorem tetra_kinds (e : Nat) : ¬ (tetraMesh.isCell e = true ∧ tetraMesh.isFace e = true) := by
  simp only [tetraMesh, decide_eq_true_eq]; omega

theorem tetra_nodeOf {e n : Nat} : NodeOf tetraMesh e n ↔ n ∈ (if e = 0 then [0, 1, 2, 3] else tetraFace e) := by
  simp [NodeOf, tetraMesh]

theorem tetra_surface {e : Nat} : surface tetraMesh e = if e = 0 then [1, 2, 3, 4] else [e] := by
  by_cases h : e = 0 <;> simp [surface, tetraMesh, h]

theorem tetra_proper {e : Nat} (h : e ≤ 4) : Proper tetraMesh e := by
  have hne : ∀ f, 1 ≤ f → f ≤ 4 → tetraMesh.faceNodes f ≠ [] := by
    intro f h1 h2
    interval_cases f <;> simp [tetraMesh, tetraFace]
  refine ⟨?_, ?_, ?_⟩
  · by_cases h0 : e = 0 <;> simp [tetraMesh, h0]; omega
  · by_cases h0 : e = 0 <;> simp [tetraMesh, h0]
  · intro f hf
    rw [tetra_surface] at hf
    by_cases h0 : e = 0
    · rw [if_pos h0] at hf
      simp at hf
      apply hne <;> omega
    · rw [if_neg h0, List.mem_singleton] at hf
      apply hne <;> omega

theorem tetra_bounded {r : ℝ} (hr : 1 ≤ r) (e : Nat) : NodesBounded tetraMesh r e := by
  intro n _
  have : ∀ n, Bounded r (tetraNode n) := by
    intro n
    unfold tetraNode
    split <;> (refine ⟨?_, ?_, ?_⟩ <;> simp <;> linarith)
  exact this n

theorem tetra_surfaceIn {e : Nat} (h : e ≤ 4) : SurfaceIn tetraMesh e := by
  intro f hf
  rw [tetra_surface] at hf
  have box : ∀ f, 1 ≤ f → f ≤ 4 → ∀ g : V ℝ → ℝ, (g = V.x ∨ g = V.y ∨ g = V.z) →
      (∃ n ∈ tetraFace f, g (tetraNode n) ≤ g (tetraCen f)) ∧ ∃ n ∈ tetraFace f, g (tetraCen f) ≤ g (tetraNode n) := by
    intro f h1 h2 g hg
    interval_cases f <;> rcases hg with rfl | rfl | rfl <;> constructor <;>
      simp [tetraFace, tetraNode, tetraCen] <;> norm_num
  have mem : ∀ f, 1 ≤ f → f ≤ 4 → ∀ n ∈ tetraFace f, n ∈ [0, 1, 2, 3] := by
    intro f h1 h2
    interval_cases f <;> decide
  have hfe : 1 ≤ f ∧ f ≤ 4 := by
    by_cases h0 : e = 0
    · rw [if_pos h0] at hf; simp at hf; omega
    · rw [if_neg h0, List.mem_singleton] at hf; omega
  have sub : ∀ n ∈ tetraFace f, NodeOf tetraMesh e n := by
    intro n hn
    rw [tetra_nodeOf]
    by_cases h0 : e = 0
    · rw [if_pos h0]; exact mem f hfe.1 hfe.2 n hn
    · rw [if_neg h0] at hf ⊢
      rw [List.mem_singleton] at hf
      rw [← hf]; exact hn
  refine ⟨fun n hn => sub n hn, ?_⟩
  intro g hg
  have hg' : g = V.x ∨ g = V.y ∨ g = V.z := by
    rcases hg with ⟨_, h⟩ | ⟨_, h⟩ | ⟨_, h⟩ <;> simp [h]
  obtain ⟨⟨a, ha, la⟩, b, hb, lb⟩ := box f hfe.1 hfe.2 g hg'
  exact ⟨⟨a, sub a ha, la⟩, b, sub b hb, lb⟩

/-- The first side of the face in the plane `z = 0`. -/
theorem tetra_side : SideOf tetraMesh 1 ⟨0, 0, 0⟩ ⟨1, 0, 0⟩ := ⟨0, 1, by simp [tetraMesh, tetraFace], rfl, rfl, rfl⟩

/-- The tree over the cell and its first face has the cell to the left. -/
theorem tetra_tree {t : Tree ℝ} (h : Constructed tetraMesh [0, 1] t) :
    ∃ b, t = .node b (.leaf 0 (leafBox tetraMesh 0)) (.leaf 1 (leafBox tetraMesh 1)) ∧
      (leafBox tetraMesh 0).Sub b ∧ (leafBox tetraMesh 1).Sub b := by
  have he := h.enclosed
  unfold Constructed at h
  generalize hz : [0, 1] = z at h
  cases h with
  | leaf => cases hz
  | @node _ _ set' l r _ h2 hl hr =>
    subst hz
    have hs : set' = [0, 1] := by
      simp only [Sorted] at h2
      rw [if_neg (by decide)] at h2
      obtain ⟨hp, hs⟩ := h2
      have hlen := hp.length_eq
      match set', hlen with
      | [a, b], _ =>
        have ha : a ∈ [0, 1] := hp.subset (by simp)
        have hb : b ∈ [0, 1] := hp.subset (by simp)
        have hne := hp.nodup_iff.2 (by decide)
        have hlt := (List.pairwise_cons.1 hs).1 b (by simp)
        simp at ha hb hne
        rcases ha with rfl | rfl <;> rcases hb with rfl | rfl
        · exact absurd rfl hne
        · rfl
        · revert hlt
          simp only [tetraMesh]
          decide
        · exact absurd rfl hne
    subst hs
    have e1 : l = .leaf 0 (leafBox tetraMesh 0) := by
      generalize hz : List.take ([0, 1].length / 2) [0, 1] = z at hl
      simp at hz
      subst hz
      cases hl with
      | leaf => rfl
      | node h => simp at h
    have e2 : r = .leaf 1 (leafBox tetraMesh 1) := by
      generalize hz : List.drop ([0, 1].length / 2) [0, 1] = z at hr
      simp at hz
      subst hz
      cases hr with
      | leaf => rfl
      | node h => simp at h
    subst e1 e2
    refine ⟨_, rfl, ?_, ?_⟩ <;>
      simp [Box.Sub, merge, Tree.box]

end Verif.Search
