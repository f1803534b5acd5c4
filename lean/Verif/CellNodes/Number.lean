import Verif.CellNodes.Shape

/-! Every numbering of a hexahedron, prism, pyramid or tetrahedron can be turned so that it begins with a given face. -/

namespace Verif.CellNodes
open Verif.Topology Verif.EdgeLoop

instance {A : Type} [DecidableEq A] (l m : List A) : Decidable (SameCycle l m) := inferInstanceAs (Decidable (_ ∨ _))

/-- The polygons of `G` in the order of `F`. -/
def matching {A : Type} [DecidableEq A] (F G : List (List A)) : List (List A) := F.map fun P => (G.find? fun g => decide (SameCycle P g)).getD []

theorem shape_auto {A : Type} [DecidableEq A] {F G : List (List A)} (h : ∀ P ∈ F, SameCycle P ((G.find? fun g => decide (SameCycle P g)).getD []))
    (hp : (matching F G).Perm G) : Shape F G :=
  ⟨matching F G, by
    unfold matching
    rw [List.forall₂_map_right_iff, List.forall₂_same]
    exact h, hp⟩

theorem hex_nat (f : Nat → El) (l : List Nat) (h : l.length = 8) :
    hexFaces (l.map f) = (hexFaces l).map (List.map f) := by
  obtain ⟨a, b, c, d, e, f', g, k, rfl⟩ := list8 h; rfl

theorem prism_nat (f : Nat → El) (l : List Nat) (h : l.length = 6) :
    prismFaces (l.map f) = (prismFaces l).map (List.map f) := by
  obtain ⟨a, b, c, d, e, f', rfl⟩ := list6 h; rfl

theorem pyramid_nat (f : Nat → El) (l : List Nat) (h : l.length = 5) :
    pyramidFaces (l.map f) = (pyramidFaces l).map (List.map f) := by
  obtain ⟨a, b, c, d, e, rfl⟩ := list5 h; rfl

theorem tet_nat (f : Nat → El) (l : List Nat) (h : l.length = 4) :
    tetFaces (l.map f) = (tetFaces l).map (List.map f) := by
  obtain ⟨a, b, c, d, rfl⟩ := list4 h; rfl

section
variable {F : List (List El)}

theorem hex_turn {ns : List El} (h : Numbered F hexFaces 8 ns) (σ : List Nat) (f : Nat → El)
    (hf : (List.range 8).map f = ns) (h1 : σ.Perm (List.range 8))
    (h2 : ∀ P ∈ hexFaces (List.range 8), SameCycle P (((hexFaces σ).find? fun g => decide (SameCycle P g)).getD []))
    (h3 : (matching (hexFaces (List.range 8)) (hexFaces σ)).Perm (hexFaces σ)) : Numbered F hexFaces 8 (σ.map f) :=
  renumber (faces := fun B => @hexFaces B) hex_nat h σ h1 (shape_auto h2 h3) f hf

theorem hex_bottom {ns g : List El} (h : Numbered F hexFaces 8 ns) (hg : g ∈ hexFaces ns) :
    ∃ ns', Numbered F hexFaces 8 ns' ∧ ns'.take 4 = g := by
  obtain ⟨a, b, c, d, e, f, g', k, rfl⟩ := list8 h.length
  have ht := hex_turn h
  have hf : (List.range 8).map (fun i => [a, b, c, d, e, f, g', k].getD i a) = [a, b, c, d, e, f, g', k] := rfl
  simp only [hexFaces, List.mem_cons, List.not_mem_nil, or_false] at hg
  rcases hg with rfl | rfl | rfl | rfl | rfl | rfl
  · exact ⟨_, ht [0, 1, 2, 3, 4, 5, 6, 7] _ hf (by decide) (by decide +kernel) (by decide +kernel), rfl⟩
  · exact ⟨_, ht [4, 5, 6, 7, 0, 1, 2, 3] _ hf (by decide) (by decide +kernel) (by decide +kernel), rfl⟩
  · exact ⟨_, ht [0, 1, 5, 4, 3, 2, 6, 7] _ hf (by decide) (by decide +kernel) (by decide +kernel), rfl⟩
  · exact ⟨_, ht [1, 2, 6, 5, 0, 3, 7, 4] _ hf (by decide) (by decide +kernel) (by decide +kernel), rfl⟩
  · exact ⟨_, ht [2, 3, 7, 6, 1, 0, 4, 5] _ hf (by decide) (by decide +kernel) (by decide +kernel), rfl⟩
  · exact ⟨_, ht [3, 0, 4, 7, 2, 1, 5, 6] _ hf (by decide) (by decide +kernel) (by decide +kernel), rfl⟩

theorem hex_spin {ns base : List El} (h : Numbered F hexFaces 8 ns) (hb : SameCycle base (ns.take 4)) :
    ∃ ns', Numbered F hexFaces 8 ns' ∧ ns'.take 4 = base := by
  obtain ⟨a, b, c, d, e, f, g', k, rfl⟩ := list8 h.length
  have ht := hex_turn h
  have hf : (List.range 8).map (fun i => [a, b, c, d, e, f, g', k].getD i a) = [a, b, c, d, e, f, g', k] := rfl
  rcases quad_ways hb with rfl | rfl | rfl | rfl | rfl | rfl | rfl | rfl
  · exact ⟨_, ht [0, 1, 2, 3, 4, 5, 6, 7] _ hf (by decide) (by decide +kernel) (by decide +kernel), rfl⟩
  · exact ⟨_, ht [1, 2, 3, 0, 5, 6, 7, 4] _ hf (by decide) (by decide +kernel) (by decide +kernel), rfl⟩
  · exact ⟨_, ht [2, 3, 0, 1, 6, 7, 4, 5] _ hf (by decide) (by decide +kernel) (by decide +kernel), rfl⟩
  · exact ⟨_, ht [3, 0, 1, 2, 7, 4, 5, 6] _ hf (by decide) (by decide +kernel) (by decide +kernel), rfl⟩
  · exact ⟨_, ht [3, 2, 1, 0, 7, 6, 5, 4] _ hf (by decide) (by decide +kernel) (by decide +kernel), rfl⟩
  · exact ⟨_, ht [2, 1, 0, 3, 6, 5, 4, 7] _ hf (by decide) (by decide +kernel) (by decide +kernel), rfl⟩
  · exact ⟨_, ht [1, 0, 3, 2, 5, 4, 7, 6] _ hf (by decide) (by decide +kernel) (by decide +kernel), rfl⟩
  · exact ⟨_, ht [0, 3, 2, 1, 4, 7, 6, 5] _ hf (by decide) (by decide +kernel) (by decide +kernel), rfl⟩

theorem hex_base {ns g base : List El} (h : Numbered F hexFaces 8 ns) (hg : g ∈ hexFaces ns) (hb : SameCycle base g) :
    ∃ ns', Numbered F hexFaces 8 ns' ∧ ns'.take 4 = base := by
  obtain ⟨ns1, h1, e1⟩ := hex_bottom h hg
  exact hex_spin h1 (e1 ▸ hb)

theorem prism_turn {ns : List El} (h : Numbered F prismFaces 6 ns) (σ : List Nat) (f : Nat → El)
    (hf : (List.range 6).map f = ns) (h1 : σ.Perm (List.range 6))
    (h2 : ∀ P ∈ prismFaces (List.range 6), SameCycle P (((prismFaces σ).find? fun g => decide (SameCycle P g)).getD []))
    (h3 : (matching (prismFaces (List.range 6)) (prismFaces σ)).Perm (prismFaces σ)) : Numbered F prismFaces 6 (σ.map f) :=
  renumber (faces := fun B => @prismFaces B) prism_nat h σ h1 (shape_auto h2 h3) f hf

theorem prism_bottom {ns g : List El} (h : Numbered F prismFaces 6 ns) (hg : g ∈ prismFaces ns) (h3 : g.length = 3) :
    ∃ ns', Numbered F prismFaces 6 ns' ∧ ns'.take 3 = g := by
  obtain ⟨a, b, c, d, e, f, rfl⟩ := list6 h.length
  have ht := prism_turn h
  have hf : (List.range 6).map (fun i => [a, b, c, d, e, f].getD i a) = [a, b, c, d, e, f] := rfl
  simp only [prismFaces, List.mem_cons, List.not_mem_nil, or_false] at hg
  rcases hg with rfl | rfl | rfl | rfl | rfl
  · exact ⟨_, ht [0, 1, 2, 3, 4, 5] _ hf (by decide) (by decide +kernel) (by decide +kernel), rfl⟩
  · exact ⟨_, ht [3, 4, 5, 0, 1, 2] _ hf (by decide) (by decide +kernel) (by decide +kernel), rfl⟩
  · simp at h3
  · simp at h3
  · simp at h3

theorem prism_spin {ns base : List El} (h : Numbered F prismFaces 6 ns) (hb : SameCycle base (ns.take 3)) :
    ∃ ns', Numbered F prismFaces 6 ns' ∧ ns'.take 3 = base := by
  obtain ⟨a, b, c, d, e, f, rfl⟩ := list6 h.length
  have ht := prism_turn h
  have hf : (List.range 6).map (fun i => [a, b, c, d, e, f].getD i a) = [a, b, c, d, e, f] := rfl
  rcases tri_ways hb with rfl | rfl | rfl | rfl | rfl | rfl
  · exact ⟨_, ht [0, 1, 2, 3, 4, 5] _ hf (by decide) (by decide +kernel) (by decide +kernel), rfl⟩
  · exact ⟨_, ht [1, 2, 0, 4, 5, 3] _ hf (by decide) (by decide +kernel) (by decide +kernel), rfl⟩
  · exact ⟨_, ht [2, 0, 1, 5, 3, 4] _ hf (by decide) (by decide +kernel) (by decide +kernel), rfl⟩
  · exact ⟨_, ht [2, 1, 0, 5, 4, 3] _ hf (by decide) (by decide +kernel) (by decide +kernel), rfl⟩
  · exact ⟨_, ht [1, 0, 2, 4, 3, 5] _ hf (by decide) (by decide +kernel) (by decide +kernel), rfl⟩
  · exact ⟨_, ht [0, 2, 1, 3, 5, 4] _ hf (by decide) (by decide +kernel) (by decide +kernel), rfl⟩

theorem prism_base {ns g base : List El} (h : Numbered F prismFaces 6 ns) (hg : g ∈ prismFaces ns) (hb : SameCycle base g)
    (h3 : base.length = 3) : ∃ ns', Numbered F prismFaces 6 ns' ∧ ns'.take 3 = base := by
  obtain ⟨ns1, h1, e1⟩ := prism_bottom h hg (by rw [← hb.perm.length_eq]; exact h3)
  exact prism_spin h1 (e1 ▸ hb)

theorem pyramid_turn {ns : List El} (h : Numbered F pyramidFaces 5 ns) (σ : List Nat) (f : Nat → El)
    (hf : (List.range 5).map f = ns) (h1 : σ.Perm (List.range 5))
    (h2 : ∀ P ∈ pyramidFaces (List.range 5), SameCycle P (((pyramidFaces σ).find? fun g => decide (SameCycle P g)).getD []))
    (h3 : (matching (pyramidFaces (List.range 5)) (pyramidFaces σ)).Perm (pyramidFaces σ)) : Numbered F pyramidFaces 5 (σ.map f) :=
  renumber (faces := fun B => @pyramidFaces B) pyramid_nat h σ h1 (shape_auto h2 h3) f hf

theorem pyramid_base {ns g base : List El} (h : Numbered F pyramidFaces 5 ns) (hg : g ∈ pyramidFaces ns) (hb : SameCycle base g)
    (h4 : base.length = 4) : ∃ ns', Numbered F pyramidFaces 5 ns' ∧ ns'.take 4 = base := by
  have hl : g.length = 4 := by rw [← hb.perm.length_eq]; exact h4
  obtain ⟨a, b, c, d, e, rfl⟩ := list5 h.length
  have ht := pyramid_turn h
  have hf : (List.range 5).map (fun i => [a, b, c, d, e].getD i a) = [a, b, c, d, e] := rfl
  simp only [pyramidFaces, List.mem_cons, List.not_mem_nil, or_false] at hg
  rcases hg with rfl | rfl | rfl | rfl | rfl
  · rcases quad_ways hb with rfl | rfl | rfl | rfl | rfl | rfl | rfl | rfl
    · exact ⟨_, ht [0, 1, 2, 3, 4] _ hf (by decide) (by decide +kernel) (by decide +kernel), rfl⟩
    · exact ⟨_, ht [1, 2, 3, 0, 4] _ hf (by decide) (by decide +kernel) (by decide +kernel), rfl⟩
    · exact ⟨_, ht [2, 3, 0, 1, 4] _ hf (by decide) (by decide +kernel) (by decide +kernel), rfl⟩
    · exact ⟨_, ht [3, 0, 1, 2, 4] _ hf (by decide) (by decide +kernel) (by decide +kernel), rfl⟩
    · exact ⟨_, ht [3, 2, 1, 0, 4] _ hf (by decide) (by decide +kernel) (by decide +kernel), rfl⟩
    · exact ⟨_, ht [2, 1, 0, 3, 4] _ hf (by decide) (by decide +kernel) (by decide +kernel), rfl⟩
    · exact ⟨_, ht [1, 0, 3, 2, 4] _ hf (by decide) (by decide +kernel) (by decide +kernel), rfl⟩
    · exact ⟨_, ht [0, 3, 2, 1, 4] _ hf (by decide) (by decide +kernel) (by decide +kernel), rfl⟩
  all_goals simp at hl

theorem tet_turn {ns : List El} (h : Numbered F tetFaces 4 ns) (σ : List Nat) (f : Nat → El)
    (hf : (List.range 4).map f = ns) (h1 : σ.Perm (List.range 4))
    (h2 : ∀ P ∈ tetFaces (List.range 4), SameCycle P (((tetFaces σ).find? fun g => decide (SameCycle P g)).getD []))
    (h3 : (matching (tetFaces (List.range 4)) (tetFaces σ)).Perm (tetFaces σ)) : Numbered F tetFaces 4 (σ.map f) :=
  renumber (faces := fun B => @tetFaces B) tet_nat h σ h1 (shape_auto h2 h3) f hf

theorem tet_bottom {ns g : List El} (h : Numbered F tetFaces 4 ns) (hg : g ∈ tetFaces ns) :
    ∃ ns', Numbered F tetFaces 4 ns' ∧ ns'.take 3 = g := by
  obtain ⟨a, b, c, d, rfl⟩ := list4 h.length
  have ht := tet_turn h
  have hf : (List.range 4).map (fun i => [a, b, c, d].getD i a) = [a, b, c, d] := rfl
  simp only [tetFaces, List.mem_cons, List.not_mem_nil, or_false] at hg
  rcases hg with rfl | rfl | rfl | rfl
  · exact ⟨_, ht [0, 1, 2, 3] _ hf (by decide) (by decide +kernel) (by decide +kernel), rfl⟩
  · exact ⟨_, ht [0, 1, 3, 2] _ hf (by decide) (by decide +kernel) (by decide +kernel), rfl⟩
  · exact ⟨_, ht [1, 2, 3, 0] _ hf (by decide) (by decide +kernel) (by decide +kernel), rfl⟩
  · exact ⟨_, ht [2, 0, 3, 1] _ hf (by decide) (by decide +kernel) (by decide +kernel), rfl⟩

theorem tet_base {ns g base : List El} (h0 : Numbered F tetFaces 4 ns) (hg : g ∈ tetFaces ns) (hb : SameCycle base g) :
    ∃ ns', Numbered F tetFaces 4 ns' ∧ ns'.take 3 = base := by
  obtain ⟨ns1, h, e1⟩ := tet_bottom h0 hg
  subst e1
  obtain ⟨a, b, c, d, rfl⟩ := list4 h.length
  have ht := tet_turn h
  have hf : (List.range 4).map (fun i => [a, b, c, d].getD i a) = [a, b, c, d] := rfl
  rcases tri_ways hb with rfl | rfl | rfl | rfl | rfl | rfl
  · exact ⟨_, ht [0, 1, 2, 3] _ hf (by decide) (by decide +kernel) (by decide +kernel), rfl⟩
  · exact ⟨_, ht [1, 2, 0, 3] _ hf (by decide) (by decide +kernel) (by decide +kernel), rfl⟩
  · exact ⟨_, ht [2, 0, 1, 3] _ hf (by decide) (by decide +kernel) (by decide +kernel), rfl⟩
  · exact ⟨_, ht [2, 1, 0, 3] _ hf (by decide) (by decide +kernel) (by decide +kernel), rfl⟩
  · exact ⟨_, ht [1, 0, 2, 3] _ hf (by decide) (by decide +kernel) (by decide +kernel), rfl⟩
  · exact ⟨_, ht [0, 2, 1, 3] _ hf (by decide) (by decide +kernel) (by decide +kernel), rfl⟩

end

end Verif.CellNodes
