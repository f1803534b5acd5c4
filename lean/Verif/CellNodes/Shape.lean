import Verif.CellNodes.Spec

/-! Helper lemmas about polygons. -/

namespace Verif.CellNodes
open Verif.Topology Verif.EdgeLoop

section
variable {A B : Type}

theorem SameCycle.refl (l : List A) : SameCycle l l := Or.inl (List.IsRotated.refl l)

theorem SameCycle.symm {l m : List A} (h : SameCycle l m) : SameCycle m l := by
  rcases h with h | h
  · exact Or.inl h.symm
  · refine Or.inr ?_
    have := h.symm.reverse
    rwa [List.reverse_reverse] at this

theorem SameCycle.trans {l m k : List A} (h : SameCycle l m) (h' : SameCycle m k) : SameCycle l k := by
  rcases h with h | h <;> rcases h' with h' | h'
  · exact Or.inl (h.trans h')
  · exact Or.inr (h.reverse.trans h')
  · exact Or.inr (h.trans h')
  · refine Or.inl ?_
    have := h.reverse
    rw [List.reverse_reverse] at this
    exact this.trans h'

theorem SameCycle.perm {l m : List A} (h : SameCycle l m) : l.Perm m := by
  rcases h with h | h
  · exact h.perm
  · exact (List.reverse_perm l).symm.trans h.perm

theorem SameCycle.map (f : A → B) {l m : List A} (h : SameCycle l m) : SameCycle (l.map f) (m.map f) := by
  rcases h with h | h
  · exact Or.inl (h.map f)
  · refine Or.inr ?_
    rw [← List.map_reverse]
    exact h.map f

theorem SameCycle.rev {l m : List A} (h : SameCycle l m) : SameCycle l.reverse m := by
  rcases h with h | h
  · exact Or.inr (by rwa [List.reverse_reverse])
  · exact Or.inl h

theorem Shape.refl (F : List (List A)) : Shape F F :=
  ⟨F, List.forall₂_same.2 fun l _ => SameCycle.refl l, List.Perm.refl _⟩

theorem Shape.trans {F G H : List (List A)} (h : Shape F G) (h' : Shape G H) : Shape F H := by
  obtain ⟨F', hF, p⟩ := h
  obtain ⟨G', hG, q⟩ := h'
  obtain ⟨K, hK, r⟩ : Relation.Comp (List.Forall₂ SameCycle) List.Perm F' G' := by
    rw [List.forall₂_comp_perm_eq_perm_comp_forall₂]
    exact ⟨G, p, hG⟩
  refine ⟨K, ?_, r.trans q⟩
  clear p q r
  induction hF generalizing K with
  | nil => exact hK
  | cons h1 _ ih =>
    cases hK with
    | cons h2 h3 => exact .cons (h1.trans h2) (ih _ h3)

theorem Shape.map (f : A → B) {F G : List (List A)} (h : Shape F G) :
    Shape (F.map (List.map f)) (G.map (List.map f)) := by
  obtain ⟨F', hF, p⟩ := h
  refine ⟨F'.map (List.map f), ?_, p.map _⟩
  clear p
  induction hF with
  | nil => exact .nil
  | cons h1 _ ih => exact .cons (h1.map f) ih

theorem Shape.mem {F G : List (List A)} (h : Shape F G) {P : List A} (hP : P ∈ F) : ∃ g ∈ G, SameCycle P g := by
  obtain ⟨F', hF, p⟩ := h
  have : ∃ g ∈ F', SameCycle P g := by
    clear p
    induction hF with
    | nil => cases hP
    | cons h1 _ ih =>
      rcases List.mem_cons.1 hP with h | h
      · subst h; exact ⟨_, List.mem_cons_self .., h1⟩
      · obtain ⟨g, hg, hs⟩ := ih h; exact ⟨g, List.mem_cons_of_mem _ hg, hs⟩
  obtain ⟨g, hg, hs⟩ := this
  exact ⟨g, p.mem_iff.1 hg, hs⟩

theorem Shape.mem' {F G : List (List A)} (h : Shape F G) {g : List A} (hg : g ∈ G) : ∃ P ∈ F, SameCycle P g := by
  obtain ⟨F', hF, p⟩ := h
  have hg := p.mem_iff.2 hg
  clear p
  induction hF with
  | nil => cases hg
  | cons h1 _ ih =>
    rcases List.mem_cons.1 hg with h | h
    · subst h; exact ⟨_, List.mem_cons_self .., h1⟩
    · obtain ⟨P, hP, hs⟩ := ih h; exact ⟨P, List.mem_cons_of_mem _ hP, hs⟩

theorem Shape.length {F G : List (List A)} (h : Shape F G) : F.length = G.length := by
  obtain ⟨F', hF, p⟩ := h
  rw [hF.length_eq, p.length_eq]

/-- The eight ways to write a quadrilateral. -/
theorem quad_ways {P : List A} {x y u w : A} (h : SameCycle P [x, y, u, w]) :
    P = [x, y, u, w] ∨ P = [y, u, w, x] ∨ P = [u, w, x, y] ∨ P = [w, x, y, u] ∨
    P = [w, u, y, x] ∨ P = [u, y, x, w] ∨ P = [y, x, w, u] ∨ P = [x, w, u, y] := by
  have key : ∀ Q : List A, Q ~r [x, y, u, w] → Q = [x, y, u, w] ∨ Q = [y, u, w, x] ∨ Q = [u, w, x, y] ∨ Q = [w, x, y, u] := by
    intro Q hQ
    have := List.mem_cyclicPermutations_iff.2 hQ
    simpa [List.cyclicPermutations] using this
  rcases h with h | h
  · rcases key _ h with h | h | h | h <;> simp [h]
  · have h2 := key _ h
    rw [← List.reverse_reverse P]
    rcases h2 with h | h | h | h <;> simp [h]

/-- The six ways to write a triangle. -/
theorem tri_ways {P : List A} {x y u : A} (h : SameCycle P [x, y, u]) :
    P = [x, y, u] ∨ P = [y, u, x] ∨ P = [u, x, y] ∨ P = [u, y, x] ∨ P = [y, x, u] ∨ P = [x, u, y] := by
  have key : ∀ Q : List A, Q ~r [x, y, u] → Q = [x, y, u] ∨ Q = [y, u, x] ∨ Q = [u, x, y] := by
    intro Q hQ
    have := List.mem_cyclicPermutations_iff.2 hQ
    simpa [List.cyclicPermutations] using this
  rcases h with h | h
  · rcases key _ h with h | h | h <;> simp [h]
  · have h2 := key _ h
    rw [← List.reverse_reverse P]
    rcases h2 with h | h | h <;> simp [h]

end

/-! ## Renumbering -/

section
variable {A : Type}

theorem list8 {l : List A} (h : l.length = 8) : ∃ a b c d e f g k, l = [a, b, c, d, e, f, g, k] := by
  match l, h with
  | [a, b, c, d, e, f, g, k], _ => exact ⟨a, b, c, d, e, f, g, k, rfl⟩

theorem list6 {l : List A} (h : l.length = 6) : ∃ a b c d e f, l = [a, b, c, d, e, f] := by
  match l, h with
  | [a, b, c, d, e, f], _ => exact ⟨a, b, c, d, e, f, rfl⟩

theorem list5 {l : List A} (h : l.length = 5) : ∃ a b c d e, l = [a, b, c, d, e] := by
  match l, h with
  | [a, b, c, d, e], _ => exact ⟨a, b, c, d, e, rfl⟩

theorem list4 {l : List A} (h : l.length = 4) : ∃ a b c d, l = [a, b, c, d] := by
  match l, h with
  | [a, b, c, d], _ => exact ⟨a, b, c, d, rfl⟩

theorem list3 {l : List A} (h : l.length = 3) : ∃ a b c, l = [a, b, c] := by
  match l, h with
  | [a, b, c], _ => exact ⟨a, b, c, rfl⟩

/-- A decision procedure for `Shape` of lists of numbers: `G` lists the polygons of `F` in order. -/
theorem shape_of {F G : List (List Nat)} (F' : List (List Nat)) (hl : F.length = F'.length)
    (h : ∀ p ∈ F.zip F', p.1 ~r p.2 ∨ p.1.reverse ~r p.2) (hp : F'.Perm G) : Shape F G :=
  ⟨F', List.forall₂_iff_zip.2 ⟨hl, fun {a b} h' => h (a, b) h'⟩, hp⟩

end

/-- A renumbering of a numbering; `σ` are the positions of the new nodes. -/
theorem renumber {F : List (List El)} {faces : (B : Type) → List B → List (List B)} {n : Nat} {ns : List El}
    (hnat : ∀ (f : Nat → El) (l : List Nat), l.length = n → faces El (l.map f) = (faces Nat l).map (List.map f))
    (h : Numbered F (faces El) n ns) (σ : List Nat) (hσ : σ.Perm (List.range n))
    (hs : Shape (faces Nat (List.range n)) (faces Nat σ)) (f : Nat → El) (hf : (List.range n).map f = ns) :
    Numbered F (faces El) n (σ.map f) := by
  refine ⟨by simpa using hσ.length_eq, ?_, ?_⟩
  · rw [(hσ.map f).nodup_iff, hf]; exact h.nodup
  · refine h.shape.trans ?_
    rw [← hf, hnat f _ (by simp), hnat f _ (by simpa using hσ.length_eq)]
    exact hs.map f

end Verif.CellNodes
