import Verif.Adjacency.Lemmas

/-! # The restorations complete -/

namespace Verif.Adjacency
open Verif.Topology Verif.EdgeLoop

variable {T : Topo} {A A' : Adj}

theorem each_total {α : Type} {f : Adj → α → Option Adj} {P : Adj → Prop}
    (hf : ∀ A x, P A → ∃ A', f A x = some A' ∧ P A') :
    ∀ (l : List α) (A : Adj), P A → ∃ A', each f l A = some A' ∧ P A'
  | [], A, h => ⟨A, rfl, h⟩
  | x :: l, A, h => by
    obtain ⟨A1, e1, h1⟩ := hf A x h
    obtain ⟨A2, e2, h2⟩ := each_total hf l A1 h1
    exact ⟨A2, by rw [each, e1]; exact e2, h2⟩

theorem fixNormal_total {flip : Topo → El → Bool} {f : El} (hf : f.ty = 2) (ha : T.alive f = true) :
    ∃ T', T.fixNormal flip f = some T' := by
  have hh : T.hcOf f = some (T.high f) := by rw [Topo.hcOf, if_pos ⟨ha, .inl (by omega)⟩]
  have hl : T.lcOf f = some (T.low f) := by rw [Topo.lcOf, if_pos ⟨ha, .inl (by omega)⟩]
  unfold Topo.fixNormal
  rw [hh]
  simp only
  split
  · split
    · split
      · rename_i h2 _
        obtain ⟨T', e, _⟩ := swapTwo_spec hh h2
        exact ⟨T', e⟩
      · exact ⟨_, rfl⟩
    · rw [Topo.modLow, hl]; exact ⟨_, rfl⟩
  · exact ⟨_, rfl⟩

theorem orientFace_total (flip : Topo → El → Bool) (A : Adj) (i : Nat)
    (h : A.lo 1 = true ∧ A.lo 2 = true ∧ A.lo 3 = true ∧ A.up 2 = true) :
    ∃ A', A.orientFace flip i = some A' ∧ (A'.lo 1 = true ∧ A'.lo 2 = true ∧ A'.lo 3 = true ∧ A'.up 2 = true) := by
  rw [Adj.orientFace]
  split
  · rename_i ha
    rw [if_pos (by simp [h])]
    obtain ⟨T', e⟩ := fixNormal_total (flip := flip) (f := ⟨2, i⟩) rfl ha
    rw [e]
    exact ⟨_, rfl, h⟩
  · exact ⟨A, rfl, h⟩

theorem fixEdgeOrder_total {f : El} (hf : f.ty = 2) (ha : T.alive f = true) :
    ∃ r lc', fixOrder T (T.low f) = some (r, lc') ∧
      fixEdgeOrder T f = some (r, { T with low := set1 T.low f lc' }) := by
  have hl : T.lcOf f = some (T.low f) := by rw [Topo.lcOf, if_pos ⟨ha, .inl (by omega)⟩]
  obtain ⟨r, lc', e⟩ := fixOrder_total T (T.low f)
  refine ⟨r, lc', e, ?_⟩
  unfold fixEdgeOrder Topo.modLow
  rw [hl]
  simp only [e, Option.map_some]

theorem fixFace_total (A : Adj) (i : Nat) (h : A.lo 1 = true ∧ A.lo 2 = true) :
    ∃ A', A.fixFace i = some A' ∧ (A'.lo 1 = true ∧ A'.lo 2 = true) := by
  rw [Adj.fixFace]
  split
  · rename_i ha
    rw [if_pos h.2]
    split
    · exact ⟨A, rfl, h⟩
    · rw [if_pos h.1]
      obtain ⟨r, lc', _, e⟩ := fixEdgeOrder_total (f := ⟨2, i⟩) rfl ha
      rw [e]
      exact ⟨_, rfl, h⟩
  · exact ⟨A, rfl, h⟩

/-- The new state of one face. -/
def fixedLow (T : Topo) (l : List El) : List El := match fixOrder T l with
  | none => l
  | some p => p.2

theorem fixOrder_short {T : Topo} {l : List El} (h : T.countVis l < 3) : fixOrder T l = some (false, l) := by
  rw [fixOrder, if_pos h]

/-- One face of the loop: its edges are reordered, all other lists stay. -/
theorem fixFace_eq (A : Adj) (i : Nat) (h : A.lo 1 = true ∧ A.lo 2 = true) :
    A.fixFace i = some (if A.T.alive ⟨2, i⟩ then
      A.withLow (set1 A.T.low ⟨2, i⟩ (fixedLow A.T (A.T.low ⟨2, i⟩))) else A) := by
  rw [Adj.fixFace]
  split
  · rename_i ha
    rw [if_pos h.2]
    split
    · rename_i hs
      rw [fixedLow, fixOrder_short hs]
      simp only [Adj.withLow]
      have : set1 A.T.low ⟨2, i⟩ (A.T.low ⟨2, i⟩) = A.T.low := by
        funext x
        rw [set1]
        split
        · rename_i e; rw [e]
        · rfl
      rw [this]
    · rw [if_pos h.1]
      obtain ⟨r, lc', e0, e⟩ := fixEdgeOrder_total (f := ⟨2, i⟩) rfl ha
      rw [e, fixedLow, e0]
      rfl
  · rfl

/-- All faces of the loop. -/
theorem fixFaces_eq : ∀ (ids : List Nat) (A : Adj), ids.Nodup → A.lo 1 = true ∧ A.lo 2 = true →
    ∃ A', each Adj.fixFace ids A = some A' ∧ A'.lo = A.lo ∧ A'.up = A.up ∧ A'.T.alive = A.T.alive ∧ A'.T.hide = A.T.hide ∧
      A'.T.hidden = A.T.hidden ∧ A'.T.high = A.T.high ∧
      (∀ x, x.ty ≠ 2 ∨ x.id ∉ ids ∨ A.T.alive x = false → A'.T.low x = A.T.low x) ∧
      (∀ x, x.ty = 2 → x.id ∈ ids → A.T.alive x = true → ∃ B : Topo, A'.T.low x = fixedLow B (A.T.low x) ∧
        B.hide = A.T.hide ∧ B.hidden = A.T.hidden ∧ ∀ e, e.ty ≠ 2 → B.low e = A.T.low e)
  | [], A, _, _ => ⟨A, rfl, rfl, rfl, rfl, rfl, rfl, rfl, fun _ _ => rfl, (fun _ _ h => (by cases h))⟩
  | i :: ids, A, hn, h => by
    rw [List.nodup_cons] at hn
    rw [each, fixFace_eq A i h]
    by_cases ha : A.T.alive ⟨2, i⟩ = true
    · simp only [if_pos ha]
      obtain ⟨A', e, q1, q2, q3, q4, q5, q6, q7, q8⟩ :=
        fixFaces_eq ids (A.withLow (set1 A.T.low ⟨2, i⟩ (fixedLow A.T (A.T.low ⟨2, i⟩)))) hn.2 h
      refine ⟨A', e, q1, q2, q3, q4, q5, q6, fun x hx => ?_, fun x hx hi hxa => ?_⟩
      · rw [q7 x ?_]
        · refine set1_ne _ _ ?_
          rintro rfl
          rcases hx with hx | hx | hx
          · exact hx rfl
          · exact hx (List.mem_cons_self ..)
          · rw [ha] at hx; cases hx
        · rcases hx with hx | hx | hx
          · exact .inl hx
          · exact .inr (.inl fun h => hx (List.mem_cons_of_mem _ h))
          · exact .inr (.inr hx)
      · by_cases hxi : x = ⟨2, i⟩
        · subst hxi
          refine ⟨A.T, ?_, rfl, rfl, fun _ _ => rfl⟩
          rw [q7 _ (.inr (.inl hn.1))]
          exact set1_same _ _ _
        · have hi' : x.id ∈ ids := by
            rcases List.mem_cons.1 hi with h1 | h1
            · exfalso; apply hxi; cases x; simp_all
            · exact h1
          obtain ⟨B, b1, b2, b3, b4⟩ := q8 x hx hi' hxa
          refine ⟨B, ?_, b2, b3, fun e he => ?_⟩
          · rw [b1]
            have : (A.withLow (set1 A.T.low ⟨2, i⟩ (fixedLow A.T (A.T.low ⟨2, i⟩)))).T.low x = A.T.low x := set1_ne _ _ hxi
            rw [this]
          · rw [b4 e he]
            exact set1_ne _ _ (by rintro rfl; exact he rfl)
    · simp only [if_neg ha]
      obtain ⟨A', e, q1, q2, q3, q4, q5, q6, q7, q8⟩ := fixFaces_eq ids A hn.2 h
      refine ⟨A', e, q1, q2, q3, q4, q5, q6, fun x hx => q7 x ?_, fun x hx hi hxa => q8 x hx ?_ hxa⟩
      · rcases hx with hx | hx | hx
        · exact .inl hx
        · exact .inr (.inl fun h => hx (List.mem_cons_of_mem _ h))
        · exact .inr (.inr hx)
      · rcases List.mem_cons.1 hi with h1 | h1
        · exfalso; apply ha
          have : x = ⟨2, i⟩ := by cases x; simp_all
          rw [← this]; exact hxa
        · exact h1

theorem joins_perm {T T' : Topo} {e a b : El} (h : (T'.low e).Perm (T.low e)) (h1 : T'.hide = T.hide)
    (h2 : T'.hidden = T.hidden) (hj : Joins T e a b) : Joins T' e a b := by
  unfold Joins at hj ⊢
  have hh : (fun x => !T'.hid x) = fun x => !T.hid x := by funext x; unfold Topo.hid; rw [h1, h2]
  rw [hh]
  have hp := h.filter fun x => !T.hid x
  have two : ∀ l : List El, l.Perm [a, b] → l = [a, b] ∨ l = [b, a] := by
    intro l hl
    have hlen := hl.length_eq
    match l, hlen with
    | [x, y], _ =>
      have hc := List.cons_perm_iff_perm_erase.1 hl
      by_cases hxa : x = a
      · subst hxa
        left
        have := hc.2
        simp only [List.erase_cons_head] at this
        rw [List.singleton_perm_singleton.1 this]
      · have hx := hc.1
        simp only [List.mem_cons, List.not_mem_nil, or_false] at hx
        rcases hx with hx | hx
        · exact absurd hx hxa
        · subst hx
          right
          have := hc.2
          rw [List.erase_cons_tail (by simpa using fun h => hxa h.symm), List.erase_cons_head] at this
          rw [List.singleton_perm_singleton.1 this]
  rcases hj with hj | hj
  · rw [hj] at hp; exact two _ hp
  · rw [hj] at hp; exact two _ (hp.trans (List.Perm.swap _ _ _))

theorem loop_perm {T T' : Topo} {es ns : List El} (h : ∀ e ∈ es, (T'.low e).Perm (T.low e)) (h1 : T'.hide = T.hide)
    (h2 : T'.hidden = T.hidden) (hl : Loop T es ns) : Loop T' es ns :=
  ⟨hl.three, hl.corners, fun i e a b he ha hb =>
    joins_perm (h e (List.mem_of_getElem? he)) h1 h2 (hl.joins i e a b he ha hb)⟩

/-- The face is a polygon after its edges were put in order. -/
theorem fixedLow_loop {B : Topo} (hB : B.hide = false) {l es ns : List El} (hl : Loop B es ns) (hn : ns.Nodup)
    (hp : es.Perm l) : ∃ ns', Loop B (fixedLow B l) ns' ∧ ns'.Nodup ∧ (fixedLow B l).Perm l := by
  obtain ⟨x, hpath⟩ := hl.path
  have hhid : ∀ y, B.hid y = false := fun y => by rw [Topo.hid, hB]; rfl
  have hvis : ∀ l, vis B l = l := fun l => List.filter_eq_self.2 fun y _ => by rw [hhid y]; rfl
  obtain ⟨lc', e, a, ns', hp', hn'⟩ := fixOrder_complete (lc := l) (fun y _ => hhid y) hpath hl.three hn
    (by rw [hvis]; exact hp)
  rw [hvis] at hp'
  have hperm := fixOrder_perm e
  have ef : fixedLow B l = lc' := by rw [fixedLow, e]
  rw [ef]
  refine ⟨ns', hp'.loop ?_, hn', hperm⟩
  rw [hperm.length_eq, ← hp.length_eq]; exact hl.three

end Verif.Adjacency
