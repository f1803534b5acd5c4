import Verif.CellNodes.Number
import Verif.EdgeLoop.Nodes

/-! Nodes of a face that is a polygon. -/

namespace Verif.CellNodes
open Verif.Topology Verif.EdgeLoop

theorem distinct_go : ∀ (l acc : List El), acc.Nodup →
    (l.foldl (fun acc x => if x ∈ acc then acc else acc ++ [x]) acc).Nodup ∧
    ∀ y, y ∈ l.foldl (fun acc x => if x ∈ acc then acc else acc ++ [x]) acc ↔ y ∈ acc ∨ y ∈ l
  | [], acc, h => ⟨h, fun y => by simp⟩
  | x :: l, acc, h => by
    rw [List.foldl_cons]
    by_cases hx : x ∈ acc
    · rw [if_pos hx]
      obtain ⟨h1, h2⟩ := distinct_go l acc h
      refine ⟨h1, fun y => ?_⟩
      rw [h2, List.mem_cons]
      constructor
      · rintro (h | h)
        · exact Or.inl h
        · exact Or.inr (Or.inr h)
      · rintro (h | rfl | h)
        · exact Or.inl h
        · exact Or.inl hx
        · exact Or.inr h
    · rw [if_neg hx]
      obtain ⟨h1, h2⟩ := distinct_go l (acc ++ [x]) (by
        rw [List.nodup_append]
        refine ⟨h, by simp, fun a ha b hb => ?_⟩
        rw [List.mem_singleton] at hb
        subst hb
        intro e; subst e; exact hx ha)
      refine ⟨h1, fun y => ?_⟩
      rw [h2, List.mem_append, List.mem_singleton, List.mem_cons, or_assoc]

theorem distinct_nodup (l : List El) : (distinct l).Nodup := (distinct_go l [] List.nodup_nil).1

theorem mem_distinct {l : List El} {y : El} : y ∈ distinct l ↔ y ∈ l := by
  have := (distinct_go l [] List.nodup_nil).2 y
  unfold distinct
  simpa using this

theorem distinct_append : ∀ (l acc : List El), acc.Nodup → (acc ++ l).Nodup →
    l.foldl (fun acc x => if x ∈ acc then acc else acc ++ [x]) acc = acc ++ l
  | [], acc, _, _ => by simp
  | x :: l, acc, h, h' => by
    have hx : x ∉ acc := by
      rw [List.nodup_append] at h'
      intro hx
      exact h'.2.2 x hx x (List.mem_cons_self ..) rfl
    rw [List.foldl_cons, if_neg hx]
    have e : acc ++ x :: l = (acc ++ [x]) ++ l := by simp
    rw [distinct_append l (acc ++ [x]) (by rw [e] at h'; exact (List.nodup_append.1 h').1) (by rw [← e]; exact h'), ← e]

theorem distinct_of_nodup {l : List El} (h : l.Nodup) : distinct l = l := by
  have := distinct_append l [] List.nodup_nil (by simpa using h)
  unfold distinct
  simpa using this

variable {T : Topo}

theorem loop_nodes {es ns : List El} (h : Loop T es ns) (x : El) :
    x ∈ es.flatMap (fun e => vis T (T.low e)) ↔ x ∈ ns := by
  have h3 := h.three
  have hl := h.corners
  have key : ∀ i, i < es.length → ∃ e a b, es[i]? = some e ∧ ns[i]? = some a ∧ ns[(i + 1) % es.length]? = some b ∧
      (vis T (T.low e) = [a, b] ∨ vis T (T.low e) = [b, a]) := by
    intro i hi
    have hm : (i + 1) % es.length < es.length := Nat.mod_lt _ (by omega)
    have e1 := List.getElem?_eq_getElem hi
    have e2 : ns[i]? = some ns[i] := List.getElem?_eq_getElem (by omega)
    have e3 : ns[(i + 1) % es.length]? = some ns[(i + 1) % es.length] := List.getElem?_eq_getElem (by omega)
    exact ⟨_, _, _, e1, e2, e3, h.joins i _ _ _ e1 e2 e3⟩
  rw [List.mem_flatMap]
  constructor
  · rintro ⟨e, he, hx⟩
    obtain ⟨i, hi⟩ := List.mem_iff_getElem?.1 he
    obtain ⟨e', a, b, h1, h2, h3, h4⟩ := key i (List.getElem?_eq_some_iff.1 hi).1
    rw [hi] at h1
    cases h1
    have : x = a ∨ x = b := by
      rcases h4 with h4 | h4 <;> rw [h4] at hx <;> simp at hx
      · exact hx
      · exact hx.symm
    rcases this with rfl | rfl
    · exact List.mem_of_getElem? h2
    · exact List.mem_of_getElem? h3
  · intro hx
    obtain ⟨i, hi⟩ := List.mem_iff_getElem?.1 hx
    have hlt := (List.getElem?_eq_some_iff.1 hi).1
    obtain ⟨e', a, b, h1, h2, -, h4⟩ := key i (by omega)
    rw [hi] at h2
    cases h2
    refine ⟨e', List.mem_of_getElem? h1, ?_⟩
    rcases h4 with h4 | h4 <;> rw [h4] <;> simp

/-- A face that is a polygon. -/
def Poly (T : Topo) (f : El) (ns : List El) : Prop := Loop T (edgesOf T f) ns ∧ ns.Nodup

theorem nbNodes_poly {f : El} {ns : List El} (h : Poly T f ns) (p : El → Bool) : nbNodes T p f = (ns.filter p).length := by
  unfold nbNodes
  refine List.Perm.length_eq ?_
  rw [List.perm_ext_iff_of_nodup (distinct_nodup _) (h.2.filter _)]
  intro x
  rw [mem_distinct, List.mem_filter, List.mem_filter]
  have := loop_nodes h.1 x
  unfold edgesOf at this
  rw [show vis T (T.low f) = (T.low f).filter (fun x => !T.hid x) from rfl, this]

theorem poly_nodes {f : El} {ns : List El} (h : Poly T f ns) : getNodes T f = some ns := getNodes_spec h.1 h.2

theorem countVis_eq (l : List El) : T.countVis l = (vis T l).length := by
  induction l with
  | nil => rfl
  | cons x l ih =>
    unfold Topo.countVis vis
    cases hx : T.hid x
    · simp [hx, ih, vis, Nat.add_comm]
    · simp [hx, ih, vis]

theorem poly_edges {f : El} {ns : List El} (h : Poly T f ns) : T.countVis (T.low f) = ns.length := by
  rw [countVis_eq, h.1.corners]; rfl

theorem seen_poly {f c : El} {ns : List El} (h : Poly T f ns) :
    seen T f c = some (if outside T f c then ns.reverse else ns) := by
  unfold seen; rw [poly_nodes h]

theorem seen_cycle {f c : El} {ns base : List El} (h : Poly T f ns) (e : seen T f c = some base) :
    SameCycle base ns ∧ Inward T c f ns base := by
  rw [seen_poly h] at e
  cases e
  unfold Inward outside
  by_cases ho : ((T.high f).filter fun x => !T.hid x).head? = some c
  · rw [if_pos ho, if_pos (by simpa [vis] using ho)]
    exact ⟨(SameCycle.refl ns).rev, rfl⟩
  · rw [if_neg ho, if_neg (by simpa [vis] using ho)]
    exact ⟨SameCycle.refl ns, rfl⟩

end Verif.CellNodes
