import Verif.Topology.Bridge
import Verif.Topology.Queries

/-!
# Lemmas: second order adjacency, neighbouring cells, boundary
-/

namespace Verif.Topology

variable {T : Topo} {S : El → Prop}

/-! ## The loops of BridgeAdjacencies -/

/-- The list consists of elements marked since the beginning, each once. -/
structure Marked (mrk0 : El → Bool) (acc : List El) (mrk : El → Bool) : Prop where
  nodup : acc.Nodup
  mark : ∀ y, mrk y = true ↔ mrk0 y = true ∨ y ∈ acc
  fresh : ∀ y ∈ acc, mrk0 y = false

theorem bridgeIn_spec {tsel mrk0 : El → Bool} : ∀ (js acc : List El) (mrk : El → Bool),
    Marked mrk0 acc mrk → Marked mrk0 (bridgeIn tsel js acc mrk).1 (bridgeIn tsel js acc mrk).2 ∧
      ∀ y, y ∈ (bridgeIn tsel js acc mrk).1 ↔
        y ∈ acc ∨ (y ∈ js ∧ tsel y = true ∧ mrk0 y = false)
  | [], acc, mrk, M => ⟨M, by simp [bridgeIn]⟩
  | j :: js, acc, mrk, M => by
    unfold bridgeIn
    by_cases hj : (!mrk j && tsel j) = true
    · rw [if_pos hj]
      simp only [Bool.and_eq_true, Bool.not_eq_true'] at hj
      have hn : ¬ (mrk0 j = true ∨ j ∈ acc) := fun h => by
        rw [(M.mark j).2 h] at hj; cases hj.1
      have h0 : mrk0 j = false := by
        cases h : mrk0 j with
        | false => rfl
        | true => exact absurd (Or.inl h) hn
      have M' : Marked mrk0 (acc ++ [j]) (set1 mrk j true) := by
        refine ⟨?_, fun y => ?_, fun y hy => ?_⟩
        · rw [List.nodup_append]
          refine ⟨M.nodup, by simp, ?_⟩
          intro a ha b hb
          rw [List.mem_singleton] at hb
          subst hb
          rintro rfl
          exact hn (Or.inr ha)
        · unfold set1
          by_cases hy : y = j
          · simp [hy]
          · rw [if_neg hy, M.mark y]
            simp [hy]
        · rcases List.mem_append.1 hy with h | h
          · exact M.fresh y h
          · rw [List.mem_singleton] at h
            rw [h]; exact h0
      obtain ⟨h1, h2⟩ := bridgeIn_spec (tsel := tsel) js _ _ M'
      refine ⟨h1, fun y => ?_⟩
      rw [h2]
      simp only [List.mem_append, List.mem_cons, List.not_mem_nil, or_false]
      constructor
      · rintro ((h | rfl) | h)
        · exact Or.inl h
        · exact Or.inr ⟨Or.inl rfl, hj.2, h0⟩
        · exact Or.inr ⟨Or.inr h.1, h.2⟩
      · rintro (h | ⟨rfl | h, h'⟩)
        · exact Or.inl (Or.inl h)
        · exact Or.inl (Or.inr rfl)
        · exact Or.inr ⟨h, h'⟩
    · rw [if_neg hj]
      obtain ⟨h1, h2⟩ := bridgeIn_spec (tsel := tsel) js acc mrk M
      refine ⟨h1, fun y => ?_⟩
      rw [h2]
      simp only [List.mem_cons]
      constructor
      · rintro (h | h)
        · exact Or.inl h
        · exact Or.inr ⟨Or.inr h.1, h.2⟩
      · rintro (h | ⟨rfl | h, ht, h0⟩)
        · exact Or.inl h
        · left
          have hm : mrk y = true := by
            cases hm : mrk y with
            | true => rfl
            | false => rw [hm, ht] at hj; exact absurd rfl hj
          rcases (M.mark y).1 hm with h | h
          · rw [h0] at h; cases h
          · exact h
        · exact Or.inr ⟨h, ht, h0⟩

theorem bridgeLoop_spec {dest : Nat → Bool} {bsel tsel mrk0 : El → Bool} {sub : El → List El} :
    ∀ (bs acc : List El) (mrk : El → Bool),
    (∀ b ∈ bs, T.getAdj b dest [0, 1, 2, 3] = some (sub b)) → Marked mrk0 acc mrk →
    ∃ r, T.bridgeLoop dest bsel tsel bs acc mrk = some r ∧ Marked mrk0 r.1 r.2 ∧
      ∀ y, y ∈ r.1 ↔ y ∈ acc ∨
        (tsel y = true ∧ mrk0 y = false ∧ ∃ b ∈ bs, bsel b = true ∧ y ∈ sub b)
  | [], acc, mrk, _, M => ⟨(acc, mrk), rfl, M, by simp⟩
  | b :: bs, acc, mrk, hs, M => by
    have hs' := fun c hc => hs c (List.mem_cons_of_mem b hc)
    unfold Topo.bridgeLoop
    by_cases hb : bsel b = true
    · rw [if_pos hb, hs b (by simp)]
      simp only
      obtain ⟨M1, h1⟩ := bridgeIn_spec (tsel := tsel) (sub b) acc mrk M
      obtain ⟨r, hr, Mr, h2⟩ := bridgeLoop_spec (bsel := bsel) (tsel := tsel) bs _ _ hs' M1
      refine ⟨r, hr, Mr, fun y => ?_⟩
      rw [h2, h1]
      constructor
      · rintro ((h | h) | ⟨h, h0, c, hc, h'⟩)
        · exact Or.inl h
        · exact Or.inr ⟨h.2.1, h.2.2, b, by simp, hb, h.1⟩
        · exact Or.inr ⟨h, h0, c, by simp [hc], h'⟩
      · rintro (h | ⟨h, h0, c, hc, h'⟩)
        · exact Or.inl (Or.inl h)
        · rcases List.mem_cons.1 hc with rfl | hc
          · exact Or.inl (Or.inr ⟨h'.2, h, h0⟩)
          · exact Or.inr ⟨h, h0, c, hc, h'⟩
    · rw [if_neg hb]
      obtain ⟨r, hr, Mr, h2⟩ := bridgeLoop_spec (bsel := bsel) (tsel := tsel) bs acc mrk hs' M
      refine ⟨r, hr, Mr, fun y => ?_⟩
      rw [h2]
      constructor
      · rintro (h | ⟨h, h0, c, hc, h'⟩)
        · exact Or.inl h
        · exact Or.inr ⟨h, h0, c, by simp [hc], h'⟩
      · rintro (h | ⟨h, h0, c, hc, h'⟩)
        · exact Or.inl h
        · rcases List.mem_cons.1 hc with rfl | hc
          · exact absurd h'.1 hb
          · exact Or.inr ⟨h, h0, c, hc, h'⟩

/-! ## The first and the second cell of a face -/

theorem next_eq (l : List El) (k : Nat) :
    l[T.getNext l k]? = ((l.drop k).filter fun x => !T.hid x)[0]? := by
  unfold Topo.getNext
  rw [← List.getElem?_drop]
  generalize l.drop k = m
  induction m with
  | nil => rfl
  | cons x xs ih =>
    cases hx : T.hid x with
    | true =>
      rw [List.takeWhile_cons, if_pos hx, List.filter_cons, if_neg (by simp [hx])]
      exact ih
    | false =>
      rw [List.takeWhile_cons, if_neg (by simp [hx]), List.filter_cons, if_pos (by simp [hx])]
      rfl

theorem next_drop (l : List El) : T.getNext l 0 < l.length →
    ((l.drop (T.getNext l 0 + 1)).filter fun x => !T.hid x) =
      (l.filter fun x => !T.hid x).drop 1 := by
  unfold Topo.getNext
  rw [List.drop_zero, Nat.zero_add]
  induction l with
  | nil => intro _; rfl
  | cons x xs ih =>
    intro h
    cases hx : T.hid x with
    | true =>
      rw [List.takeWhile_cons, if_pos hx] at h ⊢
      rw [List.filter_cons, if_neg (by simp [hx])]
      exact ih (by simpa using h)
    | false =>
      rw [List.takeWhile_cons, if_neg (by simp [hx]), List.filter_cons, if_pos (by simp [hx])]
      rfl

theorem vis_all (h : T.hide = false) (l : List El) : (l.filter fun x => !T.hid x) = l := by
  refine List.filter_eq_self.2 fun a _ => ?_
  unfold Topo.hid
  rw [h]; rfl

theorem hcOf_face {f : El} (ha : T.alive f = true) (ht : f.ty = 2) : T.hcOf f = some (T.high f) :=
  if_pos ⟨ha, Or.inl (by omega)⟩

theorem backCell_eq {f : El} (ha : T.alive f = true) (ht : f.ty = 2) :
    T.backCell f = some ((T.high f).filter fun x => !T.hid x)[0]? := by
  unfold Topo.backCell
  rw [if_neg (by simp [ht]), hcOf_face ha ht]
  simp only
  cases hh : T.hide with
  | true => rw [if_pos rfl, next_eq, List.drop_zero]
  | false => rw [if_neg (by simp), vis_all hh]

theorem frontCell_eq {f : El} (ha : T.alive f = true) (ht : f.ty = 2) :
    T.frontCell f = some ((T.high f).filter fun x => !T.hid x)[1]? := by
  unfold Topo.frontCell
  rw [if_neg (by simp [ht]), hcOf_face ha ht]
  simp only
  cases hh : T.hide with
  | true =>
    rw [if_pos rfl]
    split
    · next h => rw [next_eq, next_drop _ h, List.getElem?_drop]
    · next h =>
      have h0 : ((T.high f).filter fun x => !T.hid x)[0]? = none := by
        have := next_eq (T := T) (T.high f) 0
        rw [List.drop_zero] at this
        rw [← this, List.getElem?_eq_none_iff]
        omega
      rw [List.getElem?_eq_none_iff] at h0
      rw [List.getElem?_eq_none (by omega)]
  | false => rw [if_neg (by simp), vis_all hh]

theorem neighbour_eq {c f : El} (ha : T.alive f = true) (ht : f.ty = 2)
    (hn : ((T.high f).filter fun x => !T.hid x).Nodup)
    (h2 : ((T.high f).filter fun x => !T.hid x).length ≤ 2)
    (hc : c ∈ T.high f) (hv : T.hid c = false) :
    ∃ r, T.neighbour c f = some r ∧ ∀ y, r = some y ↔ y ≠ c ∧ y ∈ T.high f ∧ T.hid y = false := by
  unfold Topo.neighbour
  rw [backCell_eq ha ht, frontCell_eq ha ht]
  have hm : ∀ y, y ∈ ((T.high f).filter fun x => !T.hid x) ↔ y ∈ T.high f ∧ T.hid y = false := by
    intro y; simp [List.mem_filter]
  have hc' := (hm c).2 ⟨hc, hv⟩
  simp only [← hm]
  generalize ((T.high f).filter fun x => !T.hid x) = l at *
  match l, hn, h2, hc' with
  | [], _, _, h => simp at h
  | [a], _, _, h =>
    rw [List.mem_singleton] at h
    subst h
    refine ⟨none, by simp, fun y => ?_⟩
    simp only [List.mem_singleton]
    constructor
    · intro h; cases h
    · rintro ⟨h1, h2⟩; exact absurd h2 h1
  | [a, b], hn, _, h =>
    have hab : a ≠ b := by simpa using hn
    by_cases hca : c = a
    · subst hca
      refine ⟨some b, by simp, fun y => ?_⟩
      simp only [List.mem_cons, List.not_mem_nil, or_false]
      constructor
      · intro h; injection h with h; subst h; exact ⟨fun e => hab e.symm, Or.inr rfl⟩
      · rintro ⟨h1, h2 | h2⟩
        · exact absurd h2 h1
        · rw [h2]
    · have hcb : c = b := by
        rcases List.mem_cons.1 h with h | h
        · exact absurd h hca
        · simpa using h
      subst hcb
      refine ⟨some a, by simp [hab], fun y => ?_⟩
      simp only [List.mem_cons, List.not_mem_nil, or_false]
      constructor
      · intro h; injection h with h; subst h; exact ⟨hab, Or.inl rfl⟩
      · rintro ⟨h1, h2 | h2⟩
        · rw [h2]
        · exact absurd h2 h1
  | _ :: _ :: _ :: _, _, h2, _ => simp at h2

theorem neighbourLoop_spec {c : El} {P : El → El → Prop} [∀ y, DecidablePred fun f => P f y] :
    ∀ fs : List El, (∀ f ∈ fs, ∃ r, T.neighbour c f = some r ∧ ∀ y, r = some y ↔ P f y) →
    ∃ l, T.neighbourLoop c fs = some l ∧ ∀ y, l.count y = fs.countP fun f => decide (P f y)
  | [], _ => ⟨[], rfl, by simp⟩
  | f :: fs, h => by
    obtain ⟨l, hl, hc⟩ := neighbourLoop_spec (P := P) fs fun g hg => h g (List.mem_cons_of_mem f hg)
    obtain ⟨r, hr, hp⟩ := h f (by simp)
    unfold Topo.neighbourLoop
    rw [hr, hl]
    cases r with
    | none =>
      refine ⟨l, rfl, fun y => ?_⟩
      rw [List.countP_cons_of_neg, hc]
      simp only [decide_eq_true_eq]
      intro h
      cases (hp y).2 h
    | some z =>
      refine ⟨z :: l, rfl, fun y => ?_⟩
      rw [List.count_cons, hc, List.countP_cons]
      congr 1
      by_cases hz : z = y
      · subst hz
        rw [if_pos (by simp), if_pos (by simpa using (hp z).1 rfl)]
      · rw [if_neg (by simpa using hz), if_neg]
        simp only [decide_eq_true_eq]
        intro h
        have := (hp y).2 h
        injection this with this
        exact hz this

/-! ## Boundary -/

theorem faceBoundary_eq {f : El} (ha : T.alive f = true) (ht : f.ty = 2) :
    T.faceBoundary f = some (decide (((T.high f).filter fun x => !T.hid x).length < 2)) := by
  unfold Topo.faceBoundary
  rw [frontCell_eq ha ht]
  generalize ((T.high f).filter fun x => !T.hid x) = l
  match l with
  | [] => rfl
  | [_] => rfl
  | a :: b :: l => simp

theorem anyBoundary_spec {p : El → Bool} : ∀ fs : List El, (∀ f ∈ fs, T.faceBoundary f = some (p f)) →
    T.anyBoundary fs = some (fs.any p)
  | [], _ => rfl
  | f :: fs, h => by
    unfold Topo.anyBoundary
    rw [h f (by simp), List.any_cons]
    cases hp : p f with
    | true => simp
    | false =>
      simp only [Bool.false_or]
      exact anyBoundary_spec fs fun g hg => h g (by simp [hg])

theorem gatherB_spec {p : El → Bool} : ∀ fs : List El, (∀ f ∈ fs, T.boundary f = some (p f)) →
    T.gatherB fs = some (fs.filter p) ∧ T.countB fs = some (fs.filter p).length
  | [], _ => ⟨rfl, rfl⟩
  | f :: fs, h => by
    obtain ⟨h1, h2⟩ := gatherB_spec (p := p) fs fun g hg => h g (by simp [hg])
    unfold Topo.gatherB Topo.countB
    rw [h f (by simp), h1, h2, List.filter_cons]
    cases hp : p f <;> simp

theorem gatherI_spec {p : El → Nat} : ∀ fs : List El,
    (∀ f ∈ fs, T.nbAdj f (fun i => i == 3) [0, 1, 2, 3] = some (p f)) →
    T.gatherI fs = some (fs.filter fun f => p f = 2)
  | [], _ => rfl
  | f :: fs, h => by
    unfold Topo.gatherI
    rw [h f (by simp), gatherI_spec fs fun g hg => h g (by simp [hg]), List.filter_cons]
    by_cases hp : p f = 2 <;> simp [hp]

theorem markB_spec {p : El → Bool} : ∀ (fs : List El) (mrk : El → Bool),
    (∀ f ∈ fs, T.boundary f = some (p f)) →
    T.markB fs mrk = some fun f => if f ∈ fs then p f else mrk f
  | [], mrk, _ => by simp [Topo.markB]
  | f :: fs, mrk, h => by
    unfold Topo.markB
    rw [h f (by simp)]
    simp only
    rw [markB_spec fs _ fun g hg => h g (by simp [hg])]
    congr 1
    funext g
    unfold set1
    by_cases hg : g ∈ fs
    · rw [if_pos hg, if_pos (by simp [hg])]
    · rw [if_neg hg]
      by_cases hf : g = f
      · subst hf; simp
      · rw [if_neg hf, if_neg (by simp [hf, hg])]

theorem mem_faceIds (I : Inv T S) {f : El} : f ∈ T.faceIds ↔ T.alive f = true ∧ f.ty = 2 := by
  unfold Topo.faceIds
  simp only [List.mem_filter, List.mem_map, List.mem_range]
  constructor
  · rintro ⟨⟨i, _, rfl⟩, h⟩; exact ⟨h, rfl⟩
  · rintro ⟨h, ht⟩
    refine ⟨⟨f.id, ?_, ?_⟩, h⟩
    · have := I.lastLt f h; rwa [ht] at this
    · cases f; simp only at ht; rw [ht]

theorem nodup_faceIds : T.faceIds.Nodup := by
  unfold Topo.faceIds
  refine List.Nodup.filter _ (List.Nodup.map ?_ List.nodup_range)
  intro a b h
  injection h

end Verif.Topology
