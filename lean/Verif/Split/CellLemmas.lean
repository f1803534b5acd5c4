import Verif.Split.CellSpec
import Verif.Split.FaceTotal

/-! The state after a call of `SplitCell`. -/

namespace Verif.Split
open Verif.Topology Verif.EdgeLoop

variable {T T' : Topo} {flip : Topo → El → Bool} {K : Type} {W : Incident.Meas El K} {dup : Bool} {c : El}
  {faces ret : List El} {news : List (Nat × List El)} {ls : List (List El)}

theorem splitCell_parts (h : splitCell W flip T dup false c faces news = some (T', ret)) (hne : innerOf T c faces ≠ []) :
    T.alive c = true ∧ (∀ g ∈ faces, T.alive g = true) ∧ ∃ ls T1,
      Incident.loops W T.low (innerOf T c faces) (facesOf T c) = some ls ∧ T.delete flip c = some T1 ∧
      makeCells dup ls news T1 = some (T', ret) := by
  unfold splitCell at h
  split at h
  · cases h
  next h0 =>
  rw [not_or] at h0
  split at h
  · next h1 =>
    rcases h1 with rfl | h1
    · exact absurd rfl hne
    · cases h1
  split at h
  · cases h
  next ls h3 =>
  split at h
  · cases h
  next T1 h4 =>
  refine ⟨by simpa using h0.1, ?_, ls, T1, h3, h4, h⟩
  have := h0.2
  simp only [List.any_eq_true, not_exists, not_and, Bool.not_eq_true'] at this
  exact fun e he => by have := this e he; simpa using this

theorem above_cell (h3 : c.ty = 3) {x : El} : Above T c x ↔ x = c := by
  constructor
  · intro a
    induction a with
    | refl => rfl
    | step _ ht _ ih => rw [ih] at ht; omega
  · rintro rfl; exact .refl

/-- After the removal of the cell. -/
structure Gone (T : Topo) (c : El) (T1 : Topo) : Prop where
  inv : Inv T1 (fun _ => False)
  cn : T1.cn = T.cn
  hide : T1.hide = T.hide
  alive : ∀ x, x ≠ c → T1.alive x = T.alive x
  hid : ∀ x, x ≠ c → T.alive x = true → T1.hid x = T.hid x
  self : T1.alive c = false ∨ (T1.alive c = true ∧ T1.hid c = true)
  low : ∀ x, x ≠ c → x.ty ≠ 0 → T.alive x = true → (T1.low x).Perm (T.low x)
  high : ∀ x, x ≠ c → x.ty = 3 → T.alive x = true → (T1.high x).Perm (T.high x)

theorem gone (I : Inv T (fun _ => False)) (h3 : c.ty = 3) (ha : T.alive c = true) :
    ∃ T1, T.delete flip c = some T1 ∧ Gone T c T1 := by
  unfold Topo.delete
  cases hh : T.hide with
  | false =>
    obtain ⟨T1, e1, R⟩ := delete_spec (flip := flip) 5 T _ c I hh ha (fun _ h => h.elim) (by omega)
    have hal : ∀ x, x ≠ c → T1.alive x = T.alive x := by
      intro x hx
      rw [Bool.eq_iff_iff, R.alive, above_cell h3]
      simp [hx]
    refine ⟨T1, e1, R.inv, R.cn, by rw [R.hide, hh], hal, fun x _ _ => ?_, Or.inl ?_, fun x hx h0 hxa => ?_, fun x hx h0 hxa => ?_⟩
    · unfold Topo.hid; rw [R.hide, hh]; rfl
    · cases h : T1.alive c with
      | false => rfl
      | true => exact absurd (((R.alive c).1 h).2) (by simp [above_cell h3])
    · have := R.low x ((hal x hx).trans hxa)
      rw [List.filter_eq_self.2] at this
      · exact this
      · intro y hy
        have h1 := (I.lowTy x y hy).1 h0
        rw [hal y (by rintro rfl; have := I.tyLe x hxa; omega)]
        exact (I.lowLive hy).1
    · have := R.high x ((hal x hx).trans hxa) (fun h => h)
      rw [List.filter_eq_self.2] at this
      · exact this
      · intro y hy
        have h1 := ((I.highTy (fun h => h) hy).2 h0).2
        rw [hal y (by rintro rfl; omega)]
        exact (I.highLive (fun h => h) hy).2
  | true =>
    obtain ⟨T1, e1, P, hA, hB, hC, -⟩ := deleteHide_spec (flip := flip) 5 T c I hh ha (fun h => h)
      (fun _ h => h.elim) (by omega)
    have I1 := (delete_inv I ha e1).1
    refine ⟨T1, e1, I1, P.cn, by rw [P.hide, hh], fun x _ => by rw [P.alive], fun x hx _ => ?_, Or.inr ⟨by rw [P.alive]; exact ha, ?_⟩,
      fun x _ _ _ => P.low x, fun x _ _ _ => P.high x⟩
    · unfold Topo.hid
      rw [P.hide, Bool.eq_iff_iff, Bool.and_eq_true_iff, Bool.and_eq_true_iff]
      refine and_congr_right fun _ => ⟨fun h => ?_, hB x⟩
      rcases hA x h with h | h
      · exact h
      · exact absurd ((above_cell h3).1 h) hx
    · unfold Topo.hid; rw [P.hide, hh, hC]; rfl

/-- The loops that are used. -/
def bigOf (ls : List (List El)) : List (List El) := ls.filter fun l => decide (3 < l.length)

/-- After the creation of the cells. -/
structure Made (T : Topo) (ks : List (List El)) (news : List (Nat × List El)) (cs : List El) (T' : Topo) : Prop where
  inv : Inv T' (fun _ => False)
  cn : T'.cn = T.cn
  hide : T'.hide = T.hide
  len : cs.length = ks.length
  lenNews : cs.length ≤ news.length
  nodup : cs.Nodup
  keep : ∀ x, T.alive x = true → T'.alive x = true ∧ T'.hidden x = T.hidden x ∧ (x.ty ≠ 0 → T'.low x = T.low x) ∧
    (x.ty = 3 → T'.high x = T.high x)
  back : ∀ x, T'.alive x = true → T.alive x = true ∨ x ∈ cs
  cells : ∀ g ∈ cs, g.ty = 3 ∧ T.alive g = false ∧ T'.alive g = true ∧ T'.hidden g = false
  pair : ∀ l g, (l, g) ∈ ks.zip cs → T'.low g = l
  nodes : ∀ p g, (p, g) ∈ news.zip cs → T'.high g = if T.cn = true then p.2 else []

/-- The creation of one cell. -/
theorem createCell_facts {id : Nat} {l nodes : List El} {g : El} {new : Bool} (I : Inv T (fun _ => False))
    (A : CreateArgs T 3 l nodes) (h4 : l ≠ []) (h : T.create false 3 id l nodes = some (T', some g, new)) :
    g = ⟨3, id⟩ ∧ T.alive g = false ∧ T'.cn = T.cn ∧ T'.hide = T.hide ∧ T'.hidden = T.hidden ∧
    T'.alive = set1 T.alive g true ∧ (∀ x, x.ty ≠ 0 → T'.low x = if x = g then l else T.low x) ∧
    (∀ x, x.ty = 3 → T'.high x = if x = g then (if T.cn = true then nodes else []) else T.high x) := by
  unfold Topo.create at h
  rw [if_neg h4] at h
  simp only [Bool.false_eq_true, if_false] at h
  split at h
  · cases h
  next hd =>
  have hd : T.alive ⟨3, id⟩ = false := by simpa using hd
  split at h
  · cases h
  next T1 e1 =>
  simp only [Option.some.injEq, Prod.mk.injEq] at h
  obtain ⟨rfl, rfl, -⟩ := h
  have hl : (⟨3, id⟩ : El) ∉ l := fun hm => by have := (A.elemsOk _ hm).2; simp at this
  have hn : (⟨3, id⟩ : El) ∉ nodes := fun hm => by have := (A.nodesOk _ hm).2; simp at this
  obtain ⟨k1, k2, k3, k4, -, k5, k6⟩ := createUp_some I hd (by simp) hl hn (by simp) e1
  refine ⟨rfl, hd, k1, k3, k4, k2, fun x hx => ?_, fun x hx => ?_⟩
  · rw [k5]
    split
    · rfl
    split
    · have : nodes.count x = 0 := List.count_eq_zero.2 fun hm => hx (A.nodesOk x hm).2
      rw [this]; simp
    · rfl
  · rw [k6]
    split
    · simp
    · have : l.count x = 0 := List.count_eq_zero.2 fun hm => by have := (A.elemsOk x hm).2; omega
      rw [this]; simp

theorem makeCells_made : ∀ (ls : List (List El)) (news : List (Nat × List El)) (T T' : Topo) (cs : List El),
    Inv T (fun _ => False) → (∀ l ∈ ls, ∀ x ∈ l, T.alive x = true ∧ x.ty = 2) →
    (∀ p ∈ news, ∀ n ∈ p.2, T.alive n = true ∧ n.ty = 0) → makeCells false ls news T = some (T', cs) →
    Made T (bigOf ls) news cs T'
  | [], news, T, T', cs, I, _, _, h => by
    cases h
    exact ⟨I, rfl, rfl, rfl, by simp, .nil, fun x hx => ⟨hx, rfl, fun _ => rfl, fun _ => rfl⟩, fun x hx => Or.inl hx, by simp,
      by simp [bigOf], by simp⟩
  | l :: ls, news, T, T', cs, I, hl, hn, h => by
    unfold makeCells at h
    split at h
    · next hs =>
      have : bigOf (l :: ls) = bigOf ls := List.filter_cons_of_neg (by simpa using hs)
      rw [this]
      exact makeCells_made ls news T T' cs I (fun l' h' => hl l' (by simp [h'])) hn h
    next hs =>
    have hb : bigOf (l :: ls) = l :: bigOf ls := List.filter_cons_of_pos (by simp; omega)
    split at h
    · cases h
    next id nodes news =>
    split at h
    case h_2 => cases h
    next T1 g new e1 =>
    split at h
    · cases h
    next T2 cs' e2 =>
    simp only [Option.some.injEq, Prod.mk.injEq] at h
    obtain ⟨rfl, rfl⟩ := h
    have A : CreateArgs T 3 l nodes := ⟨by simp, fun x hx => by
      have := hl l (by simp) x hx
      exact ⟨this.1, by omega⟩, fun x hx => hn (id, nodes) (by simp) x hx⟩
    obtain ⟨rfl, hd, k1, k2, k3, k4, k5, k6⟩ := createCell_facts I A (by rintro rfl; simp at hs) e1
    have hmono : ∀ x, T.alive x = true → T1.alive x = true := by
      intro x hx
      rw [k4, set1_ne _ _ (by rintro rfl; rw [hd] at hx; cases hx)]; exact hx
    have hself : T1.alive ⟨3, id⟩ = true := by rw [k4]; exact set1_same _ _ _
    have M := makeCells_made ls news T1 _ cs' (create_inv I A e1).1
      (fun l' h' x hx => ⟨hmono x (hl l' (by simp [h']) x hx).1, (hl l' (by simp [h']) x hx).2⟩)
      (fun p hp n hnm => ⟨hmono n (hn p (by simp [hp]) n hnm).1, (hn p (by simp [hp]) n hnm).2⟩) e2
    rw [hb]
    have hnot : (⟨3, id⟩ : El) ∉ cs' := fun hm => by have := (M.cells _ hm).2.1; rw [hself] at this; cases this
    refine ⟨M.inv, M.cn.trans k1, M.hide.trans k2, by simp [M.len], by simpa using M.lenNews, List.nodup_cons.2 ⟨hnot, M.nodup⟩, fun x hx => ?_,
      fun x hx => ?_, fun g hg => ?_, fun l' g hp => ?_, fun p g hp => ?_⟩
    · have hne : x ≠ ⟨3, id⟩ := by rintro rfl; rw [hd] at hx; cases hx
      obtain ⟨q1, q2, q3, q4⟩ := M.keep x (hmono x hx)
      refine ⟨q1, q2.trans (by rw [k3]), fun h0 => ?_, fun h0 => ?_⟩
      · rw [q3 h0, k5 x h0, if_neg hne]
      · rw [q4 h0, k6 x h0, if_neg hne]
    · rcases M.back x hx with h | h
      · by_cases hne : x = ⟨3, id⟩
        · exact Or.inr (by simp [hne])
        · rw [k4, set1_ne _ _ hne] at h
          exact Or.inl h
      · exact Or.inr (by simp [h])
    · rcases List.mem_cons.1 hg with rfl | hg
      · refine ⟨rfl, hd, (M.keep _ hself).1, ?_⟩
        rw [(M.keep _ hself).2.1, k3]
        exact (I.dead _ hd).2.2
      · obtain ⟨q1, q2, q3, q4⟩ := M.cells g hg
        refine ⟨q1, ?_, q3, q4⟩
        cases h : T.alive g with
        | false => rfl
        | true => rw [hmono g h] at q2; cases q2
    · rcases List.mem_cons.1 (by simpa using hp : (l', g) ∈ (l, (⟨3, id⟩ : El)) :: (bigOf ls).zip cs') with h | h
      · cases h
        rw [(M.keep _ hself).2.2.1 (by simp), k5 _ (by simp), if_pos rfl]
      · exact M.pair l' g h
    · rcases List.mem_cons.1 (by simpa using hp : (p, g) ∈ ((id, nodes), (⟨3, id⟩ : El)) :: news.zip cs') with h | h
      · cases h
        rw [(M.keep _ hself).2.2.2 rfl, k6 _ rfl, if_pos rfl]
      · rw [M.nodes p g h, k1]

end Verif.Split
