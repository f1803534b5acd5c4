import Verif.Pmf.Basic
import Verif.Pmf.Rebuild

/-!
# Reading back nodes, edges, faces, cells and sets
-/

namespace Verif.Pmf
open Verif.Topology Verif.Binary

/-- The numbers of new elements. -/
def linksOf (n : Nat → Nat) (s : Nat) : Nat → List Nat :=
  fun ty => if ty < 4 then List.range (n ty) else if ty = 4 then List.range s else []

/-- The variables of LoadPMF after `n ty` elements of each type and `s` sets were read. -/
def state (m : Machine) (M : PMesh) (sz : Nat → Nat) (c : Nat → List Nat) (infos : List TagInfo) (L : List TagRec)
    (n : Nat → Nat) (s : Nat) : Ld where
  start := true
  u := m.conv
  i := m.conv
  sizes := sz
  links := linksOf n s
  tags := infos
  M := ⟨M.dim, upTo M.T n, fun k => if k < n 0 then M.coord k else c k, M.sets.take s, L⟩

theorem rFold_from {σ : Type} (p : σ → Bytes → Option (σ × Bytes)) (f : Nat → σ) (w : Nat → Bytes) (r : Bytes) (N : Nat)
    (h : ∀ a, a < N → ∀ r, p (f a) (w a ++ r) = some (f (a + 1), r)) : ∀ (j a : Nat), a + j = N →
    rFold p j (f a) ((List.range' a j).flatMap w ++ r) = some (f N, r)
  | 0, a, e => by simp [rFold, ← e]
  | j + 1, a, e => by
    simp only [List.range'_succ, List.flatMap_cons, List.append_assoc, rFold]
    rw [h a (by omega)]
    exact rFold_from p f w r N h j (a + 1) (by omega)

theorem rFold_range {σ : Type} (p : σ → Bytes → Option (σ × Bytes)) (f : Nat → σ) (w : Nat → Bytes) (r : Bytes) (N : Nat)
    (h : ∀ a, a < N → ∀ r, p (f a) (w a ++ r) = some (f (a + 1), r)) :
    rFold p N (f 0) ((List.range N).flatMap w ++ r) = some (f N, r) := by
  have := rFold_from p f w r N h N 0 (by omega)
  rwa [← List.range_eq_range'] at this

theorem linksOf_inc (n : Nat → Nat) (s ty : Nat) (h : ty < 4) :
    set1 (linksOf n s) ty (linksOf n s ty ++ [n ty]) = linksOf (inc n ty) s := by
  funext t
  unfold linksOf inc set1
  by_cases ht : t = ty
  · subst ht; simp [h, List.range_succ]
  · simp [ht]

theorem linksOf_set (n : Nat → Nat) (s : Nat) :
    set1 (linksOf n s) 4 (linksOf n s 4 ++ [s]) = linksOf n (s + 1) := by
  funext t
  unfold linksOf set1
  by_cases ht : t = 4
  · subst ht; simp [List.range_succ]
  · simp [ht]

theorem inc_set1 (n : Nat → Nat) (ty a : Nat) : inc (set1 n ty a) ty = set1 n ty (a + 1) := by
  funext t
  simp only [inc, set1]
  split <;> simp

variable {m : Machine} {lw : Nat} {M : PMesh} {sz : Nat → Nat} {c : Nat → List Nat} {infos : List TagInfo}
  {L : List TagRec} {n : Nat → Nat} {s : Nat}

theorem rNode_state (h1 : n 1 = 0) (h3 : n 3 = 0) (hl : (M.coord (n 0)).length = M.dim)
    (hb : ∀ a ∈ M.coord (n 0), a < 256 ^ 8) (r : Bytes) :
    rNode (state m M sz c infos L n s) ((M.coord (n 0)).flatMap (wF m) ++ r) =
      some (state m M sz c infos L (inc n 0) s, r) := by
  have e := rMany_reals (m := m) (M.coord (n 0)) hb r
  rw [hl] at e
  have hc : set1 (fun k => if k < n 0 then M.coord k else c k) (n 0) (M.coord (n 0)) =
      fun k => if k < inc n 0 0 then M.coord k else c k := by
    funext k
    simp only [set1, inc, if_true]
    by_cases hk : k = n 0
    · subst hk; simp
    · rw [if_neg hk]
      by_cases hk' : k < n 0
      · rw [if_pos hk', if_pos (by omega)]
      · rw [if_neg hk', if_neg (by omega)]
  have hT := createNode_upTo (T := M.T) (n := n) h1 h3
  have hlast : (upTo M.T n).last 0 = n 0 := rfl
  unfold rNode
  simp only [state, e, hlast, hT, linksOf_inc n s 0 (by omega), hc]

/-- The elements of a list of one type are their numbers. -/
theorem ids_back (ty : Nat) (l : List El) (h : ∀ x ∈ l, x.ty = ty) :
    (l.map (·.id)).map (fun k => (⟨ty, k⟩ : El)) = l := by
  induction l with
  | nil => rfl
  | cons x l ih =>
    simp only [List.map_cons]
    rw [ih (fun y hy => h y (List.mem_cons_of_mem _ hy))]
    have := h x (List.mem_cons_self ..)
    obtain ⟨t, i⟩ := x
    simp only at this
    subst this
    rfl

/-- What is asked of the boundary of an element. -/
structure LowOk (m : Machine) (lw : Nat) (T : Topo) (n : Nat → Nat) (ty k : Nat) : Prop where
  ne : T.low ⟨ty, k⟩ ≠ []
  low : ∀ x ∈ T.low ⟨ty, k⟩, x.ty + 1 = ty ∧ x.id < n x.ty ∧ Fits m lw x.id
  len : Fits m lw (T.low ⟨ty, k⟩).length

theorem rLinks_back (hm : Machines m lw) (ty N : Nat) (l : List El)
    (h : ∀ x ∈ l, x.ty = ty ∧ x.id < N ∧ Fits m lw x.id) (hlen : Fits m lw l.length) (r : Bytes) :
    rLinks lw m.conv (List.range N) (wList m (l.map (·.id)) ++ r) = some (l.map (·.id), r) := by
  have hl : (l.map (·.id)).length = l.length := List.length_map ..
  have e := rMany_nums hm (l.map (·.id)) (by
    intro a ha
    obtain ⟨x, hx, rfl⟩ := List.mem_map.1 ha
    exact (h x hx).2.2) r
  have e2 := linked_range N (l.map (·.id)) (by
    intro a ha
    obtain ⟨x, hx, rfl⟩ := List.mem_map.1 ha
    exact (h x hx).2.1)
  unfold rLinks
  simp only [wList, List.append_assoc, rI_wI hm (hl ▸ hlen), e, e2]

theorem addElem_state {ty : Nat} (hty : ty = 1 ∨ ty = 2 ∨ ty = 3) (hup : n (ty + 1) = 0) (h3 : ty ≠ 3 → n 3 = 0)
    (H : LowOk m lw M.T n ty (n ty))
    (hh : ty = 3 → M.T.cn = true → ∀ x ∈ M.T.high ⟨3, n 3⟩, x.ty = 0 ∧ x.id < n 0) (ns : List Nat)
    (hn : ty = 3 → M.T.cn = true → ns = (M.T.high ⟨3, n 3⟩).map (·.id)) :
    addElem (state m M sz c infos L n s) ty ((M.T.low ⟨ty, n ty⟩).map (·.id)) ns =
      some (state m M sz c infos L (inc n ty) s) := by
  have e := create_upTo (T := M.T) (n := n) hty hup h3 H.ne (fun x hx => ⟨(H.low x hx).1, (H.low x hx).2.1⟩) hh
    (ns.map fun k => ⟨0, k⟩) (fun a b => by
      rw [hn a b]; exact ids_back 0 _ (fun x hx => (hh a b x hx).1))
  have e2 := ids_back (ty - 1) (M.T.low ⟨ty, n ty⟩) (fun x hx => by have := (H.low x hx).1; omega)
  have hlast : (upTo M.T n).last ty = n ty := rfl
  have h0 : inc n ty 0 = n 0 := set1_ne _ _ (by omega)
  unfold addElem
  simp only [state, hlast, e2, e, linksOf_inc n s ty (by omega), h0]

theorem rElem_state (hm : Machines m lw) {ty : Nat} (hty : ty = 1 ∨ ty = 2) (hup : n (ty + 1) = 0) (h3 : n 3 = 0)
    (H : LowOk m lw M.T n ty (n ty)) (r : Bytes) :
    rElem lw ty (state m M sz c infos L n s) (wLow m M.T ⟨ty, n ty⟩ ++ r) =
      some (state m M sz c infos L (inc n ty) s, r) := by
  have hlk : linksOf n s (ty - 1) = List.range (n (ty - 1)) := by
    unfold linksOf; rw [if_pos (by omega)]
  have e := rLinks_back hm (ty - 1) (n (ty - 1)) (M.T.low ⟨ty, n ty⟩) (fun x hx => by
    have := H.low x hx
    have hx' : x.ty = ty - 1 := by omega
    exact ⟨hx', hx' ▸ this.2.1, this.2.2⟩) H.len r
  have e2 := addElem_state (m := m) (lw := lw) (M := M) (sz := sz) (c := c) (infos := infos) (L := L) (n := n) (s := s)
    (ty := ty) (by omega) hup (fun _ => h3) H (fun h => by omega) [] (fun h => by omega)
  unfold rElem
  have hu : (state m M sz c infos L n s).u = m.conv := rfl
  have hk : (state m M sz c infos L n s).links = linksOf n s := rfl
  simp only [hu, hk, hlk, wLow, e, e2]

theorem rCell_state (hm : Machines m lw) (hup : n 4 = 0) (H : LowOk m lw M.T n 3 (n 3))
    (hh : M.T.cn = true → M.T.high ⟨3, n 3⟩ ≠ [] ∧ Fits m lw (M.T.high ⟨3, n 3⟩).length ∧
      ∀ x ∈ M.T.high ⟨3, n 3⟩, x.ty = 0 ∧ x.id < n 0 ∧ Fits m lw x.id) (r : Bytes) :
    rCell lw (state m M sz c infos L n s) (wCell m M.T ⟨3, n 3⟩ ++ r) =
      some (state m M sz c infos L (inc n 3) s, r) := by
  have hlk : linksOf n s 2 = List.range (n 2) := rfl
  have hlk0 : linksOf n s 0 = List.range (n 0) := rfl
  have e := fun r => rLinks_back hm 2 (n 2) (M.T.low ⟨3, n 3⟩) (fun x hx => by
    have := H.low x hx
    have hx' : x.ty = 2 := by omega
    exact ⟨hx', hx' ▸ this.2.1, this.2.2⟩) H.len r
  have hu : (state m M sz c infos L n s).u = m.conv := rfl
  have hk : (state m M sz c infos L n s).links = linksOf n s := rfl
  have hcn' : (state m M sz c infos L n s).M.T.cn = M.T.cn := rfl
  unfold rCell
  by_cases hcn : M.T.cn = true
  · obtain ⟨h1, h2, h3⟩ := hh hcn
    have e0 := rLinks_back hm 0 (n 0) (M.T.high ⟨3, n 3⟩) h3 h2 r
    have e2 := addElem_state (m := m) (lw := lw) (M := M) (sz := sz) (c := c) (infos := infos) (L := L) (n := n) (s := s)
      (ty := 3) (by omega) hup (fun h => absurd rfl h) H (fun _ _ x hx => ⟨(h3 x hx).1, (h3 x hx).2.1⟩) _ (fun _ _ => rfl)
    have hne : ¬ (M.T.cn = true ∧ (M.T.high ⟨3, n 3⟩).map (·.id) = []) := by
      rintro ⟨-, h⟩
      exact h1 (List.map_eq_nil_iff.1 h)
    simp only [hu, hk, hlk, hlk0, hcn', wCell, wLow, List.append_assoc, e, if_pos hcn, e0, if_neg hne, e2]
  · have e0 : rLinks lw m.conv (List.range (n 0)) (wI m 0 ++ r) = some ([], r) := by
      have := rLinks_back hm 0 (n 0) [] (fun x hx => by cases hx) ⟨by positivity, by positivity⟩ r
      simpa [wList] using this
    have e2 := addElem_state (m := m) (lw := lw) (M := M) (sz := sz) (c := c) (infos := infos) (L := L) (n := n) (s := s)
      (ty := 3) (by omega) hup (fun h => absurd rfl h) H (fun _ h => absurd h hcn) [] (fun _ h => absurd h hcn)
    simp only [hu, hk, hlk, hlk0, hcn', wCell, wLow, List.append_assoc, e, if_neg hcn, e0, and_true, e2]

theorem rSet_state (hm : Machines m lw) (hs : s < M.sets.length) (H : SetOk m lw M.num M.sets[s])
    (hn : ∀ ty, ty < 4 → n ty = M.T.last ty) (hd : (M.sets.map (·.name)).Nodup) (r : Bytes) :
    rSet lw (state m M sz c infos L n s) (wSet m M.sets[s] ++ r) =
      some (state m M sz c infos L n (s + 1), r) := by
  have hu : (state m M sz c infos L n s).u = m.conv := rfl
  have hk : (state m M sz c infos L n s).links = linksOf n s := rfl
  generalize hx : M.sets[s] = x at H
  have e1 := fun r => rMany_handles hm x.low (fun ty k h => by
    have := H.low ty k h; exact ⟨by omega, this.2.2⟩) r
  have e2 : allM (lowLink (linksOf n s)) x.low = some x.low := by
    apply allM_id
    intro a ha
    match a with
    | none => rfl
    | some (ty, k) =>
      have h := H.low ty k ha
      simp only [lowLink]
      by_cases h4 : ty = 4
      · rw [if_pos h4]
      · rw [if_neg h4]
        have ht : ty < 4 := by omega
        have hk : k < n ty := by
          rw [hn ty ht]; have := h.2.1; simpa [PMesh.num, ht] using this
        simp only [linksOf, if_pos ht, List.getElem?_range hk]
  have e3 := fun r => rMany_handles hm x.tree (fun ty k h => by
    have := H.tree ty k h; exact ⟨by omega, this.2.2⟩) r
  have e4 := rMany_nums hm x.extra H.extra r
  have hnl := H.nameLen
  have hf : (M.sets.take s).findIdx? (fun y => decide (y.name = x.name)) = none := by
    rw [List.findIdx?_eq_none_iff]
    intro y hy
    obtain ⟨j, hj, rfl⟩ := List.mem_iff_getElem.1 hy
    rw [List.getElem_take]
    have hj' : j < s := by simp only [List.length_take] at hj; omega
    simp only [decide_eq_false_iff_not]
    intro he
    rw [← hx] at he
    have h1 : j < (M.sets.map fun y : SetRec => y.name).length := by rw [List.length_map]; omega
    have h2 : s < (M.sets.map fun y : SetRec => y.name).length := by rw [List.length_map]; omega
    have := (List.Nodup.getElem_inj_iff hd (hi := h1) (hj := h2)).1 (by simpa using he)
    omega
  have hlen : (M.sets.take s).length = s := by simp; omega
  have hsets : ((M.sets.take s ++ [(⟨x.name, [], [none, none, none], [0]⟩ : SetRec)]).modify s
      fun y => ⟨y.name, x.low, x.tree, x.extra⟩) = M.sets.take (s + 1) := by
    rw [List.take_succ_eq_append_getElem hs, hx]
    rw [List.modify_eq_set_getElem?]
    rw [List.getElem?_append_right (by omega), hlen]
    simp only [Nat.sub_self, List.getElem?_cons_zero, Option.map_some, Option.elim_some, List.set_append, hlen, lt_irrefl,
      if_false, List.set_cons_zero]
    rfl
  have hlinks := linksOf_set n s
  have h3 : x.tree.length + x.extra.length = 3 + x.extra.length := by rw [H.treeLen]
  have hnh : ¬ (3 + x.extra.length < 3) := by omega
  have hsub : 3 + x.extra.length - 3 = x.extra.length := by omega
  unfold rSet
  simp only [hu, hk, wSet, wName, List.append_assoc, rI_wI hm H.nameLen.2, rN_append x.name _ _ rfl,
    if_neg (Nat.not_le.2 H.nameLen.1), rI_wI hm H.lowLen, e1, e2]
  simp only [h3, rI_wI hm H.extraLen]
  simp only [if_neg hnh, hsub]
  rw [show (3 : Nat) = x.tree.length from H.treeLen.symm, e3]
  simp only [e4, takeWhile_nz _ H.name, createSet, state, hf, hlen, hsets, hlinks]

theorem convSets_id (N : Nat) (sets : List SetRec) (h : ∀ x ∈ sets, convSet (List.range N) x = some x) :
    ∀ ks : List Nat, (∀ k ∈ ks, k < sets.length) → convSets (List.range N) ks sets = some sets
  | [], _ => rfl
  | k :: ks, hk => by
    have h1 := hk k (List.mem_cons_self ..)
    simp only [convSets, List.getElem?_eq_getElem h1, h _ (List.getElem_mem h1), List.set_getElem_self]
    exact convSets_id N sets h ks (fun j hj => hk j (List.mem_cons_of_mem _ hj))

theorem convSet_ok {num : Nat → Nat} {x : SetRec} (H : SetOk m lw num x) : convSet (List.range (num 4)) x = some x := by
  have e1 : allM (convLow (List.range (num 4))) x.low = some x.low := by
    apply allM_id
    intro a ha
    match a with
    | none => rfl
    | some (ty, k) =>
      have h := H.low ty k ha
      simp only [convLow]
      by_cases h4 : ty = 4
      · subst h4
        simp only [if_true, convTree, List.getElem?_range h.2.1]
      · rw [if_neg h4]
  have e2 : allM (convTree (List.range (num 4))) x.tree = some x.tree := by
    apply allM_id
    intro a ha
    match a with
    | none => rfl
    | some (ty, k) =>
      obtain ⟨rfl, h2, -⟩ := H.tree ty k ha
      simp only [convTree, List.getElem?_range h2]
  simp only [convSet, e1, e2]

end Verif.Pmf
