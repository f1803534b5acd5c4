import Verif.Topology.Hide

/-!
# All operations preserve the invariant
-/

namespace Verif.Topology

variable {T T' : Topo} {S : El → Prop} {flip : Topo → El → Bool}

/-! ## Reorderings -/

theorem modLow_some {x : El} {g : List El → List El} (e : T.modLow x g = some T') :
    T.alive x = true ∧ T' = { T with low := set1 T.low x (g (T.low x)) } := by
  unfold Topo.modLow at e
  cases h : T.lcOf x with
  | none => rw [h] at e; cases e
  | some l =>
    rw [h] at e
    have hl := lcOf_some h
    subst hl
    refine ⟨?_, by simpa using e.symm⟩
    unfold Topo.lcOf at h
    split at h
    · next hc => exact hc.1
    · cases h

theorem modHigh_some {x : El} {g : List El → List El} (e : T.modHigh x g = some T') :
    T.alive x = true ∧ (x.ty < 3 ∨ T.cn = true) ∧
      T' = { T with high := set1 T.high x (g (T.high x)) } := by
  unfold Topo.modHigh at e
  cases h : T.hcOf x with
  | none => rw [h] at e; cases e
  | some l =>
    rw [h] at e
    have hl := hcOf_some h
    subst hl
    unfold Topo.hcOf at h
    split at h
    · next hc => exact ⟨hc.1, hc.2, by simpa using e.symm⟩
    · cases h

theorem permLow_perm {x : El} {l : List El} (hl : l.Perm (T.low x))
    (e : T.modLow x (fun _ => l) = some T') : PermEq T T' := by
  obtain ⟨-, rfl⟩ := modLow_some e
  refine ⟨rfl, rfl, rfl, rfl, rfl, fun y => ?_, fun _ => .refl _⟩
  by_cases hy : y = x
  · subst hy; simpa only [set1_same] using hl
  · simp only [set1_ne _ _ hy]; exact .refl _

theorem revLow_perm {x : El} (e : T.modLow x List.reverse = some T') : PermEq T T' := by
  obtain ⟨-, rfl⟩ := modLow_some e
  refine ⟨rfl, rfl, rfl, rfl, rfl, fun y => ?_, fun _ => .refl _⟩
  by_cases hy : y = x
  · subst hy; simpa only [set1_same] using List.reverse_perm _
  · simp only [set1_ne _ _ hy]; exact .refl _

theorem swapTwo_perm {f : El} {l : List El} (hl : T.hcOf f = some l) (e : T.swapTwo f l = some T') :
    PermEq T T' := by
  unfold Topo.swapTwo at e
  simp only at e
  cases hs : swapAt l (T.getNext l 0) (T.getNext l (T.getNext l 0 + 1)) with
  | none => rw [hs] at e; cases e
  | some l' =>
    rw [hs] at e
    obtain ⟨-, -, rfl⟩ := modHigh_some e
    have hp : l'.Perm (T.high f) := by
      rw [hcOf_some hl]
      unfold swapAt at hs
      split at hs
      · next a b ha hb =>
        obtain ⟨h1, rfl⟩ := List.getElem?_eq_some_iff.1 ha
        obtain ⟨h2, rfl⟩ := List.getElem?_eq_some_iff.1 hb
        cases hs
        exact List.set_set_perm h1 h2
      · cases hs
    refine ⟨rfl, rfl, rfl, rfl, rfl, fun _ => .refl _, fun y => ?_⟩
    by_cases hy : y = f
    · subst hy; simpa only [set1_same] using hp
    · simp only [set1_ne _ _ hy]; exact .refl _

theorem fixNoSwap_perm {f : El} (e : T.fixNoSwap flip f = some T') : PermEq T T' := by
  unfold Topo.fixNoSwap at e
  split at e
  · exact revLow_perm e
  · cases e; exact .refl _

theorem fixNormal_perm {f : El} (e : T.fixNormal flip f = some T') : PermEq T T' := by
  unfold Topo.fixNormal at e
  cases h : T.hcOf f with
  | none => rw [h] at e; cases e
  | some l =>
    rw [h] at e
    simp only at e
    split at e
    · split at e
      · split at e
        · exact swapTwo_perm h e
        · cases e; exact .refl _
      · exact revLow_perm e
    · cases e; exact .refl _

theorem swapBackFace_perm {c f : El} (e : T.swapBackFace flip c f = some T') : PermEq T T' := by
  unfold Topo.swapBackFace at e
  split at e
  · cases e; exact .refl _
  · cases h : T.hcOf f with
    | none => rw [h] at e; cases e
    | some l =>
      rw [h] at e
      simp only at e
      split at e
      · cases h1 : T.swapTwo f l with
        | none => rw [h1] at e; cases e
        | some T1 => rw [h1] at e; exact (swapTwo_perm h h1).trans (fixNoSwap_perm e)
      · cases e; exact .refl _

/-! ## Creation -/

theorem appHigh_spec (he : El) : ∀ (l : List El) (T T' : Topo),
    forEach (fun T x => T.modHigh x (· ++ [he])) l T = some T' →
    (∀ x ∈ l, T.alive x = true) ∧
    T' = { T with high := fun x => T.high x ++ List.replicate (l.count x) he }
  | [], T, T', e => by
    simp only [forEach, Option.some.injEq] at e
    subst e
    simp
  | x :: xs, T, T', e => by
    unfold forEach at e
    cases h1 : T.modHigh x (· ++ [he]) with
    | none => rw [h1] at e; cases e
    | some T1 =>
      rw [h1] at e
      obtain ⟨ha, hb, rfl⟩ := modHigh_some h1
      obtain ⟨h2, rfl⟩ := appHigh_spec he xs _ T' e
      refine ⟨fun y hy => ?_, ?_⟩
      · rcases List.mem_cons.1 hy with rfl | hy
        · exact ha
        · exact h2 y hy
      · congr 1
        funext y
        by_cases hy : y = x
        · subst hy
          simp only [set1_same, List.count_cons_self, List.append_assoc, List.replicate_succ]
          rfl
        · simp only [set1_ne _ _ hy]
          rw [List.count_cons_of_ne (fun h => hy h.symm)]

theorem appLow_spec (he : El) : ∀ (l : List El) (T T' : Topo),
    forEach (fun T x => T.modLow x (· ++ [he])) l T = some T' →
    (∀ x ∈ l, T.alive x = true) ∧
    T' = { T with low := fun x => T.low x ++ List.replicate (l.count x) he }
  | [], T, T', e => by
    simp only [forEach, Option.some.injEq] at e
    subst e
    simp
  | x :: xs, T, T', e => by
    unfold forEach at e
    cases h1 : T.modLow x (· ++ [he]) with
    | none => rw [h1] at e; cases e
    | some T1 =>
      rw [h1] at e
      obtain ⟨ha, rfl⟩ := modLow_some h1
      obtain ⟨h2, rfl⟩ := appLow_spec he xs _ T' e
      refine ⟨fun y hy => ?_, ?_⟩
      · rcases List.mem_cons.1 hy with rfl | hy
        · exact ha
        · exact h2 y hy
      · congr 1
        funext y
        by_cases hy : y = x
        · subst hy
          simp only [set1_same, List.count_cons_self, List.append_assoc, List.replicate_succ]
          rfl
        · simp only [set1_ne _ _ hy]
          rw [List.count_cons_of_ne (fun h => hy h.symm)]

theorem tie_inv {x : El} (I : Inv T (fun _ => False)) (hd : T.alive x = false) (ht : x.ty ≤ 3) :
    Inv (T.tie x) (fun _ => False) ∧ (T.tie x).low = T.low ∧ (T.tie x).high = T.high ∧
      (T.tie x).hidden = T.hidden := by
  obtain ⟨d1, d2, d3⟩ := I.dead x hd
  have e1 : set1 T.low x [] = T.low := by
    funext y; by_cases hy : y = x
    · subst hy; rw [set1_same, d1]
    · rw [set1_ne _ _ hy]
  have e2 : set1 T.high x [] = T.high := by
    funext y; by_cases hy : y = x
    · subst hy; rw [set1_same, d2]
    · rw [set1_ne _ _ hy]
  have e3 : set1 T.hidden x false = T.hidden := by
    funext y; by_cases hy : y = x
    · subst hy; rw [set1_same, d3]
    · rw [set1_ne _ _ hy]
  refine ⟨⟨?_, ?_, ?_, ?_, ?_, fun _ _ h => h.elim⟩, e1, e2, e3⟩
  · intro y hy
    by_cases e : y = x
    · subst e; exact ht
    · exact I.tyLe y (by simpa [Topo.tie, set1, e] using hy)
  · intro y hy
    have e : y ≠ x := by rintro rfl; simp [Topo.tie, set1] at hy
    have := I.dead y (by simpa [Topo.tie, set1, e] using hy)
    simpa [Topo.tie, set1, e] using this
  · intro y hy
    show y.id < set1 T.last x.ty _ y.ty
    by_cases e : y = x
    · subst e; simp only [set1_same]; omega
    · have := I.lastLt y (by simpa [Topo.tie, set1, e] using hy)
      by_cases e' : y.ty = x.ty
      · rw [e', set1_same]; rw [e'] at this; omega
      · rw [set1_ne _ _ e']; exact this
  · intro a b hb
    refine I.lowTy a b ?_
    simpa [Topo.tie, e1] using hb
  · intro a b _
    simpa [Topo.tie, e1, e2] using I.mirror a b (fun h => h)

/-- The state after a creation. -/
theorem createUp_some {he : El} {elems nodes : List El} (I : Inv T (fun _ => False))
    (hd : T.alive he = false) (hty : he.ty ≤ 3) (hel : he ∉ elems) (hnd : he ∉ nodes)
    (h0 : he.ty ≠ 0)
    (e : T.createUp he elems nodes = some T') :
    T'.cn = T.cn ∧ T'.alive = set1 T.alive he true ∧ T'.hide = T.hide ∧ T'.hidden = T.hidden ∧
    T'.last = (T.tie he).last ∧
    (∀ x, T'.low x = if x = he then elems else if he.ty = 3 ∧ T.cn = true then
      T.low x ++ List.replicate (nodes.count x) he else T.low x) ∧
    (∀ x, T'.high x = if x = he then (if he.ty = 3 ∧ T.cn = true then nodes else []) else
      T.high x ++ List.replicate (elems.count x) he) := by
  obtain ⟨It, el, eh, ehid⟩ := tie_inv I hd hty
  obtain ⟨d1, d2, d3⟩ := I.dead he hd
  unfold Topo.createUp at e
  cases h1 : forEach (fun T x => T.modHigh x (· ++ [he])) elems (T.tie he) with
  | none => rw [h1] at e; cases e
  | some T1 =>
    rw [h1] at e
    obtain ⟨ha1, rfl⟩ := appHigh_spec he elems _ T1 h1
    simp only at e
    split at e
    · cases e
    · next T2 h2 =>
      obtain ⟨ha2, rfl⟩ := modLow_some h2
      by_cases hc : he.ty = 3 ∧ T.cn = true
      · rw [if_pos hc] at e
        split at e
        · cases e
        · next T3 h3 =>
          obtain ⟨ha3, rfl⟩ := appLow_spec he nodes _ T3 h3
          obtain ⟨-, -, rfl⟩ := modHigh_some e
          refine ⟨rfl, rfl, rfl, ehid, rfl, fun x => ?_, fun x => ?_⟩
          · by_cases hx : x = he
            · subst hx
              simp only [set1_same, el, d1, List.nil_append, if_true]
              rw [List.count_eq_zero.2 hnd]; simp
            · simp only [set1_ne _ _ hx, el, if_neg hx, if_pos hc]
          · by_cases hx : x = he
            · subst hx
              simp only [set1_same, eh, d2, List.nil_append, if_true, if_pos hc]
              rw [List.count_eq_zero.2 hel]; simp
            · simp only [set1_ne _ _ hx, eh, if_neg hx]
      · rw [if_neg hc] at e
        cases e
        refine ⟨rfl, rfl, rfl, ehid, rfl, fun x => ?_, fun x => ?_⟩
        · by_cases hx : x = he
          · subst hx; simp only [set1_same, el, d1, List.nil_append, if_true]
          · simp only [set1_ne _ _ hx, el, if_neg hx, if_neg hc]
        · by_cases hx : x = he
          · subst hx
            simp only [eh, d2, List.nil_append, if_true, if_neg hc]
            rw [List.count_eq_zero.2 hel]; simp
          · simp only [eh, if_neg hx]

theorem createUp_inv {he : El} {elems nodes : List El} (I : Inv T (fun _ => False))
    (hd : T.alive he = false) (A : CreateArgs T he.ty elems nodes)
    (e : T.createUp he elems nodes = some T') : Inv T' (fun _ => False) := by
  have h0 : he.ty ≠ 0 := by rcases A.tyOk with h | h | h <;> omega
  have h3 : he.ty ≤ 3 := by rcases A.tyOk with h | h | h <;> omega
  have hel : he ∉ elems := fun h => by have := (A.elemsOk he h).2; omega
  have hnd : he ∉ nodes := fun h => by have := (A.nodesOk he h).2; omega
  obtain ⟨It, -, -, -⟩ := tie_inv I hd h3
  obtain ⟨c1, c2, c3, c4, c5, c6, c7⟩ := createUp_some I hd h3 hel hnd h0 e
  obtain ⟨d1, d2, d3⟩ := I.dead he hd
  have hmem : ∀ b x, x ∈ T.low b → x ≠ he ∧ b ≠ he := by
    intro b x hx
    constructor
    · rintro rfl; rw [(I.lowLive hx).1] at hd; cases hd
    · rintro rfl; rw [d1] at hx; cases hx
  refine ⟨?_, ?_, ?_, ?_, ?_, fun _ _ h => h.elim⟩
  · intro x hx; rw [c2] at hx; exact It.tyLe x hx
  · intro x hx
    rw [c2] at hx
    have hxe : x ≠ he := by rintro rfl; rw [set1_same] at hx; cases hx
    rw [set1_ne _ _ hxe] at hx
    obtain ⟨f1, f2, f3⟩ := I.dead x hx
    have ce : elems.count x = 0 := List.count_eq_zero.2 fun h => by
      rw [(A.elemsOk x h).1] at hx; cases hx
    have cnd : nodes.count x = 0 := List.count_eq_zero.2 fun h => by
      rw [(A.nodesOk x h).1] at hx; cases hx
    refine ⟨?_, ?_, by rw [c4]; exact f3⟩
    · rw [c6, if_neg hxe, f1, cnd]; simp
    · rw [c7, if_neg hxe, f2, ce]; simp
  · intro x hx; rw [c5]; rw [c2] at hx; exact It.lastLt x hx
  · intro x y hy
    rw [c6] at hy
    rw [c1]
    by_cases hx : x = he
    · rw [if_pos hx] at hy
      subst hx
      exact ⟨fun _ => (A.elemsOk y hy).2, fun h => absurd h h0⟩
    · rw [if_neg hx] at hy
      split at hy
      · next hc =>
        rcases List.mem_append.1 hy with hy | hy
        · exact I.lowTy x y hy
        · have hye : y = he := List.eq_of_mem_replicate hy
          subst hye
          have hxn : x ∈ nodes := by
            rw [← List.count_pos_iff]
            rcases Nat.eq_zero_or_pos (nodes.count x) with h | h
            · rw [h] at hy; simp at hy
            · exact h
          have hx0 := (A.nodesOk x hxn).2
          exact ⟨fun h => absurd hx0 h, fun _ => ⟨hc.2, hc.1⟩⟩
      · exact I.lowTy x y hy
  · intro a b _
    rw [c6, c7]
    have hm := I.mirror a b (fun h => h)
    by_cases ha : a = he
    · subst ha
      rw [if_pos rfl]
      have hz : (T.low b).count a = 0 := List.count_eq_zero.2 fun h => (hmem b a h).1 rfl
      by_cases hb : b = a
      · subst hb
        rw [if_pos rfl]
        rw [List.count_eq_zero.2 hel]
        split
        · rw [List.count_eq_zero.2 hnd]
        · rfl
      · rw [if_neg hb]
        split
        · rw [List.count_append, hz, List.count_replicate_self, Nat.zero_add]
        · rw [hz]; rfl
    · rw [if_neg ha]
      by_cases hb : b = he
      · subst hb
        rw [if_pos rfl, List.count_append, List.count_replicate_self]
        have : (T.high a).count b = 0 := by rw [← hm, d1]; rfl
        omega
      · rw [if_neg hb, List.count_append, List.count_replicate]
        have : (he == b) = false := by simpa using fun h => hb h.symm
        simp only [this]
        split
        · rw [List.count_append, List.count_replicate]
          have : (he == a) = false := by simpa using fun h => ha h.symm
          simp only [this]
          simpa using hm
        · simpa using hm

theorem create_inv {dup : Bool} {ty id : Nat} {elems nodes : List El} {r : Option El × Bool}
    (I : Inv T (fun _ => False)) (A : CreateArgs T ty elems nodes)
    (e : T.create dup ty id elems nodes = some (T', r)) :
    Inv T' (fun _ => False) ∧ T'.cn = T.cn := by
  unfold Topo.create at e
  split at e
  · cases e; exact ⟨I, rfl⟩
  · split at e
    · cases e
    · cases e; exact ⟨I, rfl⟩
    · split at e
      · cases e
      · next hd =>
        split at e
        · cases e
        · next T1 h1 =>
          cases e
          have hd' : T.alive ⟨ty, id⟩ = false := by simpa using hd
          have h0 : ty ≠ 0 := by rcases A.tyOk with h | h | h <;> omega
          have h3 : ty ≤ 3 := by rcases A.tyOk with h | h | h <;> omega
          refine ⟨createUp_inv I hd' A h1, (createUp_some I hd' h3 ?_ ?_ h0 h1).1⟩
          · exact fun h => by have := (A.elemsOk _ h).2; simp at this
          · exact fun h => h0 (A.nodesOk _ h).2

theorem createNode_inv {id : Nat} (I : Inv T (fun _ => False)) (e : T.createNode id = some T') :
    Inv T' (fun _ => False) ∧ T'.cn = T.cn := by
  unfold Topo.createNode at e
  split at e
  · cases e
  · next h =>
    cases e
    exact ⟨(tie_inv I (by simpa using h) (by simp)).1, rfl⟩

/-! ## Deletion -/

theorem hidden_alive (I : Inv T S) {x : El} (h : T.hidden x = true) : T.alive x = true := by
  cases h2 : T.alive x with
  | true => rfl
  | false => rw [(I.dead _ h2).2.2] at h; cases h

theorem delete_inv {h : El} (I : Inv T (fun _ => False)) (ha : T.alive h = true)
    (e : T.delete flip h = some T') : Inv T' (fun _ => False) ∧ T'.cn = T.cn := by
  unfold Topo.delete at e
  cases hh : T.hide with
  | false =>
    obtain ⟨T1, e1, R⟩ := delete_spec (flip := flip) 5 T _ h I hh ha (fun _ h => h.elim) (by omega)
    rw [e1] at e
    cases e
    exact ⟨R.inv, R.cn⟩
  | true =>
    obtain ⟨T1, e1, P, hA, -⟩ := deleteHide_spec (flip := flip) 5 T h I hh ha (fun h => h)
      (fun _ h => h.elim) (by omega)
    rw [e1] at e
    cases e
    refine ⟨I.permH P fun x hx => ?_, P.cn⟩
    cases h2 : T'.hidden x with
    | false => rfl
    | true =>
      rcases hA x h2 with h3 | h3
      · rw [(I.dead x hx).2.2] at h3; cases h3
      · have := above_alive I (fun _ h => h.elim) ha h3
        rw [hx] at this; cases this

theorem destroy_removed {h : El} (I : Inv T (fun _ => False)) (ha : T.alive h = true)
    (hh : T.hide = false) : ∃ T', T.destroy flip h = some T' ∧
      Removed T (fun _ => False) (Above T h) T' := by
  obtain ⟨T1, e1, R⟩ := delete_spec (flip := flip) 5 T _ h I hh ha (fun _ h => h.elim) (by omega)
  refine ⟨T1, ?_, R⟩
  unfold deleteF at e1
  rw [if_neg (by rw [hh]; simp)] at e1
  unfold Topo.destroy
  rw [if_neg (by rw [hh]; simp)]
  exact e1

theorem destroy_inv {h : El} (I : Inv T (fun _ => False)) (e : T.destroy flip h = some T') :
    Inv T' (fun _ => False) ∧ T'.cn = T.cn := by
  have hh : T.hide = false := by
    unfold Topo.destroy at e
    split at e
    · cases e
    · next h => simpa using h
  have ha : T.alive h = true := by
    unfold Topo.destroy destroyWith at e
    rw [if_neg (by rw [hh]; simp)] at e
    split at e
    · assumption
    · cases e
  obtain ⟨T1, e1, R⟩ := destroy_removed (flip := flip) I ha hh
  rw [e1] at e
  cases e
  exact ⟨R.inv, R.cn⟩

theorem hideOp_inv {h : El} (I : Inv T (fun _ => False)) (e : T.hideOp flip h = some T') :
    Inv T' (fun _ => False) ∧ T'.cn = T.cn := by
  unfold Topo.hideOp at e
  split at e
  · by_cases ha : T.alive h = true
    · obtain ⟨T1, e1, P, hA, -⟩ := hideEl_spec (flip := flip) I ha
      rw [e1] at e
      cases e
      refine ⟨I.permH P fun x hx => ?_, P.cn⟩
      cases h2 : T'.hidden x with
      | false => rfl
      | true =>
        rcases (hA x).1 h2 with h3 | rfl
        · rw [(I.dead x hx).2.2] at h3; cases h3
        · rw [ha] at hx; cases hx
    · unfold Topo.hideEl at e
      rw [if_neg ha] at e
      cases e
  · cases e; exact ⟨I, rfl⟩

theorem showOp_inv {h : El} (I : Inv T (fun _ => False)) (e : T.showOp h = some T') :
    Inv T' (fun _ => False) ∧ T'.cn = T.cn := by
  unfold Topo.showOp at e
  split at e
  · split at e
    · cases e
      refine ⟨I.permH ⟨rfl, rfl, rfl, rfl, fun _ => .refl _, fun _ => .refl _⟩ fun x hx => ?_, rfl⟩
      by_cases hxh : x = h
      · subst hxh; simp [set1]
      · simp [set1, hxh, (I.dead x hx).2.2]
    · cases e; exact ⟨I, rfl⟩
  · cases e

theorem beginMod_inv (I : Inv T (fun _ => False)) (e : T.beginMod = some T') :
    Inv T' (fun _ => False) ∧ T'.cn = T.cn := by
  unfold Topo.beginMod at e
  split at e
  · cases e
  · cases e
    exact ⟨⟨I.tyLe, fun x hx => ⟨(I.dead x hx).1, (I.dead x hx).2.1, rfl⟩, I.lastLt, I.lowTy, I.mirror,
      I.cut⟩, rfl⟩

theorem endMod_inv (I : Inv T (fun _ => False)) (e : T.endMod flip = some T') :
    Inv T' (fun _ => False) ∧ T'.cn = T.cn := by
  have hh : T.hide = true := by
    unfold Topo.endMod at e
    split at e
    · assumption
    · cases e
  obtain ⟨T1, T2, e1, rfl, R⟩ := endMod_spec (flip := flip) I hh
  rw [e1] at e
  cases e
  exact ⟨⟨R.inv.tyLe, R.inv.dead, R.inv.lastLt, R.inv.lowTy, R.inv.mirror, R.inv.cut⟩, R.cn⟩

/-! ## Connect and Disconnect -/

theorem count_erase_z (l : List El) (h z : El) :
    (l.erase h).count z = l.count z - if z = h then 1 else 0 := by
  rw [List.count_erase]
  by_cases e : z = h
  · subst e; simp
  · have : (h == z) = false := by simpa using fun h' => e h'.symm
    simp [e, this]

/-- Erasing `h` from the lower lists of the elements of `l`. -/
theorem eraseLow_spec (h : El) : ∀ (l : List El) (T T' : Topo),
    forEach (fun T x => T.modLow x (·.erase h)) l T = some T' →
    T'.cn = T.cn ∧ T'.alive = T.alive ∧ T'.last = T.last ∧ T'.hide = T.hide ∧ T'.hidden = T.hidden ∧
    T'.high = T.high ∧
    ∀ x z, (T'.low x).count z = (T.low x).count z - if z = h then l.count x else 0
  | [], T, T', e => by
    simp only [forEach, Option.some.injEq] at e
    subst e
    simp
  | x :: xs, T, T', e => by
    unfold forEach at e
    cases h1 : T.modLow x (·.erase h) with
    | none => rw [h1] at e; cases e
    | some T1 =>
      rw [h1] at e
      obtain ⟨-, rfl⟩ := modLow_some h1
      obtain ⟨g1, g2, g3, g4, g5, g6, g7⟩ := eraseLow_spec h xs _ T' e
      refine ⟨g1, g2, g3, g4, g5, g6, fun y z => ?_⟩
      rw [g7]
      by_cases hy : y = x
      · subst hy
        simp only [set1_same, count_erase_z, List.count_cons_self]
        split <;> omega
      · simp only [set1_ne _ _ hy]
        rw [List.count_cons_of_ne (fun h => hy h.symm)]

theorem disOne_spec (h : El) : ∀ (l : List El) (T T' : Topo),
    forEach (disOne flip h) l T = some T' →
    T'.cn = T.cn ∧ T'.alive = T.alive ∧ T'.last = T.last ∧ T'.hide = T.hide ∧ T'.hidden = T.hidden ∧
    (∀ x, (T'.low x).Perm (T.low x)) ∧
    ∀ x z, (T'.high x).count z = (T.high x).count z - if z = h then l.count x else 0
  | [], T, T', e => by
    simp only [forEach, Option.some.injEq] at e
    subst e
    simp
  | x :: xs, T, T', e => by
    unfold forEach at e
    cases h1 : disOne flip h T x with
    | none => rw [h1] at e; cases e
    | some T1 =>
      rw [h1] at e
      have key : ∃ T0, PermEq T T0 ∧ T0.modHigh x (·.erase h) = some T1 := by
        unfold disOne at h1
        split at h1
        · cases h1
        · next T0 h0 =>
          refine ⟨T0, ?_, h1⟩
          split at h0
          · exact swapBackFace_perm h0
          · cases h0; exact .refl _
      obtain ⟨T0, P, h2⟩ := key
      obtain ⟨-, -, rfl⟩ := modHigh_some h2
      obtain ⟨g1, g2, g3, g4, g5, g6, g7⟩ := disOne_spec h xs _ T' e
      refine ⟨g1.trans P.cn, g2.trans P.alive, g3.trans P.last, g4.trans P.hide, g5.trans P.hidden,
        fun y => (g6 y).trans (P.low y), fun y z => ?_⟩
      rw [g7]
      by_cases hy : y = x
      · subst hy
        simp only [set1_same, count_erase_z, List.count_cons_self, (P.high y).count_eq]
        split <;> omega
      · simp only [set1_ne _ _ hy, (P.high y).count_eq]
        rw [List.count_cons_of_ne (fun h => hy h.symm)]

/-- A state with the same elements and fewer, still mirrored, connections. -/
theorem Inv.less (I : Inv T (fun _ => False)) (h1 : T'.cn = T.cn) (h2 : T'.alive = T.alive)
    (h3 : T'.last = T.last) (h4 : T'.hidden = T.hidden)
    (hl : ∀ x z, (T'.low x).count z ≤ (T.low x).count z)
    (hm : ∀ a b, (T'.low b).count a = (T'.high a).count b) : Inv T' (fun _ => False) := by
  have mem : ∀ x z, z ∈ T'.low x → z ∈ T.low x := fun x z hz => by
    rw [← List.count_pos_iff] at hz ⊢
    have := hl x z
    omega
  refine ⟨fun x hx => I.tyLe x (by rwa [← h2]), fun x hx => ?_, fun x hx => ?_, fun x y hy => ?_,
    fun a b _ => hm a b, fun _ _ h => h.elim⟩
  · rw [h2] at hx
    obtain ⟨d1, d2, d3⟩ := I.dead x hx
    refine ⟨?_, ?_, by rw [h4]; exact d3⟩
    · apply List.eq_nil_iff_forall_not_mem.2
      intro z hz
      have := mem x z hz
      rw [d1] at this; cases this
    · apply List.eq_nil_iff_forall_not_mem.2
      intro z hz
      rw [← List.count_pos_iff, ← hm, List.count_pos_iff] at hz
      have := (I.lowLive (mem z x hz)).1
      rw [hx] at this; cases this
  · rw [h3]; rw [h2] at hx; exact I.lastLt x hx
  · rw [h1]; exact I.lowTy x y (mem x y hy)

theorem cellNodes_inv {c : El} (I : Inv T (fun _ => False)) (e : T.cellNodes c = some T') :
    Inv T' (fun _ => False) ∧ T'.cn = T.cn := by
  unfold Topo.cellNodes at e
  split at e
  · cases e
  · split at e
    · cases e
    · next hc hcOf =>
      split at e
      · cases e
      · next T1 h1 =>
        have hh := hcOf_some hcOf
        obtain ⟨g1, g2, g3, g4, g5, g6, g7⟩ := eraseLow_spec c hc T T1 h1
        obtain ⟨-, -, rfl⟩ := modHigh_some e
        refine ⟨I.less g1 g2 g3 g5 (fun x z => ?_) (fun a b => ?_), g1⟩
        · show (T1.low x).count z ≤ _
          rw [g7]; omega
        · show (T1.low b).count a = (set1 T1.high c [] a).count b
          rw [g7, g6]
          have hm := I.mirror a b (fun h => h)
          by_cases ha : a = c
          · subst ha
            rw [set1_same, if_pos rfl, hm, hh]; simp
          · rw [set1_ne _ _ ha, if_neg ha, hm]; omega

theorem cellPhase_inv {mods : List El} (I : Inv T (fun _ => False)) (e : T.cellPhase mods = some T') :
    Inv T' (fun _ => False) ∧ T'.cn = T.cn := by
  unfold Topo.cellPhase at e
  split at e
  · refine forEach_ind (fun U => Inv U (fun _ => False) ∧ U.cn = T.cn) ?_ _ T T' ⟨I, rfl⟩ e
    rintro U c V ⟨IU, hU⟩ eV
    obtain ⟨IV, hV⟩ := cellNodes_inv IU eV
    exact ⟨IV, hV.trans hU⟩
  · cases e; exact ⟨I, rfl⟩

theorem connectLoop_spec (h : El) : ∀ (l : List El) (T T' : Topo),
    forEach (fun T x => if x.ty ≠ 3 ∧ x.ty + 1 = h.ty ∧ ¬ (x.ty = 2 ∧ (T.high x).length > 1) then
        T.modHigh x (· ++ [h]) else none) l T = some T' →
    (∀ x ∈ l, T.alive x = true ∧ x.ty + 1 = h.ty) ∧
    T' = { T with high := fun x => T.high x ++ List.replicate (l.count x) h }
  | [], T, T', e => by
    simp only [forEach, Option.some.injEq] at e
    subst e
    simp
  | x :: xs, T, T', e => by
    unfold forEach at e
    split at e
    · cases e
    · next T1 h1 =>
      split at h1
      · next hc =>
        obtain ⟨ha, hb, rfl⟩ := modHigh_some h1
        obtain ⟨h2, rfl⟩ := connectLoop_spec h xs _ T' e
        refine ⟨fun y hy => ?_, ?_⟩
        · rcases List.mem_cons.1 hy with rfl | hy
          · exact ⟨ha, hc.2.1⟩
          · exact h2 y hy
        · congr 1
          funext y
          by_cases hy : y = x
          · subst hy
            simp only [set1_same, List.count_cons_self, List.append_assoc, List.replicate_succ]
            rfl
          · simp only [set1_ne _ _ hy]
            rw [List.count_cons_of_ne (fun h => hy h.symm)]
      · cases h1

theorem connect_inv {h : El} {adj : List El} (I : Inv T (fun _ => False))
    (e : T.connect h adj = some T') : Inv T' (fun _ => False) ∧ T'.cn = T.cn := by
  unfold Topo.connect at e
  split at e
  · cases e
  · split at e
    · cases e
    · next T1 h1 =>
      obtain ⟨hadj, rfl⟩ := connectLoop_spec h adj T T1 h1
      split at e
      · cases e
      · next T2 h2 =>
        obtain ⟨hal, rfl⟩ := modLow_some h2
        have hal : T.alive h = true := hal
        refine cellPhase_inv (T := { T with
          low := set1 T.low h (T.low h ++ adj),
          high := fun x => T.high x ++ List.replicate (adj.count x) h }) ?_ e
        refine ⟨I.tyLe, ?_, I.lastLt, ?_, ?_, fun _ _ h => h.elim⟩
        · intro x hx
          have hx : T.alive x = false := hx
          obtain ⟨d1, d2, d3⟩ := I.dead x hx
          have hxh : x ≠ h := by rintro rfl; rw [hal] at hx; cases hx
          have hc : adj.count x = 0 := List.count_eq_zero.2 fun hm => by
            rw [(hadj x hm).1] at hx; cases hx
          refine ⟨?_, ?_, d3⟩
          · simp only [set1_ne _ _ hxh]; exact d1
          · simp only [d2, hc]; rfl
        · intro x y hy
          by_cases hx : x = h
          · subst hx
            simp only [set1_same] at hy
            rcases List.mem_append.1 hy with hy | hy
            · exact I.lowTy x y hy
            · have := (hadj y hy).2
              exact ⟨fun _ => this, fun h' => by omega⟩
          · simp only [set1_ne _ _ hx] at hy
            exact I.lowTy x y hy
        · intro a b _
          have hm := I.mirror a b (fun h => h)
          simp only [List.count_append, List.count_replicate]
          by_cases hb : b = h
          · subst hb
            simp only [set1_same, List.count_append, beq_self_eq_true, if_true, hm]
          · simp only [set1_ne _ _ hb]
            have : (h == b) = false := by simpa using fun h' => hb h'.symm
            simp [this, hm]

theorem disconnect_inv {h : El} {adj : List El} (I : Inv T (fun _ => False))
    (e : T.disconnect flip h adj = some T') : Inv T' (fun _ => False) ∧ T'.cn = T.cn := by
  unfold Topo.disconnect at e
  split at e
  · cases e
  next T1 h1 =>
  split at e
  · cases e
  next T2 h2 =>
  have hfc : ∀ (l : List El) (z : El), (l.filter (· ∈ adj)).count z = if z ∈ adj then l.count z else 0 := by
    intro l z
    split
    · next hz => exact List.count_filter (by simpa using hz)
    · next hz => exact List.count_eq_zero.2 (by simp [hz])
  have hfn : ∀ (l : List El) (z : El), (l.filter (· ∉ adj)).count z = if z ∈ adj then 0 else l.count z := by
    intro l z
    split
    · next hz => exact List.count_eq_zero.2 (by simp [hz])
    · next hz => exact List.count_filter (by simpa using hz)
  -- lower part
  have key1 : Inv T1 (fun _ => False) ∧ T1.cn = T.cn ∧ (h.ty < 3 → (T1.high h).Perm (T.high h)) := by
    split at h1
    · next h0 =>
      split at h1
      · cases h1
      · next U hU =>
        obtain ⟨g1, g2, g3, g4, g5, g6, g7⟩ := disOne_spec h _ T U hU
        obtain ⟨-, rfl⟩ := modLow_some h1
        have hhh : h ∉ T.low h := fun hm => by
          have := (I.lowTy h h hm).1 (by omega); omega
        refine ⟨I.less g1 g2 g3 g5 (fun x z => ?_) (fun a b => ?_), g1, fun _ => ?_⟩
        · by_cases hx : x = h
          · subst hx; simp only [set1_same]; rw [hfn]; split <;> omega
          · simp only [set1_ne _ _ hx, (g6 x).count_eq]; exact Nat.le_refl _
        · have hm := I.mirror a b (fun h => h)
          simp only [g7, hfc]
          by_cases hb : b = h
          · subst hb
            simp only [set1_same, if_true]
            rw [hfn]
            split <;> omega
          · simp only [set1_ne _ _ hb, (g6 b).count_eq, if_neg hb, hm]; omega
        · rw [List.perm_iff_count]
          intro z
          simp only [g7, hfc]
          rw [List.count_eq_zero.2 hhh]; simp
    · cases h1; exact ⟨I, rfl, fun _ => .refl _⟩
  obtain ⟨I1, c1, hp⟩ := key1
  have key2 : Inv T2 (fun _ => False) ∧ T2.cn = T.cn := by
    split at h2
    · next h3 =>
      split at h2
      · cases h2
      · next U hU =>
        obtain ⟨g1, g2, g3, g4, g5, g6, g7⟩ := eraseLow_spec h _ T1 U hU
        obtain ⟨-, -, rfl⟩ := modHigh_some h2
        refine ⟨I1.less g1 g2 g3 g5 (fun x z => ?_) (fun a b => ?_), g1.trans c1⟩
        · show (U.low x).count z ≤ _
          rw [g7]; omega
        · have hm := I1.mirror a b (fun h => h)
          show (U.low b).count a = (set1 U.high h _ a).count b
          rw [g7, g6, hfc]
          by_cases ha : a = h
          · subst ha
            rw [set1_same, hfn, if_pos rfl, hm, (hp h3).count_eq]
            split <;> omega
          · rw [set1_ne _ _ ha, if_neg ha, hm]; omega
    · cases h2; exact ⟨I1, c1⟩
  obtain ⟨I2, c2⟩ := key2
  obtain ⟨I3, c3⟩ := cellPhase_inv I2 e
  exact ⟨I3, c3.trans c2⟩

end Verif.Topology
