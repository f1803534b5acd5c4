import Verif.Topology.Preserve

/-! Splitting and uniting edges keep the connections mutual. -/

namespace Verif.Topology

variable {T T' : Topo} {flip : Topo → El → Bool}

/-- Everything except the arrays of connections is the same. -/
structure Frame (T T' : Topo) : Prop where
  cn : T'.cn = T.cn
  alive : T'.alive = T.alive
  last : T'.last = T.last
  hide : T'.hide = T.hide
  hidden : T'.hidden = T.hidden

theorem Frame.refl (T : Topo) : Frame T T := ⟨rfl, rfl, rfl, rfl, rfl⟩

theorem Frame.trans {T1 T2 T3 : Topo} (h : Frame T1 T2) (h' : Frame T2 T3) : Frame T1 T3 :=
  ⟨h'.cn.trans h.cn, h'.alive.trans h.alive, h'.last.trans h.last, h'.hide.trans h.hide,
    h'.hidden.trans h.hidden⟩

theorem Frame.hid (F : Frame T T') (x : El) : T'.hid x = T.hid x := by
  unfold Topo.hid; rw [F.hide, F.hidden]

theorem count_flatten_replicate (k : Nat) (L : List El) (z : El) :
    (List.replicate k L).flatten.count z = k * L.count z := by
  induction k with
  | zero => simp
  | succ k ih => rw [List.replicate_succ, List.flatten_cons, List.count_append, ih, Nat.succ_mul]; omega

theorem appsHigh_spec (L : List El) : ∀ (l : List El) (T T' : Topo),
    forEach (fun T x => T.modHigh x (· ++ L)) l T = some T' →
    (∀ x ∈ l, T.alive x = true) ∧
    T' = { T with high := fun x => T.high x ++ (List.replicate (l.count x) L).flatten }
  | [], T, T', e => by
    simp only [forEach, Option.some.injEq] at e
    subst e; simp
  | x :: xs, T, T', e => by
    unfold forEach at e
    split at e
    · cases e
    next T1 h1 =>
    obtain ⟨ha, -, rfl⟩ := modHigh_some h1
    obtain ⟨ha', rfl⟩ := appsHigh_spec L xs _ T' e
    refine ⟨fun y hy => ?_, ?_⟩
    · rcases List.mem_cons.1 hy with rfl | hy
      · exact ha
      · exact ha' y hy
    · congr 1
      funext y
      by_cases hy : y = x
      · subst hy
        simp only [set1_same, List.count_cons_self, List.replicate_succ, List.flatten_cons,
          List.append_assoc]
      · simp only [set1_ne _ _ hy, List.count_cons_of_ne (Ne.symm hy)]

theorem appsLow_spec (L : List El) : ∀ (l : List El) (T T' : Topo),
    forEach (fun T x => T.modLow x (· ++ L)) l T = some T' →
    (∀ x ∈ l, T.alive x = true) ∧
    T' = { T with low := fun x => T.low x ++ (List.replicate (l.count x) L).flatten }
  | [], T, T', e => by
    simp only [forEach, Option.some.injEq] at e
    subst e; simp
  | x :: xs, T, T', e => by
    unfold forEach at e
    split at e
    · cases e
    next T1 h1 =>
    obtain ⟨ha, rfl⟩ := modLow_some h1
    obtain ⟨ha', rfl⟩ := appsLow_spec L xs _ T' e
    refine ⟨fun y hy => ?_, ?_⟩
    · rcases List.mem_cons.1 hy with rfl | hy
      · exact ha
      · exact ha' y hy
    · congr 1
      funext y
      by_cases hy : y = x
      · subst hy
        simp only [set1_same, List.count_cons_self, List.replicate_succ, List.flatten_cons,
          List.append_assoc]
      · simp only [set1_ne _ _ hy, List.count_cons_of_ne (Ne.symm hy)]

theorem insStep_spec {n0 : El} {ret : List El} {fp : El × Nat} (e : Topo.insStep n0 ret T fp = some T') :
    T.alive fp.1 = true ∧ ∃ b p, fp.2 ≤ (T.low fp.1).length ∧
      (T.low fp.1)[(fp.2 + (T.low fp.1).length - 1) % (T.low fp.1).length]? = some p ∧
      isEnd n0 (T.low p) = some b ∧
      T' = { T with low := set1 T.low fp.1 ((T.low fp.1).take fp.2 ++
        (if b then ret else ret.reverse) ++ (T.low fp.1).drop fp.2) } := by
  unfold Topo.insStep at e
  have hlc : ∀ {x l}, T.lcOf x = some l → l = T.low x := by
    intro x l h
    unfold Topo.lcOf at h
    split at h
    · cases h; rfl
    · cases h
  split at e
  · cases e
  next lc h1 =>
  have := hlc h1; subst this
  split at e
  · cases e
  next hs =>
  split at e
  · cases e
  next p hp =>
  split at e
  · cases e
  next phc h2 =>
  have := hlc h2; subst this
  split at e
  · cases e
  next b hb =>
  obtain ⟨ha, h⟩ := modLow_some e
  refine ⟨ha, b, p, by omega, hp, hb, h⟩

theorem insLoop_spec {n0 : El} {ret : List El} : ∀ (pos : List (El × Nat)) (T T' : Topo),
    forEach (Topo.insStep n0 ret) pos T = some T' →
    Frame T T' ∧ T'.high = T.high ∧ (∀ p ∈ pos, T.alive p.1 = true) ∧
    (∀ x z, (T'.low x).count z = (T.low x).count z + (pos.map Prod.fst).count x * ret.count z) ∧
    (∀ x, x ∉ pos.map Prod.fst → T'.low x = T.low x)
  | [], T, T', e => by
    simp only [forEach, Option.some.injEq] at e
    subst e; exact ⟨.refl _, rfl, by simp, by simp, fun _ _ => rfl⟩
  | fp :: fps, T, T', e => by
    unfold forEach at e
    split at e
    · cases e
    next T1 h1 =>
    obtain ⟨ha, b, p, hl, hp, hb, rfl⟩ := insStep_spec h1
    obtain ⟨F, hh, ha', hc, hx⟩ := insLoop_spec fps _ T' e
    refine ⟨⟨F.cn, F.alive, F.last, F.hide, F.hidden⟩, hh, ?_, fun x z => ?_, fun x hm => ?_⟩
    · intro q hq
      rcases List.mem_cons.1 hq with rfl | hq
      · exact ha
      · exact ha' q hq
    · rw [hc x z, List.map_cons]
      by_cases hx : x = fp.1
      · subst hx
        simp only [set1_same, List.count_cons_self, List.count_append, Nat.succ_mul]
        have h2 : ((T.low fp.1).take fp.2).count z + ((T.low fp.1).drop fp.2).count z =
            (T.low fp.1).count z := by rw [← List.count_append, List.take_append_drop]
        have h3 : (if b = true then ret else ret.reverse).count z = ret.count z := by
          cases b
          · exact (List.reverse_perm ret).count_eq z
          · rfl
        rw [h3, ← h2]; omega
      · simp only [set1_ne _ _ hx, List.count_cons_of_ne (Ne.symm hx)]
    · rw [hx x (fun h => hm (by simp only [List.map_cons, List.mem_cons]; exact Or.inr h))]
      exact set1_ne _ _ (fun h => hm (by simp [h]))

/-- Links between two lists of elements are added on both sides. -/
theorem Inv.link (I : Inv T (fun _ => False)) (F : Frame T T') {A B : List El}
    (hA : ∀ x ∈ A, T.alive x = true) (hB : ∀ x ∈ B, T.alive x = true)
    (hty : ∀ a ∈ A, ∀ b ∈ B, (b.ty ≠ 0 → a.ty + 1 = b.ty) ∧ (b.ty = 0 → T.cn = true ∧ a.ty = 3))
    (hlow : ∀ x z, (T'.low x).count z = (T.low x).count z + B.count x * A.count z)
    (hhigh : ∀ x z, (T'.high x).count z = (T.high x).count z + A.count x * B.count z) :
    Inv T' (fun _ => False) where
  tyLe x h := I.tyLe x (by rw [← F.alive]; exact h)
  dead x h := by
    rw [F.alive] at h
    obtain ⟨h1, h2, h3⟩ := I.dead x h
    have hnA : x ∉ A := fun hx => by rw [hA x hx] at h; cases h
    have hnB : x ∉ B := fun hx => by rw [hB x hx] at h; cases h
    refine ⟨List.eq_nil_iff_forall_not_mem.2 fun z hz => ?_,
      List.eq_nil_iff_forall_not_mem.2 fun z hz => ?_, by rw [F.hidden]; exact h3⟩
    · have := hlow x z
      rw [h1, List.count_eq_zero.2 hnB] at this
      simp only [List.count_nil, Nat.zero_mul, Nat.add_zero] at this
      exact List.count_eq_zero.1 this hz
    · have := hhigh x z
      rw [h2, List.count_eq_zero.2 hnA] at this
      simp only [List.count_nil, Nat.zero_mul, Nat.add_zero] at this
      exact List.count_eq_zero.1 this hz
  lastLt x h := by rw [F.last]; exact I.lastLt x (by rw [← F.alive]; exact h)
  lowTy x y h := by
    have h1 := List.count_pos_iff.2 h
    rw [hlow] at h1
    rw [F.cn]
    by_cases h2 : y ∈ T.low x
    · exact I.lowTy x y h2
    · rw [List.count_eq_zero.2 h2, Nat.zero_add] at h1
      have hb : x ∈ B := List.count_pos_iff.1 (Nat.pos_of_mul_pos_right h1)
      have ha : y ∈ A := List.count_pos_iff.1 (Nat.pos_of_mul_pos_left h1)
      exact hty y ha x hb
  mirror a b _ := by
    rw [hlow, hhigh, I.mirror a b (fun h => h), Nat.mul_comm]
  cut a b h := h.elim


theorem eraseAll_none {e : El} {l : List El} (h : e ∉ l) : eraseAll e l = l := by
  rw [eraseAll_eq]
  exact List.filter_eq_self.2 fun x hx => by
    have : x ≠ e := by rintro rfl; exact h hx
    simpa using this

/-- Erasing an element from the lower arrays of a list of elements. -/
theorem erLow_spec (e : El) : ∀ (l : List El) (T T' : Topo),
    forEach (fun T f => T.modLow f (eraseAll e)) l T = some T' →
    T' = { T with low := fun x => if x ∈ l then eraseAll e (T.low x) else T.low x }
  | [], T, T', h => by
    simp only [forEach, Option.some.injEq] at h
    subst h; simp
  | f :: fs, T, T', h => by
    unfold forEach at h
    split at h
    · cases h
    next T1 h1 =>
    obtain ⟨-, rfl⟩ := modLow_some h1
    rw [erLow_spec e fs _ T' h]
    congr 1
    funext x
    by_cases hx : x = f
    · subst hx
      simp only [set1_same, List.mem_cons, true_or, if_true]
      split
      · rw [eraseAll_none (e := e)]
        rw [eraseAll_eq]; simp
      · rfl
    · simp only [set1_ne _ _ hx, List.mem_cons, hx, false_or]

theorem erHigh_spec (e : El) : ∀ (l : List El) (T T' : Topo),
    forEach (fun T f => T.modHigh f (eraseAll e)) l T = some T' →
    T' = { T with high := fun x => if x ∈ l then eraseAll e (T.high x) else T.high x }
  | [], T, T', h => by
    simp only [forEach, Option.some.injEq] at h
    subst h; simp
  | f :: fs, T, T', h => by
    unfold forEach at h
    split at h
    · cases h
    next T1 h1 =>
    obtain ⟨-, -, rfl⟩ := modHigh_some h1
    rw [erHigh_spec e fs _ T' h]
    congr 1
    funext x
    by_cases hx : x = f
    · subst hx
      simp only [set1_same, List.mem_cons, true_or, if_true]
      split
      · rw [eraseAll_none (e := e)]
        rw [eraseAll_eq]; simp
      · rfl
    · simp only [set1_ne _ _ hx, List.mem_cons, hx, false_or]

/-- Outcome of the destruction of an element below cells with no upper elements. -/
theorem destroy_bare {e : El} (ht : e.ty < 3) (hh : T.high e = []) (hne : e ∉ T.low e)
    (h : T.destroy flip e = some T') : T.hide = false ∧ T.alive e = true ∧
    T'.cn = T.cn ∧ T'.last = T.last ∧ T'.hide = T.hide ∧ T'.alive = set1 T.alive e false ∧
    T'.hidden = set1 T.hidden e false ∧
    T'.low = set1 T.low e [] ∧
    T'.high = fun x => if x ∈ T.low e ∧ (0 < e.ty ∨ T.cn = true) then eraseAll e (T.high x)
      else T.high x := by
  unfold Topo.destroy at h
  split at h
  · cases h
  next h0 =>
  unfold destroyWith at h
  split at h
  case isFalse => cases h
  next ha =>
  refine ⟨by simpa using h0, ha, ?_⟩
  have e1 : T.swapBackIf flip e = some T := by unfold Topo.swapBackIf; rw [if_neg (by omega)]
  rw [e1] at h
  have e2 : disUpper (deleteF flip 4) T e = some { T with high := set1 T.high e [] } := by
    unfold disUpper
    rw [if_pos (Or.inl ht)]
    have : T.hcOf e = some [] := by unfold Topo.hcOf; rw [if_pos ⟨ha, Or.inl ht⟩, hh]
    rw [this]
    simp only [rmLoop, if_pos ht, forEach, Topo.modHigh, this]
  have e3 : set1 T.high e [] = T.high := by
    funext x
    by_cases hx : x = e
    · subst hx; rw [set1_same, hh]
    · rw [set1_ne _ _ hx]
  rw [e3] at e2
  simp only at h
  rw [e2] at h
  simp only at h
  unfold disLower at h
  by_cases hc : 0 < e.ty ∨ T.cn = true
  · rw [if_pos hc] at h
    have e5 : T.lcOf e = some (T.low e) := if_pos ⟨ha, hc⟩
    rw [show ({ cn := T.cn, alive := T.alive, last := T.last, low := T.low, high := T.high, hide := T.hide, hidden := T.hidden } : Topo) = T from rfl, e5] at h
    simp only at h
    split at h
    · cases h
    next T2 h2 =>
    split at h2
    · cases h2
    next T3 h3 =>
    rw [erHigh_spec e _ _ _ h3] at h2
    obtain ⟨-, rfl⟩ := modLow_some h2
    cases h
    refine ⟨rfl, rfl, rfl, rfl, rfl, ?_, ?_⟩
    · funext x
      unfold Topo.untie
      by_cases hx : x = e
      · subst hx; simp only [set1_same]
      · simp only [set1_ne _ _ hx]
    · funext x
      unfold Topo.untie
      simp only [hc, and_true]
      by_cases hx : x = e
      · subst hx; simp only [set1_same, if_neg hne, hh]
      · simp only [set1_ne _ _ hx]
  · rw [if_neg hc] at h
    simp only [Option.some.injEq] at h
    subst h
    refine ⟨rfl, rfl, rfl, rfl, rfl, rfl, ?_⟩
    funext x
    simp only [hc, and_false, if_false]
    unfold Topo.untie
    exact congrFun e3 x

theorem hideEl_spec0 {e : El} (ht : e.ty ≠ 3) (h : T.hideEl flip e = some T') :
    T.alive e = true ∧ T' = { T with hidden := set1 T.hidden e true } := by
  unfold Topo.hideEl at h
  split at h
  case isFalse => cases h
  next ha =>
  refine ⟨ha, ?_⟩
  split at h
  · next hd =>
    cases h
    have : set1 T.hidden e true = T.hidden := by
      funext x
      by_cases hx : x = e
      · subst hx; rw [set1_same, hd]
      · rw [set1_ne _ _ hx]
    rw [this]
  · unfold Topo.swapBackIf at h
    rw [if_neg ht] at h
    cases h; rfl

/-- `SplitEdge` without hide marker: the edge disappears, nothing else changes. -/
structure Dropped (T : Topo) (e : El) (T' : Topo) : Prop where
  cn : T'.cn = T.cn
  last : T'.last = T.last
  hide : T'.hide = T.hide
  alive : T'.alive = set1 T.alive e false
  hidden : T'.hidden = set1 T.hidden e false
  low : ∀ x, T'.low x = if x = e then [] else eraseAll e (T.low x)
  high : ∀ x, T'.high x = if x = e then [] else eraseAll e (T.high x)

theorem dropEdge_spec (I : Inv T (fun _ => False)) {e : El} (ht : e.ty = 1)
    (h : T.dropEdge flip e = some T') : T.alive e = true ∧
    ((T.hide = true ∧ T' = { T with hidden := set1 T.hidden e true }) ∨
     (T.hide = false ∧ Dropped T e T')) := by
  unfold Topo.dropEdge at h
  split at h
  · next hh =>
    obtain ⟨ha, h'⟩ := hideEl_spec0 (by omega) h
    exact ⟨ha, Or.inl ⟨hh, h'⟩⟩
  next hh =>
  split at h
  · cases h
  next hc h1 =>
  have := hcOf_some h1; subst this
  split at h
  · cases h
  next T1 h2 =>
  split at h
  · cases h
  next T2 h3 =>
  have := erLow_spec e _ _ _ h2; subst this
  obtain ⟨ha, -, rfl⟩ := modHigh_some h3
  have M : ∀ {a b : El}, a ∈ T.low b ↔ b ∈ T.high a := fun {a b} => I.mem (fun h => h)
  have hee : e ∉ T.low e := fun h => by have := (I.lowTy e e h).1 (by omega); omega
  have heh : e ∉ T.high e := fun h => hee (M.2 h)
  obtain ⟨g1, g2, g3, g4, g5, g6, g7, g8, g9⟩ := destroy_bare (by omega) (by simp only [set1_same])
    (by simp only [if_neg heh]; exact hee) h
  refine ⟨ha, Or.inr ⟨by simpa using hh, g3, g4, g5, g6, g7, fun x => ?_, fun x => ?_⟩⟩
  · rw [g8]
    by_cases hx : x = e
    · subst hx; simp only [set1_same, if_true]
    · simp only [set1_ne _ _ hx, if_neg hx]
      split
      · rfl
      · next hn => rw [eraseAll_none (fun h => hn (M.1 h))]
  · rw [g9]
    have hx1 : x ∈ T.low e → x ≠ e := by rintro h rfl; exact hee h
    simp only [if_neg heh, show 0 < e.ty by omega, true_or, and_true]
    by_cases hx : x = e
    · subst hx; simp only [set1_same, if_true, if_neg hee]
    · simp only [set1_ne _ _ hx, if_neg hx]
      split
      · rfl
      · next hn => rw [eraseAll_none (fun h => hn (M.2 h))]

theorem count_eraseAll (e z : El) (l : List El) :
    (eraseAll e l).count z = if z = e then 0 else l.count z := by
  rw [eraseAll_eq]
  split
  · next h => subst h; exact count_filter_self l
  · next h => exact count_filter_ne l h

theorem mem_eraseAll {e z : El} {l : List El} : z ∈ eraseAll e l ↔ z ∈ l ∧ z ≠ e := by
  rw [eraseAll_eq]; simp

theorem Dropped.inv {e : El} (D : Dropped T e T') (I : Inv T (fun _ => False)) : Inv T' (fun _ => False) where
  tyLe x h := I.tyLe x (by rw [D.alive] at h; by_cases hx : x = e <;> simp [set1, hx] at h ⊢; exact h)
  dead x h := by
    by_cases hx : x = e
    · rw [D.low, D.high, D.hidden, if_pos hx, if_pos hx]; simp [set1, hx]
    · have h' : T.alive x = false := by rw [D.alive, set1_ne _ _ hx] at h; exact h
      obtain ⟨h1, h2, h3⟩ := I.dead x h'
      rw [D.low, D.high, D.hidden, if_neg hx, if_neg hx, set1_ne _ _ hx, h1, h2]
      exact ⟨rfl, rfl, h3⟩
  lastLt x h := by
    rw [D.last]
    exact I.lastLt x (by rw [D.alive] at h; by_cases hx : x = e <;> simp [set1, hx] at h ⊢; exact h)
  lowTy x y h := by
    rw [D.cn]
    rw [D.low] at h
    split at h
    · cases h
    · exact I.lowTy x y (mem_eraseAll.1 h).1
  mirror a b _ := by
    rw [D.low, D.high]
    have := I.mirror a b (fun h => h)
    split <;> split <;> simp_all [count_eraseAll]
  cut a b h := h.elim

theorem hidden_inv (I : Inv T (fun _ => False)) {e : El} (ha : T.alive e = true) (b : Bool) :
    Inv { T with hidden := set1 T.hidden e b } (fun _ => False) :=
  ⟨I.tyLe, fun x h => by
    obtain ⟨h1, h2, h3⟩ := I.dead x h
    refine ⟨h1, h2, ?_⟩
    have : x ≠ e := by rintro rfl; rw [show T.alive x = false from h] at ha; cases ha
    exact (set1_ne _ _ this).trans h3, I.lastLt, I.lowTy, I.mirror, I.cut⟩

/-- What `chain` does: edges are created or found. -/
structure Chained (T : Topo) (ret : List El) (T' : Topo) : Prop where
  inv : Inv T' (fun _ => False)
  cn : T'.cn = T.cn
  hide : T'.hide = T.hide
  hidden : T'.hidden = T.hidden
  mono : ∀ x, T.alive x = true → T'.alive x = true
  kinds : ∀ x, T'.alive x = true → T.alive x = true ∨ (x ∈ ret ∧ x.ty = 1)
  low : ∀ x, T.alive x = true → T'.low x = T.low x
  high : ∀ x, x.ty ≠ 0 → T'.high x = T.high x
  ret : ∀ x ∈ ret, T'.alive x = true ∧ x.ty = 1 ∧ T'.hid x = false

theorem Chained.refl (I : Inv T (fun _ => False)) : Chained T [] T :=
  ⟨I, rfl, rfl, rfl, fun _ h => h, fun _ h => Or.inl h, fun _ _ => rfl, fun _ _ => rfl, by simp⟩

theorem create_edge {dup b : Bool} {id : Nat} {x y r : El} (I : Inv T (fun _ => False))
    (hx : T.alive x = true ∧ x.ty = 0) (hy : T.alive y = true ∧ y.ty = 0)
    (h : T.create dup 1 id [x, y] [] = some (T', some r, b)) :
    (dup = true ∧ T' = T ∧ T.findShared [x, y] = some (some r)) ∨
    (T.alive ⟨1, id⟩ = false ∧ r = ⟨1, id⟩ ∧ T.createUp r [x, y] [] = some T' ∧
      (dup = true → T.findShared [x, y] = some none)) := by
  unfold Topo.create at h
  rw [if_neg (by simp)] at h
  split at h
  · cases h
  · next hf =>
    cases h
    cases dup with
    | false => simp at hf
    | true => exact Or.inl ⟨rfl, rfl, by simpa using hf⟩
  · next hf =>
    split at h
    · cases h
    next hd =>
    split at h
    · cases h
    next T1 h1 =>
    cases h
    exact Or.inr ⟨by simpa using hd, rfl, h1, by rintro rfl; simpa using hf⟩

theorem mem_two {a x y : El} : a ∈ [x, y] ↔ a = x ∨ a = y := by simp

theorem findShared_mem {arr : List El} {r : El} (hf : T.findShared arr = some (some r)) :
    ∃ x ∈ arr, r ∈ T.high x := by
  unfold Topo.findShared at hf
  split at hf
  · cases hf
  split at hf
  · cases hf
  next x0 xs hflt =>
  have hx0 : x0 ∈ arr := by
    have : x0 ∈ (arr.filter fun z => !T.hid z) := by rw [hflt]; simp
    exact (List.mem_filter.1 this).1
  split at hf
  · cases hf
  · cases hf
  next hc0 _ h1 =>
  have := hcOf_some h1; subst this
  split at hf
  · cases hf
  next hcarr h2 =>
  simp only [Option.some.injEq] at hf
  exact ⟨x0, hx0, List.mem_of_find?_eq_some hf⟩

theorem create_chained {dup b : Bool} {id : Nat} {x y r : El} (I : Inv T (fun _ => False))
    (hx : T.alive x = true ∧ x.ty = 0) (hy : T.alive y = true ∧ y.ty = 0)
    (h : T.create dup 1 id [x, y] [] = some (T', some r, b)) (hv : T'.hid r = false) :
    Chained T [r] T' := by
  have A : CreateArgs T 1 [x, y] [] := by
    refine ⟨Or.inl rfl, fun z hz => ?_, by simp⟩
    rcases mem_two.1 hz with rfl | rfl
    · exact ⟨hx.1, by omega⟩
    · exact ⟨hy.1, by omega⟩
  obtain ⟨I', hcn⟩ := create_inv I A h
  rcases create_edge I hx hy h with ⟨-, rfl, hf⟩ | ⟨hd, rfl, hu, -⟩
  · obtain ⟨z, hz, hr⟩ := findShared_mem hf
    have hz0 : z.ty = 0 := by
      rcases mem_two.1 hz with rfl | rfl
      · exact hx.2
      · exact hy.2
    have h1 := I.highLive (fun h => h) hr
    have h2 := (I.highTy (fun h => h) hr).1 (by omega)
    refine ⟨I, rfl, rfl, rfl, fun _ h => h, fun _ h => Or.inl h, fun _ _ => rfl, fun _ _ => rfl, ?_⟩
    intro w hw
    rw [List.mem_singleton.1 hw]
    exact ⟨h1.2, by omega, hv⟩
  · obtain ⟨g1, g2, g3, g4, g5, g6, g7⟩ := createUp_some I hd (by simp) (by
      intro h; rcases mem_two.1 h with h | h
      · rw [← h] at hx; simp at hx
      · rw [← h] at hy; simp at hy) (by simp) (by simp) hu
    have hne : ∀ z, T.alive z = true → z ≠ ⟨1, id⟩ := by rintro z hz rfl; rw [hd] at hz; cases hz
    refine ⟨I', g1, g3, g4, fun z hz => ?_, fun z hz => ?_, fun z hz => ?_, fun z hz => ?_, ?_⟩
    · rw [g2, set1_ne _ _ (hne z hz)]; exact hz
    · rw [g2] at hz
      by_cases hz' : z = ⟨1, id⟩
      · exact Or.inr ⟨by simp [hz'], by rw [hz']⟩
      · rw [set1_ne _ _ hz'] at hz; exact Or.inl hz
    · rw [g6, if_neg (hne z hz), if_neg (by simp)]
    · rw [g7]
      split
      · next hz' => rw [if_neg (by simp), hz', (I.dead _ hd).2.1]
      · rw [List.count_eq_zero.2]
        · simp
        · intro h; rcases mem_two.1 h with rfl | rfl
          · exact hz hx.2
          · exact hz hy.2
    · intro z hz
      rw [List.mem_singleton.1 hz]
      exact ⟨by rw [g2, set1_same], rfl, hv⟩

theorem Chained.trans {T1 T2 T3 : Topo} {r1 r2 : List El} (h : Chained T1 r1 T2) (h' : Chained T2 r2 T3) :
    Chained T1 (r1 ++ r2) T3 where
  inv := h'.inv
  cn := h'.cn.trans h.cn
  hide := h'.hide.trans h.hide
  hidden := h'.hidden.trans h.hidden
  mono x hx := h'.mono x (h.mono x hx)
  kinds x hx := by
    rcases h'.kinds x hx with h1 | h1
    · rcases h.kinds x h1 with h2 | h2
      · exact Or.inl h2
      · exact Or.inr ⟨by simp [h2.1], h2.2⟩
    · exact Or.inr ⟨by simp [h1.1], h1.2⟩
  low x hx := (h'.low x (h.mono x hx)).trans (h.low x hx)
  high x hx := (h'.high x hx).trans (h.high x hx)
  ret x hx := by
    rcases List.mem_append.1 hx with hx | hx
    · obtain ⟨a, b, c⟩ := h.ret x hx
      refine ⟨h'.mono x a, b, ?_⟩
      unfold Topo.hid at c ⊢
      rw [h'.hide, h'.hidden]; exact c
    · exact h'.ret x hx

theorem chain_chained {dup : Bool} : ∀ (targets : List El) (ids : List Nat) (a : El) (T T' : Topo)
    (ret : List El), Inv T (fun _ => False) → (T.alive a = true ∧ a.ty = 0) →
    (∀ x ∈ targets, T.alive x = true ∧ x.ty = 0) →
    Topo.chain dup a targets ids T = some (T', ret) → Chained T ret T'
  | [], _, a, T, T', ret, I, _, _, h => by
    cases h; exact .refl I
  | b :: bs, [], a, T, T', ret, I, _, _, h => by cases h
  | b :: bs, id :: ids, a, T, T', ret, I, ha, hb, h => by
    simp only [Topo.chain] at h
    split at h
    case h_2 => cases h
    next T1 r c h1 =>
    split at h
    · cases h
    next hv =>
    split at h
    · cases h
    next T2 rs h2 =>
    cases h
    have C1 := create_chained I ha (hb b (by simp)) h1 (by simpa using hv)
    have C2 := chain_chained bs ids b T1 _ rs C1.inv ⟨C1.mono b (hb b (by simp)).1, (hb b (by simp)).2⟩
      (fun x hx => ⟨C1.mono x (hb x (by simp [hx])).1, (hb x (by simp [hx])).2⟩) h2
    exact C1.trans C2

theorem insPos_spec {e : El} : ∀ (fs : List El) (pos : List (El × Nat)), T.insPos e fs = some pos →
    pos.map Prod.fst = fs ∧ ∀ p ∈ pos, T.visIdx e (T.low p.1) = some p.2
  | [], pos, h => by cases h; simp
  | f :: fs, pos, h => by
    unfold Topo.insPos at h
    split at h
    · cases h
    next ilc h1 =>
    have : ilc = T.low f := by
      unfold Topo.lcOf at h1
      split at h1
      · cases h1; rfl
      · cases h1
    subst this
    split at h
    case h_2 => cases h
    next p ps h2 h3 =>
    cases h
    obtain ⟨g1, g2⟩ := insPos_spec fs ps h3
    exact ⟨by simp [g1], fun q hq => by
      rcases List.mem_cons.1 hq with rfl | hq
      · exact h2
      · exact g2 q hq⟩

/-- The outcome of the part after the creation of edges. -/
theorem splitLinks_spec {n0 : El} {ret nodes faces cells : List El} {pos : List (El × Nat)}
    (h : T.splitLinks n0 ret nodes faces cells pos = some T') :
    ∃ T1, forEach (Topo.insStep n0 ret) pos T = some T1 ∧ Frame T T' ∧
      (∀ x ∈ ret, T.alive x = true) ∧
      (T.cn = true → (∀ x ∈ nodes, T.alive x = true) ∧ (∀ x ∈ cells, T.alive x = true)) ∧
      (∀ x, T'.low x = T1.low x ++
        (if T.cn then (List.replicate (nodes.count x) cells).flatten else [])) ∧
      (∀ x, T'.high x = T.high x ++ (List.replicate (ret.count x) faces).flatten ++
        (if T.cn then (List.replicate (cells.count x) nodes).flatten else [])) := by
  unfold Topo.splitLinks at h
  split at h
  · cases h
  next T1 h1 =>
  obtain ⟨F, hh, ha, hc, -⟩ := insLoop_spec pos T T1 h1
  split at h
  · cases h
  next T2 h2 =>
  obtain ⟨k1, rfl⟩ := appsHigh_spec faces ret _ _ h2
  refine ⟨T1, h1, ?_⟩
  have k1' : ∀ x ∈ ret, T.alive x = true := fun x hx => by rw [← F.alive]; exact k1 x hx
  split at h
  · next hcn =>
    split at h
    · cases h
    next T3 h3 =>
    obtain ⟨k2, rfl⟩ := appsLow_spec cells nodes _ _ h3
    obtain ⟨k3, rfl⟩ := appsHigh_spec nodes cells _ _ h
    refine ⟨⟨F.cn, F.alive, F.last, F.hide, F.hidden⟩, k1', fun _ => ⟨fun x hx => ?_, fun x hx => ?_⟩,
      fun x => ?_, fun x => ?_⟩
    · rw [← F.alive]; exact k2 x hx
    · rw [← F.alive]; exact k3 x hx
    · simp only [hcn, if_true]
    · simp only [hh, hcn, if_true]
  · next hcn =>
    cases h
    refine ⟨⟨F.cn, F.alive, F.last, F.hide, F.hidden⟩, k1', fun h => absurd h hcn, fun x => ?_, fun x => ?_⟩
    · simp only [if_neg hcn, List.append_nil]
    · simp only [hh, if_neg hcn, List.append_nil]

theorem splitLinks_inv {n0 : El} {ret nodes faces cells : List El} {pos : List (El × Nat)}
    (I : Inv T (fun _ => False)) (hpos : pos.map Prod.fst = faces)
    (hret : ∀ x ∈ ret, x.ty = 1) (hf : ∀ x ∈ faces, x.ty = 2) (hn : ∀ x ∈ nodes, x.ty = 0)
    (hc : ∀ x ∈ cells, x.ty = 3)
    (h : T.splitLinks n0 ret nodes faces cells pos = some T') :
    Inv T' (fun _ => False) ∧ Frame T T' := by
  obtain ⟨T1, h1, F, a1, a2, hl, hh⟩ := splitLinks_spec h
  obtain ⟨F1, hh1, ap, hcnt, -⟩ := insLoop_spec pos T T1 h1
  have hfa : ∀ x ∈ faces, T.alive x = true := by
    intro x hx
    rw [← hpos] at hx
    obtain ⟨p, hp, rfl⟩ := List.mem_map.1 hx
    exact ap p hp
  have Ia : Inv { T1 with high := fun x => T.high x ++ (List.replicate (ret.count x) faces).flatten } (fun _ => False) := by
    refine I.link (A := ret) (B := faces) ⟨F1.cn, F1.alive, F1.last, F1.hide, F1.hidden⟩ a1 hfa ?_ ?_ ?_
    · intro a ha b hb
      have := hret a ha; have := hf b hb
      exact ⟨fun _ => by omega, fun _ => by omega⟩
    · intro x z; rw [← hpos]; exact hcnt x z
    · intro x z
      show (T.high x ++ _).count z = _
      rw [List.count_append, count_flatten_replicate]
  refine ⟨?_, F⟩
  by_cases hcn : T.cn = true
  · refine Ia.link (A := cells) (B := nodes) ⟨F.cn.trans F1.cn.symm, F.alive.trans F1.alive.symm,
      F.last.trans F1.last.symm, F.hide.trans F1.hide.symm, F.hidden.trans F1.hidden.symm⟩ ?_ ?_ ?_ ?_ ?_
    · intro x hx; show T1.alive x = true; rw [F1.alive]; exact (a2 hcn).2 x hx
    · intro x hx; show T1.alive x = true; rw [F1.alive]; exact (a2 hcn).1 x hx
    · intro a ha b hb
      have := hc a ha; have := hn b hb
      exact ⟨fun _ => by omega, fun _ => ⟨by show T1.cn = true; rw [F1.cn]; exact hcn, by omega⟩⟩
    · intro x z
      rw [hl, if_pos hcn, List.count_append, count_flatten_replicate]
    · intro x z
      rw [hh, if_pos hcn, List.count_append, count_flatten_replicate]
  · refine Ia.link (A := []) (B := []) ⟨F.cn.trans F1.cn.symm, F.alive.trans F1.alive.symm,
      F.last.trans F1.last.symm, F.hide.trans F1.hide.symm, F.hidden.trans F1.hidden.symm⟩
      (by simp) (by simp) (by simp) ?_ ?_
    · intro x z; rw [hl, if_neg hcn]; simp
    · intro x z; rw [hh, if_neg hcn]; simp

/-- `collectVia` returns elements of the arrays. -/
theorem collectVia_mem {conn : El → Option (List El)} {y : El} : ∀ (ys acc r : List El),
    T.collectVia conn acc ys = some r → y ∈ r → y ∈ acc ∨ ∃ z ∈ ys, ∃ l, conn z = some l ∧ y ∈ l
  | [], acc, r, h, hy => by cases h; exact Or.inl hy
  | z :: zs, acc, r, h, hy => by
    have hcol : ∀ (l acc : List El), y ∈ T.collect acc l → y ∈ acc ∨ y ∈ l := by
      intro l
      induction l with
      | nil => intro acc h; exact Or.inl h
      | cons a as ih =>
        intro acc h
        unfold Topo.collect at h
        split at h
        · rcases ih acc h with h | h
          · exact Or.inl h
          · exact Or.inr (by simp [h])
        · split at h
          · rcases ih acc h with h | h
            · exact Or.inl h
            · exact Or.inr (by simp [h])
          · rcases ih _ h with h | h
            · rcases List.mem_append.1 h with h | h
              · exact Or.inl h
              · exact Or.inr (by simp at h; simp [h])
            · exact Or.inr (by simp [h])
    unfold Topo.collectVia at h
    split at h
    · rcases collectVia_mem zs acc r h hy with h | ⟨w, hw, h⟩
      · exact Or.inl h
      · exact Or.inr ⟨w, by simp [hw], h⟩
    · split at h
      · cases h
      next l hl =>
      rcases collectVia_mem zs _ r h hy with h | ⟨w, hw, h⟩
      · rcases hcol l acc h with h | h
        · exact Or.inl h
        · exact Or.inr ⟨z, by simp, l, hl, h⟩
      · exact Or.inr ⟨w, by simp [hw], h⟩

/-- Admissible arguments of `SplitEdge`: an edge and existing nodes. -/
theorem splitEdge_parts {dup prot : Bool} {e : El} {nodes ret : List El} {ids : List Nat}
    (I : Inv T (fun _ => False)) (ht : e.ty = 1) (hn : ∀ x ∈ nodes, T.alive x = true ∧ x.ty = 0)
    (hne : ret ≠ [] ∨ T' ≠ T)
    (h : T.splitEdge flip dup prot e nodes ids = some (T', ret)) :
    ∃ n0 n1 faces cells pos T1 T2, T.alive e = true ∧ nodes ≠ [] ∧
      (T.low e).filter (fun x => !T.hid x) = [n0, n1] ∧ faces = (T.high e).filter (fun x => !T.hid x) ∧
      T.collectVia T.hcOf [] (T.high e) = some cells ∧ T.insPos e faces = some pos ∧
      T.dropEdge flip e = some T1 ∧ Topo.chain dup n0 (nodes ++ [n1]) ids T1 = some (T2, ret) ∧
      T2.splitLinks n0 ret nodes faces cells pos = some T' := by
  unfold Topo.splitEdge at h
  split at h
  · cases h
  next ha =>
  split at h
  · next hp =>
    cases h
    rcases hne with h | h <;> exact absurd rfl h
  next hp =>
  split at h
  · cases h
  next hc h1 =>
  have := hcOf_some h1; subst this
  simp only at h
  split at h
  · cases h
  next cells h2 =>
  split at h
  case h_2 => cases h
  next n0 n1 h3 =>
  split at h
  · cases h
  next pos h4 =>
  split at h
  · cases h
  next T1 h5 =>
  split at h
  · cases h
  next T2 r h6 =>
  split at h
  · cases h
  next T3 h7 =>
  cases h
  exact ⟨n0, n1, _, cells, pos, T1, T2, by simpa using ha, fun h => hp (Or.inr h), h3, rfl, h2, h4, h5, h6, h7⟩

theorem dropEdge_inv (I : Inv T (fun _ => False)) {e : El} (ht : e.ty = 1)
    (h : T.dropEdge flip e = some T') : Inv T' (fun _ => False) ∧ T'.cn = T.cn ∧
      ∀ x, x ≠ e → T'.alive x = T.alive x := by
  obtain ⟨ha, ⟨-, rfl⟩ | ⟨-, D⟩⟩ := dropEdge_spec I ht h
  · exact ⟨hidden_inv I ha true, rfl, fun _ _ => rfl⟩
  · exact ⟨D.inv I, D.cn, fun x hx => by rw [D.alive, set1_ne _ _ hx]⟩

theorem splitEdge_inv {dup prot : Bool} {e : El} {nodes ret : List El} {ids : List Nat}
    (I : Inv T (fun _ => False)) (ht : e.ty = 1) (hn : ∀ x ∈ nodes, T.alive x = true ∧ x.ty = 0)
    (h : T.splitEdge flip dup prot e nodes ids = some (T', ret)) :
    Inv T' (fun _ => False) ∧ T'.cn = T.cn := by
  by_cases hne : ret ≠ [] ∨ T' ≠ T
  case neg =>
    have : T' = T := Classical.byContradiction fun h => hne (Or.inr h)
    rw [this]; exact ⟨I, rfl⟩
  obtain ⟨n0, n1, faces, cells, pos, T1, T2, ha, hnn, h3, rfl, h2, h4, h5, h6, h7⟩ :=
    splitEdge_parts I ht hn hne h
  obtain ⟨I1, c1, al⟩ := dropEdge_inv I ht h5
  have hnl : ∀ x, x = n0 ∨ x = n1 → x ∈ T.low e := by
    intro x hx
    have : x ∈ (T.low e).filter fun x => !T.hid x := by rw [h3]; simpa using hx
    exact (List.mem_filter.1 this).1
  have hne' : ∀ x, x.ty = 0 → x ≠ e := by rintro x hx rfl; omega
  have hends : ∀ x, x = n0 ∨ x = n1 → T1.alive x = true ∧ x.ty = 0 := by
    intro x hx
    have h0 := hnl x hx
    have ht0 : x.ty = 0 := by have := (I.lowTy e x h0).1 (by omega); omega
    exact ⟨by rw [al x (hne' x ht0)]; exact (I.lowLive h0).1, ht0⟩
  have C := chain_chained _ _ _ _ _ _ I1 (hends n0 (Or.inl rfl)) (by
    intro x hx
    rcases List.mem_append.1 hx with hx | hx
    · exact ⟨by rw [al x (hne' x (hn x hx).2)]; exact (hn x hx).1, (hn x hx).2⟩
    · exact hends x (Or.inr (by simpa using hx))) h6
  obtain ⟨J, F⟩ := splitLinks_inv C.inv (insPos_spec _ _ h4).1 (fun x hx => (C.ret x hx).2.1) (by
      intro x hx
      have := (I.highTy (fun h => h) (List.mem_filter.1 hx).1).1 (by omega)
      omega) (fun x hx => (hn x hx).2) (by
      intro x hx
      rcases collectVia_mem _ _ _ h2 hx with h | ⟨f, hf, l, hl, hxl⟩
      · cases h
      · have := hcOf_some hl; subst this
        have h1 := (I.highTy (fun h => h) hf).1 (by omega)
        have h2 := (I.highTy (fun h => h) hxl).1 (by omega)
        omega) h7
  exact ⟨J, F.cn.trans (C.cn.trans c1)⟩

/-! ## UniteEdges -/

/-- The elements of a list disappear, nothing else changes. -/
structure Gone (T : Topo) (D : List El) (T' : Topo) : Prop where
  cn : T'.cn = T.cn
  last : T'.last = T.last
  hide : T'.hide = T.hide
  alive : ∀ x, T'.alive x = if x ∈ D then false else T.alive x
  hidden : ∀ x, T'.hidden x = if x ∈ D then false else T.hidden x
  low : ∀ x, T'.low x = if x ∈ D then [] else (T.low x).filter (· ∉ D)
  high : ∀ x, T'.high x = if x ∈ D then [] else (T.high x).filter (· ∉ D)

theorem Gone.nil (T : Topo) : Gone T [] T :=
  ⟨rfl, rfl, rfl, by simp, by simp, fun _ => (List.filter_eq_self.2 (by simp)).symm,
    fun _ => (List.filter_eq_self.2 (by simp)).symm⟩

theorem Gone.inv {D : List El} (G : Gone T D T') (I : Inv T (fun _ => False)) : Inv T' (fun _ => False) := by
  have hal : ∀ x, T'.alive x = true → T.alive x = true := by
    intro x h; rw [G.alive] at h; split at h
    · cases h
    · exact h
  refine ⟨fun x h => I.tyLe x (hal x h), fun x h => ?_, fun x h => ?_, fun x y h => ?_, fun a b _ => ?_,
    fun _ _ h => h.elim⟩
  · rw [G.low, G.high, G.hidden]
    split
    · simp
    · next hx =>
      rw [G.alive, if_neg hx] at h
      obtain ⟨h1, h2, h3⟩ := I.dead x h
      rw [h1, h2]; exact ⟨rfl, rfl, h3⟩
  · rw [G.last]; exact I.lastLt x (hal x h)
  · rw [G.low] at h
    rw [G.cn]
    split at h
    · cases h
    · exact I.lowTy x y (List.mem_filter.1 h).1
  · rw [G.low, G.high]
    have := I.mirror a b (fun h => h)
    have hf : ∀ (l : List El) (z : El), (l.filter (· ∉ D)).count z = if z ∈ D then 0 else l.count z := by
      intro l z
      split
      · next hz => exact List.count_eq_zero.2 (by simp [hz])
      · next hz => exact List.count_filter (by simpa using hz)
    split <;> split <;> simp_all

theorem Dropped.gone {e : El} (D : Dropped T e T') : Gone T [e] T' := by
  refine ⟨D.cn, D.last, D.hide, fun x => ?_, fun x => ?_, fun x => ?_, fun x => ?_⟩
  · rw [D.alive]; simp [set1]
  · rw [D.hidden]; simp [set1]
  · rw [D.low]; simp [eraseAll_eq]
  · rw [D.high]; simp [eraseAll_eq]

theorem Gone.trans {T1 T2 T3 : Topo} {D E : List El} (h : Gone T1 D T2) (h' : Gone T2 E T3) :
    Gone T1 (D ++ E) T3 := by
  refine ⟨h'.cn.trans h.cn, h'.last.trans h.last, h'.hide.trans h.hide, fun x => ?_, fun x => ?_,
    fun x => ?_, fun x => ?_⟩
  · rw [h'.alive, h.alive]
    by_cases h1 : x ∈ E <;> by_cases h2 : x ∈ D <;> simp [h1, h2]
  · rw [h'.hidden, h.hidden]
    by_cases h1 : x ∈ E <;> by_cases h2 : x ∈ D <;> simp [h1, h2]
  · rw [h'.low, h.low]
    by_cases h1 : x ∈ E <;> by_cases h2 : x ∈ D <;> simp [h1, h2, List.filter_filter]
    exact List.filter_congr fun y _ => by rw [Bool.and_comm]
  · rw [h'.high, h.high]
    by_cases h1 : x ∈ E <;> by_cases h2 : x ∈ D <;> simp [h1, h2, List.filter_filter]
    exact List.filter_congr fun y _ => by rw [Bool.and_comm]

/-- During the removal of edges: `done` are gone, those of `todo` are out of the arrays of faces. -/
structure Going (T : Topo) (E done todo : List El) (T' : Topo) : Prop where
  cn : T'.cn = T.cn
  last : T'.last = T.last
  hide : T'.hide = T.hide
  alive : ∀ x, T'.alive x = if x ∈ done then false else T.alive x
  hidden : ∀ x, T'.hidden x = if x ∈ done then false else T.hidden x
  low : ∀ x, T'.low x = if x ∈ done then [] else (T.low x).filter (· ∉ E)
  high : ∀ x, T'.high x = if x ∈ done then [] else if x ∈ todo then T.high x
    else (T.high x).filter (· ∉ done)

theorem remEdge_going {E done todo : List El} {e : El} {T0 : Topo} {t : Nat} (I : Inv T0 (fun _ => False))
    (h0 : 0 < t) (h3 : t < 3) (hE : ∀ x ∈ E, x.ty = t) (he : e ∈ E) (hnd : e ∉ done) (hnt : e ∉ todo) (htd : ∀ x ∈ todo, x ∈ E)
    (G : Going T0 E done (e :: todo) T) (hh : T.hide = false) (h : T.remEdge flip e = some T') :
    Going T0 E (done ++ [e]) todo T' := by
  have M : ∀ {a b : El}, a ∈ T0.low b ↔ b ∈ T0.high a := fun {a b} => I.mem (fun h => h)
  have ht := hE e he
  unfold Topo.remEdge at h
  rw [if_neg (by rw [hh]; simp)] at h
  split at h
  · cases h
  next T1 h1 =>
  obtain ⟨ha, -, rfl⟩ := modHigh_some h1
  have hlow : T.low e = (T0.low e).filter (· ∉ E) := by rw [G.low, if_neg hnd]
  have hlowE : (T0.low e).filter (· ∉ E) = T0.low e := List.filter_eq_self.2 fun x hx => by
    have h1 := (I.lowTy e x hx).1 (by omega)
    have : x ∉ E := fun hx => by have := hE x hx; omega
    simpa using this
  rw [hlowE] at hlow
  have hee : e ∉ T0.low e := fun h => by have := (I.lowTy e e h).1 (by omega); omega
  obtain ⟨g1, g2, g3, g4, g5, g6, g7, g8, g9⟩ := destroy_bare (by omega) (by simp only [set1_same])
    (by show e ∉ T.low e; rw [hlow]; exact hee) h
  refine ⟨g3.trans G.cn, g4.trans G.last, g5.trans G.hide, fun x => ?_, fun x => ?_, fun x => ?_,
    fun x => ?_⟩
  · rw [g6]
    by_cases hx : x = e
    · subst hx; simp [set1]
    · simp only [set1_ne _ _ hx]; rw [G.alive]; simp [hx]
  · rw [g7]
    by_cases hx : x = e
    · subst hx; simp [set1]
    · simp only [set1_ne _ _ hx]; rw [G.hidden]; simp [hx]
  · rw [g8]
    by_cases hx : x = e
    · subst hx; simp [set1]
    · simp only [set1_ne _ _ hx]; rw [G.low]; simp [hx]
  · rw [g9]
    simp only [show 0 < e.ty by omega, true_or, and_true, hlow]
    by_cases hx : x = e
    · subst hx; simp [set1, hee]
    · have h5 : set1 T.high e [] x = T.high x := set1_ne _ _ hx
      simp only [h5]
      rw [G.high]
      simp only [List.mem_append, hx, List.mem_cons, List.not_mem_nil, or_false, false_or]
      by_cases h2 : x ∈ done
      · simp only [if_pos h2, true_or, if_true]; split <;> rfl
      · simp only [if_neg h2]
        by_cases h3 : x ∈ todo
        · have h4 : x ∉ T0.low e := fun hm => by
            have := (I.lowTy e x hm).1 (by omega); have := hE x (htd x h3); omega
          simp only [if_pos h3, if_neg h4]
        · simp only [if_neg h3]
          have h6 : (T0.high x).filter (fun y => decide (¬ (y ∈ done ∨ y = e))) =
              eraseAll e ((T0.high x).filter (· ∉ done)) := by
            rw [eraseAll_eq, List.filter_filter]
            exact List.filter_congr fun y _ => by
              by_cases y ∈ done <;> by_cases y = e <;> simp_all
          rw [h6]
          split
          · rfl
          · next hn =>
            rw [eraseAll_none]
            intro hm
            exact hn (M.2 (List.mem_filter.1 hm).1)

theorem remEdges_going {E : List El} {T0 : Topo} {t : Nat} (I : Inv T0 (fun _ => False))
    (h0 : 0 < t) (h3 : t < 3) (hE : ∀ x ∈ E, x.ty = t) : ∀ (todo done : List El) (T T' : Topo), (done ++ todo).Nodup →
    (∀ x ∈ todo, x ∈ E) → Going T0 E done todo T → T.hide = false →
    forEach (Topo.remEdge flip) todo T = some T' → Going T0 E (done ++ todo) [] T'
  | [], done, T, T', _, _, G, _, h => by cases h; simpa using G
  | e :: todo, done, T, T', hn, hs, G, hh, h => by
    unfold forEach at h
    split at h
    · cases h
    next T1 h1 =>
    have hn' : (done ++ [e] ++ todo).Nodup := by simpa using hn
    have hnd : e ∉ done := fun hm => by
      have := List.nodup_append.1 hn
      exact this.2.2 e hm e (by simp) rfl
    have hnt : e ∉ todo := by
      have := (List.nodup_append.1 hn).2.1
      exact (List.nodup_cons.1 this).1
    have G1 := remEdge_going I h0 h3 hE (hs e (by simp)) hnd hnt (fun x hx => hs x (by simp [hx])) G hh h1
    have := remEdges_going I h0 h3 hE todo (done ++ [e]) T1 T' hn' (fun x hx => hs x (by simp [hx])) G1
      (by rw [G1.hide, ← G.hide]; exact hh) h
    simpa using this

/-- Filtering of the lower arrays of the given elements. -/
theorem filtLow_spec (E : List El) : ∀ (l : List El) (T T' : Topo),
    forEach (fun T f => T.modLow f (·.filter (· ∉ E))) l T = some T' →
    T' = { T with low := fun x => if x ∈ l then (T.low x).filter (· ∉ E) else T.low x }
  | [], T, T', h => by
    simp only [forEach, Option.some.injEq] at h
    subst h; simp
  | f :: fs, T, T', h => by
    unfold forEach at h
    split at h
    · cases h
    next T1 h1 =>
    obtain ⟨-, rfl⟩ := modLow_some h1
    rw [filtLow_spec E fs _ T' h]
    congr 1
    funext x
    by_cases hx : x = f
    · subst hx
      simp only [set1_same, List.mem_cons, true_or, if_true, List.filter_filter, Bool.and_self]
      split <;> rfl
    · simp only [set1_ne _ _ hx, List.mem_cons, hx, false_or]

theorem remNode_gone {n : El} (I : Inv T (fun _ => False)) (ht : n.ty = 0) (hb : T.high n = [])
    (hh : T.hide = false) (h : T.remNode flip n = some T') : Gone T [n] T' := by
  have M : ∀ {a b : El}, a ∈ T.low b ↔ b ∈ T.high a := fun {a b} => I.mem (fun h => h)
  unfold Topo.remNode at h
  rw [if_neg (by rw [hh]; simp)] at h
  have hnn : n ∉ T.low n := fun hm => by have := ((I.lowTy n n hm).2 ht).2; omega
  have hnl : ∀ x, n ∉ T.low x := fun x hm => by have := M.1 hm; rw [hb] at this; cases this
  split at h
  · cases h
  next T1 h1 =>
  have key : ∃ T1', T1 = { T with high := T1' } ∧ (∀ x, T1' x = if x ∈ T.low n ∧ T.cn = true then
      eraseAll n (T.high x) else T.high x) := by
    split at h1
    · next hc =>
      split at h1
      · cases h1
      next lc hl =>
      have : lc = T.low n := by
        unfold Topo.lcOf at hl
        split at hl
        · cases hl; rfl
        · cases hl
      subst this
      have := erHigh_spec n _ _ _ h1
      exact ⟨_, this, fun x => by simp [hc]⟩
    · next hc =>
      cases h1
      exact ⟨T.high, rfl, fun x => by simp [hc]⟩
  obtain ⟨H, rfl, hH⟩ := key
  have hHn : H n = [] := by rw [hH, if_neg (fun h => hnn h.1)]; exact hb
  obtain ⟨g1, g2, g3, g4, g5, g6, g7, g8, g9⟩ := destroy_bare (T := { T with high := H })
    (by omega) hHn hnn h
  refine ⟨g3, g4, g5, fun x => ?_, fun x => ?_, fun x => ?_, fun x => ?_⟩
  · rw [g6]; simp [set1]
  · rw [g7]; simp [set1]
  · rw [g8]
    by_cases hx : x = n
    · subst hx; simp [set1]
    · simp only [set1_ne _ _ hx, List.mem_singleton, hx, if_false]
      refine (List.filter_eq_self.2 fun y hy => ?_).symm
      have : y ≠ n := by rintro rfl; exact hnl x hy
      simpa using this
  · rw [g9]
    have e1 : ∀ l : List El, l.filter (fun y => decide (y ∉ [n])) = eraseAll n l := by
      intro l; rw [eraseAll_eq]; simp
    have e2 : ∀ l : List El, eraseAll n (eraseAll n l) = eraseAll n l := fun l =>
      eraseAll_none (by rw [mem_eraseAll]; simp)
    by_cases hx : x = n
    · subst hx; simp [hnn, hHn]
    · simp only [List.mem_singleton, hx, if_false, hH]
      rw [show (T.high x).filter (fun y => decide (¬ y = n)) = eraseAll n (T.high x) by rw [eraseAll_eq]]
      by_cases hm : x ∈ T.low n
      · have hc : T.cn = true := ((I.lowTy n x hm).2 ht).1
        simp only [hm, hc, or_true, and_self, if_true, e2]
      · simp only [hm, false_and, if_false]
        exact (eraseAll_none fun hy => hm (M.2 hy)).symm

theorem remNodes_gone : ∀ (l : List El) (T T' : Topo), Inv T (fun _ => False) →
    (∀ n ∈ l, n.ty = 0 ∧ T.high n = []) → T.hide = false →
    forEach (Topo.remNode flip) l T = some T' → Gone T l T'
  | [], T, T', _, _, _, h => by cases h; exact .nil _
  | n :: ns, T, T', I, hb, hh, h => by
    unfold forEach at h
    split at h
    · cases h
    next T1 h1 =>
    have G := remNode_gone I (hb n (by simp)).1 (hb n (by simp)).2 hh h1
    have := remNodes_gone ns T1 T' (G.inv I) (fun m hm => by
      refine ⟨(hb m (by simp [hm])).1, ?_⟩
      rw [G.high, (hb m (by simp [hm])).2]; simp) (by rw [G.hide]; exact hh) h
    exact G.trans this

theorem hideLoop_spec {f : Topo → El → Option Topo} (hf : ∀ T x T', T.hide = true → x.ty ≠ 3 → f T x = some T' →
      T.alive x = true ∧ T' = { T with hidden := set1 T.hidden x true }) :
    ∀ (l : List El) (T T' : Topo), T.hide = true → (∀ x ∈ l, x.ty ≠ 3) → forEach f l T = some T' →
    (∀ x ∈ l, T.alive x = true) ∧ T' = { T with hidden := fun x => if x ∈ l then true else T.hidden x }
  | [], T, T', _, _, h => by cases h; simp
  | x :: xs, T, T', hh, ht, h => by
    unfold forEach at h
    split at h
    · cases h
    next T1 h1 =>
    obtain ⟨ha, rfl⟩ := hf T x T1 hh (ht x (by simp)) h1
    obtain ⟨ha', rfl⟩ := hideLoop_spec hf xs { T with hidden := set1 T.hidden x true } T' hh
      (fun y hy => ht y (by simp [hy])) h
    refine ⟨fun y hy => ?_, ?_⟩
    · rcases List.mem_cons.1 hy with rfl | hy
      · exact ha
      · exact ha' y hy
    · congr 1
      funext y
      by_cases hy : y = x
      · subst hy; simp [set1]
      · simp [set1, hy]

theorem uniteIns_spec {e : El} : ∀ (pos : List (El × Nat)) (T T' : Topo), (∀ p ∈ pos, p.1 ≠ e) →
    forEach (Topo.uniteIns e) pos T = some T' →
    Frame T T' ∧ (∀ p ∈ pos, T.alive p.1 = true) ∧ (pos ≠ [] → T.alive e = true) ∧
    (∀ x, x ∉ pos.map Prod.fst → T'.low x = T.low x) ∧
    (∀ x z, (T'.low x).count z = (T.low x).count z + (pos.map Prod.fst).count x * [e].count z) ∧
    T'.high = set1 T.high e (T.high e ++ pos.map Prod.fst)
  | [], T, T', _, h => by
    cases h
    refine ⟨.refl _, by simp, by simp, by simp, by simp, ?_⟩
    funext x
    by_cases hx : x = e
    · subst hx; simp [set1]
    · simp [set1, hx]
  | fp :: fps, T, T', hne, h => by
    unfold forEach at h
    split at h
    · cases h
    next T1 h1 =>
    unfold Topo.uniteIns at h1
    split at h1
    · cases h1
    next lc hl =>
    split at h1
    · cases h1
    next hlen =>
    split at h1
    · cases h1
    next T2 h2 =>
    obtain ⟨ha, rfl⟩ := modLow_some h2
    obtain ⟨hae, -, rfl⟩ := modHigh_some h1
    obtain ⟨F, k1, k2, k3, k4, k5⟩ := uniteIns_spec fps _ T' (fun p hp => hne p (by simp [hp])) h
    refine ⟨⟨F.cn, F.alive, F.last, F.hide, F.hidden⟩, fun p hp => ?_, fun _ => hae, fun x hx => ?_,
      fun x z => ?_, ?_⟩
    · rcases List.mem_cons.1 hp with rfl | hp
      · exact ha
      · exact k1 p hp
    · rw [k3 x (fun h => hx (by simp only [List.map_cons, List.mem_cons]; exact Or.inr h))]
      exact set1_ne _ _ (fun h => hx (by simp [h]))
    · rw [k4 x z, List.map_cons]
      by_cases hx : x = fp.1
      · subst hx
        simp only [set1_same, List.count_cons_self, List.count_append, Nat.succ_mul]
        have h2 : ((T.low fp.1).take fp.2).count z + ((T.low fp.1).drop fp.2).count z =
            (T.low fp.1).count z := by rw [← List.count_append, List.take_append_drop]
        rw [← h2]; omega
      · simp only [set1_ne _ _ hx, List.count_cons_of_ne (Ne.symm hx)]
    · rw [k5]
      funext x
      by_cases hx : x = e
      · subst hx; simp [set1]
      · simp [set1, hx]

theorem remPos_spec {E : List El} : ∀ (fs : List El) (pos : List (El × Nat)), T.remPos E fs = some pos →
    pos.map Prod.fst = fs ∧ ∀ p ∈ pos, remIdx E (T.low p.1) = some p.2
  | [], pos, h => by cases h; simp
  | f :: fs, pos, h => by
    unfold Topo.remPos at h
    split at h
    · cases h
    next ilc h1 =>
    have : ilc = T.low f := by
      unfold Topo.lcOf at h1
      split at h1
      · cases h1; rfl
      · cases h1
    subst this
    split at h
    case h_2 => cases h
    next p ps h2 h3 =>
    cases h
    obtain ⟨g1, g2⟩ := remPos_spec fs ps h3
    exact ⟨by simp [g1], fun q hq => by
      rcases List.mem_cons.1 hq with rfl | hq
      · exact h2
      · exact g2 q hq⟩

theorem facesOf_mem {y : El} : ∀ (es acc r : List El), T.facesOf acc es = some r →
    (y ∈ r ↔ y ∈ acc ∨ ∃ e ∈ es, y ∈ T.high e ∧ T.hid y = false)
  | [], acc, r, h => by cases h; simp
  | e :: es, acc, r, h => by
    have hcol : ∀ (l acc : List El), y ∈ T.collect acc l ↔ y ∈ acc ∨ y ∈ l ∧ T.hid y = false := by
      intro l
      induction l with
      | nil => intro acc; simp [Topo.collect]
      | cons a as ih =>
        intro acc
        unfold Topo.collect
        split
        · next hh =>
          rw [ih]
          constructor
          · rintro (h | h)
            · exact Or.inl h
            · exact Or.inr ⟨by simp [h.1], h.2⟩
          · rintro (h | h)
            · exact Or.inl h
            · rcases List.mem_cons.1 h.1 with rfl | h1
              · rw [hh] at h; simp at h
              · exact Or.inr ⟨h1, h.2⟩
        · next hh =>
          split
          · next hm =>
            rw [ih]
            constructor
            · rintro (h | h)
              · exact Or.inl h
              · exact Or.inr ⟨by simp [h.1], h.2⟩
            · rintro (h | h)
              · exact Or.inl h
              · rcases List.mem_cons.1 h.1 with rfl | h1
                · exact Or.inl hm
                · exact Or.inr ⟨h1, h.2⟩
          · rw [ih]
            simp only [List.mem_append, List.mem_cons, List.not_mem_nil, or_false]
            constructor
            · rintro ((h | rfl) | h)
              · exact Or.inl h
              · exact Or.inr ⟨Or.inl rfl, by simpa using hh⟩
              · exact Or.inr ⟨Or.inr h.1, h.2⟩
            · rintro (h | ⟨rfl | h, h2⟩)
              · exact Or.inl (Or.inl h)
              · exact Or.inl (Or.inr rfl)
              · exact Or.inr ⟨h, h2⟩
    unfold Topo.facesOf at h
    split at h
    · cases h
    next hc h1 =>
    have := hcOf_some h1; subst this
    rw [facesOf_mem es _ r h, hcol]
    simp only [List.mem_cons, exists_eq_or_imp]
    exact or_assoc

theorem create_visible {dup b : Bool} {id : Nat} {x y r : El} (I : Inv T (fun _ => False))
    (hx : T.alive x = true ∧ x.ty = 0) (hy : T.alive y = true ∧ y.ty = 0)
    (h : T.create dup 1 id [x, y] [] = some (T', some r, b)) : T'.hid r = false := by
  rcases create_edge I hx hy h with ⟨-, rfl, hf⟩ | ⟨hd, rfl, hu, -⟩
  · unfold Topo.findShared at hf
    split at hf
    · cases hf
    split at hf
    · cases hf
    split at hf
    · cases hf
    · cases hf
    split at hf
    · cases hf
    simp only [Option.some.injEq] at hf
    have := List.find?_some hf
    simp only [Bool.and_eq_true, Bool.not_eq_true'] at this
    exact this.1
  · obtain ⟨g1, g2, g3, g4, g5, g6, g7⟩ := createUp_some I hd (by simp) (by
      intro h; rcases mem_two.1 h with h | h
      · rw [← h] at hx; simp at hx
      · rw [← h] at hy; simp at hy) (by simp) (by simp) hu
    unfold Topo.hid
    rw [g4, (I.dead _ hd).2.2, Bool.and_false]

theorem mem_keyInsert {n y : El} : ∀ l : List El, y ∈ keyInsert n l ↔ y = n ∨ y ∈ l
  | [] => by simp [keyInsert]
  | x :: xs => by
    unfold keyInsert
    split
    · simp
    · split
      · next h => subst h; simp
      · simp only [List.mem_cons, mem_keyInsert xs]
        constructor
        · rintro (h | h | h) <;> simp [h]
        · rintro (h | h | h) <;> simp [h]

theorem mem_keys {y : El} (l : List El) : y ∈ keys l ↔ y ∈ l := by
  have : ∀ (l m : List El), y ∈ l.foldl (fun m n => keyInsert n m) m ↔ y ∈ l ∨ y ∈ m := by
    intro l
    induction l with
    | nil => simp
    | cons a as ih =>
      intro m
      rw [List.foldl_cons, ih, mem_keyInsert, List.mem_cons]
      constructor
      · rintro (h | h | h) <;> simp [h]
      · rintro ((h | h) | h) <;> simp [h]
  rw [keys, this]; simp

theorem mem_endsOf {edges : List El} {n : El} :
    n ∈ T.endsOf edges ↔ ∃ e ∈ edges, n ∈ T.low e ∧ T.hid n = false := by
  unfold Topo.endsOf
  rw [List.mem_flatMap]
  simp

/-- Everything up to the creation of the new edge: nothing but the edges and inner nodes changes, they
are hidden or gone. -/
theorem uniteRun_parts {dup : Bool} {edges faces inner build : List El} {pos : List (El × Nat)} {id : Nat}
    {r : Option El} (I : Inv T (fun _ => False)) (hE : ∀ x ∈ edges, x.ty = 1) (hnd : edges.Nodup)
    (hf : T.facesOf [] edges = some faces) (hin : ∀ n ∈ inner, n.ty = 0)
    (hfree : T.hide = false → ∀ n ∈ inner, ∀ x ∈ T.high n, x ∈ edges)
    (h : T.uniteRun flip dup edges faces inner build pos id = some (T', r)) :
    ∃ T3 T4 e b, r = some e ∧ T3.create dup 1 id build [] = some (T4, some e, b) ∧
      forEach (Topo.uniteIns e) pos T4 = some T' ∧
      ((T.hide = true ∧ (∀ x ∈ edges ++ inner, T.alive x = true) ∧
        T3 = { T with hidden := fun x => if x ∈ edges ++ inner then true else T.hidden x }) ∨
       (T.hide = false ∧ Gone T (edges ++ inner) T3)) := by
  have M : ∀ {a b : El}, a ∈ T.low b ↔ b ∈ T.high a := fun {a b} => I.mem (fun h => h)
  unfold Topo.uniteRun at h
  split at h
  · cases h
  next T1 h1 =>
  split at h
  · cases h
  next T2 h2 =>
  split at h
  · cases h
  next T3 h3 =>
  split at h
  case h_2 => cases h
  next T4 e b h4 =>
  split at h
  · cases h
  next T5 h5 =>
  cases h
  refine ⟨T3, T4, e, b, rfl, h4, h5, ?_⟩
  cases hh : T.hide with
  | true =>
    rw [hh] at h1
    simp only [if_true, Option.some.injEq] at h1
    subst h1
    obtain ⟨a1, rfl⟩ := hideLoop_spec (f := Topo.remEdge flip) (fun T x T' hh ht h => by
      unfold Topo.remEdge at h; rw [if_pos hh] at h; exact hideEl_spec0 ht h) edges T T2 hh
      (fun x hx => by have := hE x hx; omega) h2
    obtain ⟨a2, rfl⟩ := hideLoop_spec (f := Topo.remNode flip) (fun T x T' hh ht h => by
      unfold Topo.remNode at h; rw [if_pos hh] at h; exact hideEl_spec0 ht h) inner
      { T with hidden := fun x => if x ∈ edges then true else T.hidden x } T3 hh
      (fun x hx => by have := hin x hx; omega) h3
    refine Or.inl ⟨rfl, fun x hx => ?_, ?_⟩
    · rcases List.mem_append.1 hx with hx | hx
      · exact a1 x hx
      · exact a2 x hx
    · congr 1
      funext x
      by_cases g1 : x ∈ edges <;> by_cases g2 : x ∈ inner <;> simp [g1, g2]
  | false =>
    rw [hh] at h1
    simp only [Bool.false_eq_true, if_false] at h1
    have := filtLow_spec edges faces _ _ h1
    subst this
    have hfc : ∀ y, y ∈ faces ↔ ∃ e ∈ edges, y ∈ T.high e := by
      intro y
      rw [facesOf_mem edges [] faces hf]
      have : T.hid y = false := by unfold Topo.hid; rw [hh]; rfl
      simp [this]
    have G0 : Going T edges [] edges { T with low := fun x => if x ∈ faces then (T.low x).filter (· ∉ edges) else T.low x } := by
      refine ⟨rfl, rfl, rfl, by simp, by simp, fun x => ?_, fun x => ?_⟩
      · simp only [List.not_mem_nil, if_false]
        split
        · rfl
        · next hx =>
          refine (List.filter_eq_self.2 fun y hy => ?_).symm
          have : y ∉ edges := fun hy' => hx ((hfc x).2 ⟨y, hy', M.1 hy⟩)
          simpa using this
      · simp only [List.not_mem_nil, if_false, not_false_eq_true, decide_true]
        split
        · rfl
        · exact (List.filter_eq_self.2 (by simp)).symm
    have G1 := remEdges_going I (by omega) (by omega) hE edges [] _ T2 (by simpa using hnd) (fun _ h => h) G0 hh h2
    have G2 : Gone T edges T2 := by
      refine ⟨G1.cn, G1.last, G1.hide, by simpa using G1.alive, by simpa using G1.hidden,
        by simpa using G1.low, fun x => ?_⟩
      rw [G1.high]; simp
    have G3 := remNodes_gone inner T2 T3 (G2.inv I) (fun n hn => ⟨hin n hn, by
      rw [G2.high]
      split
      · rfl
      · refine List.filter_eq_nil_iff.2 fun x hx => ?_
        simpa using hfree hh n hn x hx⟩) (by rw [G2.hide]; exact hh) h3
    exact Or.inr ⟨rfl, G2.trans G3⟩

theorem uniteEdges_parts {dup : Bool} {prot : El → Bool} {edges : List El} {id : Nat} {r : El}
    (h : T.uniteEdges flip dup prot edges id = some (T', some r)) :
    ∃ faces pos, (∀ e ∈ edges, T.alive e = true) ∧ T.facesOf [] edges = some faces ∧
      ((keys (T.endsOf edges)).filter fun n => (T.endsOf edges).count n = 1).length = 2 ∧
      (∀ n, (T.endsOf edges).count n ≤ 2) ∧ T.remPos edges faces = some pos ∧
      T.uniteRun flip dup edges faces ((keys (T.endsOf edges)).filter fun n => (T.endsOf edges).count n ≠ 1)
        ((keys (T.endsOf edges)).filter fun n => (T.endsOf edges).count n = 1) pos id = some (T', some r) := by
  unfold Topo.uniteEdges at h
  split at h
  · cases h
  split at h
  · cases h
  next ha =>
  split at h
  · cases h
  next faces hf =>
  split at h
  · cases h
  simp only at h
  split at h
  · cases h
  next hb =>
  split at h
  · cases h
  next h2 =>
  split at h
  · cases h
  split at h
  · cases h
  next pos hp =>
  refine ⟨faces, pos, fun e he => ?_, hf, by omega, fun n => ?_, hp, h⟩
  · cases hae : T.alive e with
    | true => rfl
    | false => exact absurd (List.any_eq_true.2 ⟨e, he, by simp [hae]⟩) ha
  · by_cases hn : n ∈ T.endsOf edges
    · refine Nat.le_of_not_lt fun hlt => h2 (List.any_eq_true.2 ⟨n, (mem_keys _).2 hn, by simpa using hlt⟩)
    · rw [List.count_eq_zero.2 hn]; omega

theorem uniteEdges_same {dup : Bool} {prot : El → Bool} {edges : List El} {id : Nat}
    (h : T.uniteEdges flip dup prot edges id = some (T', none)) : T' = T := by
  unfold Topo.uniteEdges at h
  split at h
  · cases h; rfl
  split at h
  · cases h
  split at h
  · cases h
  split at h
  · cases h; rfl
  simp only at h
  split at h
  · cases h
  split at h
  · cases h
  split at h
  · cases h; rfl
  split at h
  · cases h
  unfold Topo.uniteRun at h
  split at h
  · cases h
  split at h
  · cases h
  split at h
  · cases h
  split at h
  case h_2 => cases h
  split at h
  · cases h
  cases h

theorem len_two {l : List El} (h : l.length = 2) : ∃ a b, l = [a, b] := by
  match l, h with
  | [a, b], _ => exact ⟨a, b, rfl⟩

theorem hiddens_inv (I : Inv T (fun _ => False)) {D : List El} (ha : ∀ x ∈ D, T.alive x = true) :
    Inv { T with hidden := fun x => if x ∈ D then true else T.hidden x } (fun _ => False) :=
  ⟨I.tyLe, fun x h => by
    obtain ⟨h1, h2, h3⟩ := I.dead x h
    refine ⟨h1, h2, ?_⟩
    have : x ∉ D := fun hx => by have := ha x hx; rw [show T.alive x = false from h] at this; cases this
    simp only [if_neg this]; exact h3, I.lastLt, I.lowTy, I.mirror, I.cut⟩

theorem uniteEdges_inv {dup : Bool} {prot : El → Bool} {edges : List El} {id : Nat} {r : Option El}
    (I : Inv T (fun _ => False)) (A : UniteOk T edges)
    (h : T.uniteEdges flip dup prot edges id = some (T', r)) :
    Inv T' (fun _ => False) ∧ T'.cn = T.cn := by
  cases r with
  | none => rw [uniteEdges_same h]; exact ⟨I, rfl⟩
  | some r =>
    obtain ⟨faces, pos, hal, hf, hb, hle, hp, hr⟩ := uniteEdges_parts h
    have hin : ∀ n ∈ (keys (T.endsOf edges)).filter (fun n => (T.endsOf edges).count n ≠ 1),
        n.ty = 0 ∧ 2 ≤ (T.endsOf edges).count n := by
      intro n hn
      obtain ⟨h1, h2⟩ := List.mem_filter.1 hn
      rw [mem_keys] at h1
      have h3 := List.count_pos_iff.2 h1
      have h2 : (T.endsOf edges).count n ≠ 1 := by simpa using h2
      obtain ⟨e, he, hl, -⟩ := mem_endsOf.1 h1
      have := (I.lowTy e n hl).1 (by have := A.ty e he; omega)
      have := A.ty e he
      exact ⟨by omega, by omega⟩
    obtain ⟨T3, T4, e, b, he, h4, h5, hT⟩ := uniteRun_parts I A.ty A.nodup hf (fun n hn => (hin n hn).1)
      (fun hh n hn => A.free hh n (hin n hn).2) hr
    obtain ⟨n0, n1, hbl⟩ := len_two hb
    rw [hbl] at h4
    have hbn : ∀ n, n = n0 ∨ n = n1 → T.alive n = true ∧ n.ty = 0 ∧ (T.endsOf edges).count n = 1 := by
      intro n hn
      have : n ∈ (keys (T.endsOf edges)).filter (fun n => (T.endsOf edges).count n = 1) := by
        rw [hbl]; simpa using hn
      obtain ⟨h1, h2⟩ := List.mem_filter.1 this
      rw [mem_keys] at h1
      obtain ⟨e, he, hl, -⟩ := mem_endsOf.1 h1
      have := (I.lowTy e n hl).1 (by have := A.ty e he; omega)
      have := A.ty e he
      exact ⟨(I.lowLive hl).1, by omega, by simpa using h2⟩
    have key : Inv T3 (fun _ => False) ∧ T3.cn = T.cn ∧ ∀ n, n = n0 ∨ n = n1 → T3.alive n = true := by
      rcases hT with ⟨-, ha, rfl⟩ | ⟨-, G⟩
      · exact ⟨hiddens_inv I ha, rfl, fun n hn => (hbn n hn).1⟩
      · refine ⟨G.inv I, G.cn, fun n hn => ?_⟩
        obtain ⟨g1, g2, g3⟩ := hbn n hn
        rw [G.alive, if_neg, g1]
        intro hm
        rcases List.mem_append.1 hm with hm | hm
        · have := A.ty n hm; omega
        · have := (hin n hm).2; omega
    obtain ⟨I3, c3, al⟩ := key
    have v := create_visible I3 ⟨al n0 (Or.inl rfl), (hbn n0 (Or.inl rfl)).2.1⟩
      ⟨al n1 (Or.inr rfl), (hbn n1 (Or.inr rfl)).2.1⟩ h4
    have C := create_chained I3 ⟨al n0 (Or.inl rfl), (hbn n0 (Or.inl rfl)).2.1⟩
      ⟨al n1 (Or.inr rfl), (hbn n1 (Or.inr rfl)).2.1⟩ h4 v
    obtain ⟨q1, -⟩ := remPos_spec _ _ hp
    have hft : ∀ f ∈ faces, f.ty = 2 := by
      intro f hm
      obtain ⟨e, he, hm, -⟩ := ((facesOf_mem edges [] faces hf).1 hm).resolve_left (by simp)
      have := (I.highTy (fun h => h) hm).1 (by have := A.ty e he; omega)
      have := A.ty e he
      omega
    have hte := (C.ret e (by simp)).2.1
    obtain ⟨F, k1, k2, k3, k4, k5⟩ := uniteIns_spec pos T4 T' (fun p hp heq => by
      have := hft p.1 (by rw [← q1]; exact List.mem_map.2 ⟨p, hp, rfl⟩)
      rw [heq] at this; omega) h5
    refine ⟨C.inv.link (A := [e]) (B := faces) F (fun x hx => by
      rw [List.mem_singleton.1 hx]; exact (C.ret e (by simp)).1) (fun x hx => by
      rw [← q1] at hx
      obtain ⟨p, hp, rfl⟩ := List.mem_map.1 hx
      exact k1 p hp) (fun a ha b hb => ?_) (fun x z => ?_) (fun x z => ?_), F.cn.trans (C.cn.trans c3)⟩
    · rw [List.mem_singleton.1 ha]
      have := hft b hb
      exact ⟨fun _ => by omega, fun _ => by omega⟩
    · rw [k4, q1]
    · rw [k5, q1]
      by_cases hx : x = e
      · subst hx; simp [set1]
      · rw [set1_ne _ _ hx, List.count_eq_zero.2 (show x ∉ [e] by simpa using hx)]; simp

end Verif.Topology
