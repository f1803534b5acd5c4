import Verif.EdgeLoop.Spec
import Verif.Topology.Lemmas
import Mathlib.Tactic.Common

/-! Helper lemmas for loops of edges. -/

namespace Verif.EdgeLoop
open Verif.Topology

variable {T : Topo}

theorem Joins.symm {e a b : El} (h : Joins T e a b) : Joins T e b a := Or.symm h

theorem ends_joins {e c d : El} (h : ends T e = some (c, d)) : Joins T e c d := by
  unfold ends at h
  split at h
  · next a b h' => cases h; exact Or.inl h'
  · cases h

theorem Joins.ends {e a b : El} (h : Joins T e a b) : ends T e = some (a, b) ∨ ends T e = some (b, a) := by
  unfold EdgeLoop.ends vis
  rcases h with h | h <;> rw [h] <;> simp

theorem Joins.ends2 {e a b : El} (h : Joins T e a b) :
    ends2 T e = some (a, b) ∨ ends2 T e = some (b, a) := by
  unfold EdgeLoop.ends2 vis
  rcases h with h | h <;> rw [h] <;> simp

theorem Joins.touch {e a b x : El} {p : El × El} (h : Joins T e a b) (hp : EdgeLoop.ends T e = some p) :
    touches x p = true ↔ x = a ∨ x = b := by
  rcases h.ends with h' | h' <;> rw [h'] at hp <;> cases hp <;> simp [touches]
  exact or_comm

theorem other_eq {e x m c d : El} (h : Joins T e x m) (hp : EdgeLoop.ends T e = some (c, d)) :
    (if x = c then d else c) = m := by
  rcases h.ends with h' | h' <;> rw [h'] at hp <;> cases hp
  · simp
  · split <;> simp_all

/-! ## Paths -/

/-- The edges `es` lead from `a` to `b`; `ns` are the starting nodes of the edges. -/
inductive Path (T : Topo) : El → List El → List El → El → Prop
  | nil (a : El) : Path T a [] [] a
  | cons {e a m b : El} {es ns : List El} : Joins T e a m → Path T m es ns b →
      Path T a (e :: es) (a :: ns) b

theorem Path.length {a b : El} {es ns : List El} (h : Path T a es ns b) : ns.length = es.length := by
  induction h with
  | nil => rfl
  | cons _ _ ih => simp [ih]

theorem Path.append {a b c : El} {es ns es' ns' : List El} (h : Path T a es ns b)
    (h' : Path T b es' ns' c) : Path T a (es ++ es') (ns ++ ns') c := by
  induction h with
  | nil => exact h'
  | cons hj _ ih => exact .cons hj (ih h')

theorem Path.split {a c : El} {es1 es2 ns : List El} (h : Path T a (es1 ++ es2) ns c) :
    ∃ m ns1 ns2, ns = ns1 ++ ns2 ∧ Path T a es1 ns1 m ∧ Path T m es2 ns2 c := by
  induction es1 generalizing a ns with
  | nil => exact ⟨a, [], ns, rfl, .nil a, h⟩
  | cons e es ih =>
    cases h with
    | cons hj hp =>
      obtain ⟨m, ns1, ns2, rfl, h1, h2⟩ := ih hp
      exact ⟨m, _, ns2, rfl, .cons hj h1, h2⟩

theorem Path.rev {a b : El} {es ns : List El} (h : Path T a es ns b) :
    ∃ ns', Path T b es.reverse ns' a ∧ ns' ++ [a] = (ns ++ [b]).reverse := by
  induction h with
  | nil a => exact ⟨[], .nil a, rfl⟩
  | @cons e a m b es ns hj _ ih =>
    obtain ⟨ns', h1, h2⟩ := ih
    refine ⟨ns' ++ [m], ?_, ?_⟩
    · rw [List.reverse_cons]
      exact h1.append (.cons hj.symm (.nil a))
    · rw [h2]; simp

theorem Path.mem {a b x : El} {es ns : List El} (h : Path T a es ns b) (hx : x ∈ es) :
    ∃ u v, Joins T x u v ∧ u ∈ ns ∧ v ∈ ns ++ [b] := by
  induction h with
  | nil => cases hx
  | @cons e a m b es ns hj hp ih =>
    rcases List.mem_cons.1 hx with rfl | hx
    · refine ⟨a, m, hj, by simp, ?_⟩
      cases hp with
      | nil => simp
      | cons => simp
    · obtain ⟨u, v, h1, h2, h3⟩ := ih hx
      exact ⟨u, v, h1, by simp [h2], by rw [List.cons_append]; exact List.mem_cons_of_mem _ h3⟩

theorem Path.head {a b : El} {es ns : List El} (h : Path T a es ns b) (hne : ns ≠ []) : a ∈ ns := by
  cases h with
  | nil => exact absurd rfl hne
  | cons => simp

theorem path_of_idx : ∀ (es ns : List El) (a b : El), ns.length = es.length →
    (ns ++ [b])[0]? = some a →
    (∀ (i : Nat) (e x y : El), es[i]? = some e → (ns ++ [b])[i]? = some x →
      (ns ++ [b])[i + 1]? = some y → Joins T e x y) → Path T a es ns b := by
  intro es
  induction es with
  | nil =>
    intro ns a b h1 h2 _
    have : ns = [] := List.length_eq_zero_iff.1 h1
    subst this
    simp only [List.nil_append, List.getElem?_cons_zero, Option.some.injEq] at h2
    subst h2
    exact .nil _
  | cons e es ih =>
    intro ns a b h1 h2 h3
    cases ns with
    | nil => simp at h1
    | cons n ns =>
      simp only [List.cons_append, List.getElem?_cons_zero, Option.some.injEq] at h2
      subst h2
      obtain ⟨m, hm⟩ : ∃ m, (ns ++ [b])[0]? = some m := by
        cases ns <;> simp
      refine .cons (m := m) (h3 0 e n m rfl rfl (by simpa using hm)) (ih ns m b (by simpa using h1) hm ?_)
      intro i e' x y hi hx hy
      exact h3 (i + 1) e' x y (by simpa using hi) (by simpa using hx) (by simpa using hy)

theorem Path.idx {a b : El} {es ns : List El} (h : Path T a es ns b) :
    (ns ++ [b])[0]? = some a ∧ ∀ (i : Nat) (e x y : El), es[i]? = some e → (ns ++ [b])[i]? = some x →
      (ns ++ [b])[i + 1]? = some y → Joins T e x y := by
  induction h with
  | nil => simp
  | @cons e a m b es ns hj hp ih =>
    refine ⟨rfl, fun i e' x y h1 h2 h3 => ?_⟩
    cases i with
    | zero =>
      simp only [List.getElem?_cons_zero, Option.some.injEq, List.cons_append] at h1 h2
      rw [List.cons_append, List.getElem?_cons_succ] at h3
      rw [ih.1] at h3
      cases h1; cases h2; cases h3
      exact hj
    | succ i =>
      exact ih.2 i e' x y (by simpa using h1) (by simpa using h2) (by simpa using h3)

theorem Path.loop {a : El} {es ns : List El} (h : Path T a es ns a) (h3 : 3 ≤ es.length) :
    Loop T es ns := by
  obtain ⟨h0, hi⟩ := h.idx
  have hl := h.length
  refine ⟨h3, hl, fun i e x y he hx hy => ?_⟩
  have hi' : i < es.length := (List.getElem?_eq_some_iff.1 he).1
  refine hi i e x y he (by rw [List.getElem?_append_left (by omega)]; exact hx) ?_
  by_cases hlast : i + 1 = es.length
  · rw [hlast, Nat.mod_self] at hy
    rw [List.getElem?_append_right (by omega), hlast, hl, Nat.sub_self]
    rw [List.getElem?_append_left (by omega), hy] at h0
    cases h0; rfl
  · rw [Nat.mod_eq_of_lt (by omega)] at hy
    rw [List.getElem?_append_left (by omega)]; exact hy

theorem Loop.path {es ns : List El} (h : Loop T es ns) : ∃ a, Path T a es ns a := by
  have h3 := h.three
  have hl := h.corners
  obtain ⟨a, ha⟩ : ∃ a, ns[0]? = some a := ⟨_, List.getElem?_eq_getElem (by omega)⟩
  refine ⟨a, path_of_idx es ns a a hl (by rw [List.getElem?_append_left (by omega)]; exact ha) ?_⟩
  intro i e x y he hx hy
  have hi' : i < es.length := (List.getElem?_eq_some_iff.1 he).1
  rw [List.getElem?_append_left (by omega)] at hx
  refine h.joins i e x y he hx ?_
  by_cases hlast : i + 1 = es.length
  · rw [hlast, Nat.mod_self]
    rw [List.getElem?_append_right (by omega), hlast, hl, Nat.sub_self] at hy
    rw [ha]; simpa using hy
  · rw [Nat.mod_eq_of_lt (by omega)]
    rw [List.getElem?_append_left (by omega)] at hy; exact hy

/-- A closed path of distinct nodes can be started with any of its edges, in both directions. -/
theorem cycle_at {x q a b : El} {es ns : List El} (h : Path T x es ns x) (hn : ns.Nodup) (hq : q ∈ es)
    (hj : Joins T q a b) :
    ∃ rest ns2, Path T b rest ns2 a ∧ (a :: ns2).Nodup ∧ (q :: rest).Perm es := by
  obtain ⟨es1, es2, rfl⟩ := List.append_of_mem hq
  obtain ⟨u, ns1, ns2, rfl, h1, h2⟩ := h.split
  cases h2 with
  | @cons _ _ v _ _ ns2 hj' h2 =>
  have hp := h2.append h1
  have hnd : (u :: (ns2 ++ ns1)).Nodup := by
    refine (List.Perm.nodup_iff ?_).1 hn
    exact (List.perm_append_comm (l₁ := ns1) (l₂ := u :: ns2))
  have hpm : (q :: (es2 ++ es1)).Perm (es1 ++ q :: es2) :=
    List.perm_append_comm (l₁ := q :: es2) (l₂ := es1)
  have huv : (a = u ∧ b = v) ∨ (a = v ∧ b = u) := by
    unfold Joins at hj hj'
    rcases hj with hj | hj <;> rcases hj' with hj' | hj' <;> rw [hj] at hj' <;>
      simp only [List.cons.injEq, and_true] at hj' <;> tauto
  rcases huv with ⟨rfl, rfl⟩ | ⟨rfl, rfl⟩
  · exact ⟨_, _, hp, hnd, hpm⟩
  · obtain ⟨ns', p1, p2⟩ := hp.rev
    refine ⟨_, ns', p1, ?_, (List.Perm.cons _ (List.reverse_perm _)).trans hpm⟩
    have : (a :: ns').Perm (b :: (ns2 ++ ns1)) := by
      have e1 : (a :: ns').Perm (ns' ++ [a]) := (List.perm_append_singleton a ns').symm
      rw [p2] at e1
      exact (e1.trans (List.reverse_perm _)).trans (List.perm_append_singleton _ _)
    exact this.nodup_iff.2 hnd

/-! ## Visible entries -/

theorem vis_cons_hid {e : El} {l : List El} (h : T.hid e = true) : vis T (e :: l) = vis T l := by
  simp [vis, h]

theorem vis_cons_vis {e : El} {l : List El} (h : T.hid e = false) : vis T (e :: l) = e :: vis T l := by
  simp [vis, h]

theorem vis_append (l l' : List El) : vis T (l ++ l') = vis T l ++ vis T l' := by simp [vis]

theorem vis_perm {l l' : List El} (h : l.Perm l') : (vis T l).Perm (vis T l') := h.filter _

theorem mem_vis {x : El} {l : List El} : x ∈ vis T l ↔ x ∈ l ∧ T.hid x = false := by simp [vis]

theorem take_vis {l : List El} {i : Nat} {e : El} (h : l[i]? = some e) :
    vis T (l.take (i + 1)) = vis T (l.take i) ++ vis T [e] := by
  rw [List.take_add_one, h, vis_append]; rfl

theorem drop_cons {l : List El} {i : Nat} {e : El} (h : l[i]? = some e) :
    l.drop i = e :: l.drop (i + 1) := by
  obtain ⟨hi, rfl⟩ := List.getElem?_eq_some_iff.1 h
  exact List.drop_eq_getElem_cons hi

theorem first_vis : ∀ (m : List El) (e : El) (rest : List El), vis T m = e :: rest →
    m[(m.takeWhile T.hid).length]? = some e ∧ T.hid e = false ∧
      vis T (m.drop ((m.takeWhile T.hid).length + 1)) = rest ∧
      vis T (m.take (m.takeWhile T.hid).length) = [] := by
  intro m
  induction m with
  | nil => intro e rest h; cases h
  | cons x xs ih =>
    intro e rest h
    cases hx : T.hid x with
    | true =>
      rw [vis_cons_hid hx] at h
      obtain ⟨h1, h2, h3, h4⟩ := ih e rest h
      rw [List.takeWhile_cons, if_pos hx, List.length_cons]
      refine ⟨by simpa using h1, h2, by simpa using h3, ?_⟩
      rw [List.take_succ_cons, vis_cons_hid hx]; exact h4
    | false =>
      rw [vis_cons_vis hx] at h
      cases h
      rw [List.takeWhile_cons, if_neg (by simp [hx])]
      exact ⟨rfl, hx, rfl, rfl⟩

theorem getNext_split {l : List El} {k : Nat} {e : El} {rest : List El}
    (h : vis T (l.drop k) = e :: rest) :
    l[T.getNext l k]? = some e ∧ T.hid e = false ∧ k ≤ T.getNext l k ∧
      vis T (l.drop (T.getNext l k + 1)) = rest ∧ vis T (l.take (T.getNext l k)) = vis T (l.take k) := by
  obtain ⟨h1, h2, h3, h4⟩ := first_vis _ _ _ h
  unfold Topo.getNext
  refine ⟨by rw [← List.getElem?_drop]; exact h1, h2, by omega, ?_, ?_⟩
  · rw [← h3, List.drop_drop, Nat.add_assoc]
  · rw [List.take_add, vis_append, h4, List.append_nil]

/-! ## Swaps -/

theorem swapAt_spec {l l' : List El} {i j : Nat} {a b : El} (hi : l[i]? = some a) (hj : l[j]? = some b)
    (hij : i < j) (e : swapAt l i j = some l') :
    l'.Perm l ∧ l'.take i = l.take i ∧ l'[i]? = some b ∧ l'[j]? = some a ∧
      ∀ k, k ≠ i → k ≠ j → l'[k]? = l[k]? := by
  unfold swapAt at e
  rw [hi, hj] at e
  simp only [Option.some.injEq] at e
  subst e
  obtain ⟨h1, rfl⟩ := List.getElem?_eq_some_iff.1 hi
  obtain ⟨h2, rfl⟩ := List.getElem?_eq_some_iff.1 hj
  refine ⟨List.set_set_perm h1 h2, ?_, ?_, ?_, ?_⟩
  · rw [List.take_set_of_le (by omega), List.take_set_of_le (by omega)]
  · rw [List.getElem?_set_ne (by omega), List.getElem?_set_self (by omega)]
  · rw [List.getElem?_set_self (by simpa using h2)]
  · intro k hk1 hk2
    rw [List.getElem?_set_ne (by omega), List.getElem?_set_ne (by omega)]

theorem swapAt_isSome {l : List El} {i j : Nat} {a b : El} (hi : l[i]? = some a) (hj : l[j]? = some b) :
    ∃ l', swapAt l i j = some l' := by
  unfold swapAt; rw [hi, hj]; exact ⟨_, rfl⟩

theorem search_some {p : El × El → Bool} : ∀ (l : List El) (k j : Nat), search T p l k = some j →
    k ≤ j ∧ ∃ e ab, l[j - k]? = some e ∧ T.hid e = false ∧ ends T e = some ab ∧ p ab = true := by
  intro l
  induction l with
  | nil => intro k j h; cases h
  | cons x xs ih =>
    intro k j h
    unfold search at h
    have hrec : search T p xs (k + 1) = some j → k ≤ j ∧ ∃ e ab, (x :: xs)[j - k]? = some e ∧
        T.hid e = false ∧ ends T e = some ab ∧ p ab = true := by
      intro h
      obtain ⟨h1, e, ab, h2, h3⟩ := ih _ _ h
      refine ⟨by omega, e, ab, ?_, h3⟩
      rw [show j - k = (j - (k + 1)) + 1 by omega, List.getElem?_cons_succ]; exact h2
    split at h
    · exact hrec h
    next hx =>
    split at h
    · cases h
    next ab hab =>
    split at h
    next hp =>
      cases h
      exact ⟨Nat.le_refl _, x, ab, by simp, by simpa using hx, hab, hp⟩
    · exact hrec h

theorem search_isSome {p : El × El → Bool} : ∀ (l : List El) (k : Nat),
    (∀ x ∈ vis T l, ∃ ab, ends T x = some ab) →
    (∃ x ∈ vis T l, ∃ ab, ends T x = some ab ∧ p ab = true) → ∃ j, search T p l k = some j := by
  intro l
  induction l with
  | nil => rintro k _ ⟨x, hx, _⟩; cases hx
  | cons x xs ih =>
    rintro k h1 ⟨y, hy, ab, hab, hp⟩
    unfold search
    cases hx : T.hid x with
    | true =>
      rw [vis_cons_hid hx] at h1 hy
      simpa using ih (k + 1) h1 ⟨y, hy, ab, hab, hp⟩
    | false =>
      rw [vis_cons_vis hx] at h1 hy
      obtain ⟨cd, hcd⟩ := h1 x (by simp)
      simp only [hcd, Bool.false_eq_true, if_false]
      by_cases hpc : p cd = true
      · exact ⟨k, by simp [hpc]⟩
      · rcases List.mem_cons.1 hy with rfl | hy
        · rw [hab] at hcd; cases hcd; exact absurd hp hpc
        · obtain ⟨j, hj⟩ := ih (k + 1) (fun z hz => h1 z (by simp [hz])) ⟨y, hy, ab, hab, hp⟩
          exact ⟨j, by simp [hpc, hj]⟩

/-! ## The main loop -/

theorem fixLoop_perm {first : El} : ∀ (n it : Nat) (last : El) (lc : List El) (r : Bool) (lc' : List El),
    fixLoop T first n it last lc = some (r, lc') → lc'.Perm lc := by
  intro n
  induction n with
  | zero =>
    intro it last lc r lc' h
    unfold fixLoop at h
    split at h
    · cases h
    · split at h <;> cases h <;> exact .refl _
  | succ n ih =>
    intro it last lc r lc' h
    unfold fixLoop at h
    split at h
    · cases h
    next e he =>
    split at h
    · exact ih _ _ _ _ _ h
    split at h
    · cases h; exact .refl _
    split at h
    · exact ih _ _ _ _ _ h
    split at h
    · exact ih _ _ _ _ _ h
    split at h
    · cases h; exact .refl _
    next j hj =>
    split at h
    · cases h
    next lc1 hs =>
    obtain ⟨h1, e', ab, h2, -⟩ := search_some _ _ _ hj
    rw [List.getElem?_drop, show it + 1 + (j - (it + 1)) = j by omega] at h2
    have hp := (swapAt_spec he h2 (by omega) hs).1
    split at h
    · cases h
    split at h
    · exact (ih _ _ _ _ _ h).trans hp
    · exact (ih _ _ _ _ _ h).trans hp

theorem fixLoop_total {first : El} : ∀ (n it : Nat) (last : El) (lc : List El),
    it + n + 1 = lc.length → ∃ r lc', fixLoop T first n it last lc = some (r, lc') := by
  intro n
  induction n with
  | zero =>
    intro it last lc h
    unfold fixLoop
    rw [List.getElem?_eq_getElem (by omega)]
    simp only
    cases hends : ends T lc[it] with
    | none => exact ⟨false, lc, rfl⟩
    | some p => exact ⟨_, lc, rfl⟩
  | succ n ih =>
    intro it last lc h
    unfold fixLoop
    have he : lc[it]? = some lc[it] := List.getElem?_eq_getElem (by omega)
    rw [he]
    simp only
    cases hid : T.hid lc[it] with
    | true => exact ih _ _ _ (by omega)
    | false =>
      cases hends : ends T lc[it] with
      | none => exact ⟨_, _, rfl⟩
      | some cd =>
        simp only [Bool.false_eq_true, if_false]
        split
        · exact ih _ _ _ (by omega)
        split
        · exact ih _ _ _ (by omega)
        cases hj : search T (touches last) (lc.drop (it + 1)) (it + 1) with
        | none => exact ⟨_, _, rfl⟩
        | some j =>
          obtain ⟨h1, e', ab, h2, h3, h4, h5⟩ := search_some _ _ _ hj
          rw [List.getElem?_drop, show it + 1 + (j - (it + 1)) = j by omega] at h2
          obtain ⟨lc1, hs⟩ := swapAt_isSome he h2
          obtain ⟨p1, p2, p3, -⟩ := swapAt_spec he h2 (by omega) hs
          simp only [hs, p3, Option.bind_some, h4]
          have hl := p1.length_eq
          split
          · exact ih _ _ _ (by omega)
          · exact ih _ _ _ (by omega)

/-- The last entry is visible after a swap of visible entries. -/
theorem swap_last {lc lc1 : List El} {it j k : Nat} {e e' : El} (he : lc[it]? = some e)
    (hj : lc[j]? = some e') (hij : it < j) (hs : swapAt lc it j = some lc1) (hk : it < k)
    (h1 : T.hid e = false) (hl : ∀ x, lc[k]? = some x → T.hid x = false) :
    ∀ x, lc1[k]? = some x → T.hid x = false := by
  obtain ⟨-, -, -, p4, p5⟩ := swapAt_spec he hj hij hs
  intro x hx
  by_cases hkj : k = j
  · subst hkj; rw [p4] at hx; cases hx; exact h1
  · rw [p5 k (by omega) hkj] at hx; exact hl x hx

theorem fixLoop_sound {first : El} : ∀ (n it : Nat) (last : El) (lc lc' ns : List El),
    it + n + 1 = lc.length → (∀ x, lc[it + n]? = some x → T.hid x = false) →
    Path T first (vis T (lc.take it)) ns last →
    fixLoop T first n it last lc = some (true, lc') →
    ∃ ns', Path T first (vis T lc') ns' first := by
  intro n
  induction n with
  | zero =>
    intro it last lc lc' ns hl hv hp h
    unfold fixLoop at h
    split at h
    · cases h
    next e he =>
    split at h
    · cases h
    next c d hcd =>
    simp only [Option.some.injEq, Prod.mk.injEq, decide_eq_true_eq] at h
    obtain ⟨hc, rfl⟩ := h
    have hve := hv e he
    have hj : Joins T e last first := by
      rcases hc with ⟨rfl, rfl⟩ | ⟨rfl, rfl⟩
      · exact ends_joins hcd
      · exact (ends_joins hcd).symm
    refine ⟨ns ++ [last], ?_⟩
    have := take_vis (T := T) he
    rw [show it + 1 = lc.length by omega, List.take_length, vis_cons_vis hve] at this
    rw [this]
    exact hp.append (.cons hj (.nil _))
  | succ n ih =>
    intro it last lc lc' ns hl hv hp h
    unfold fixLoop at h
    split at h
    · cases h
    next e he =>
    have hstep : ∀ (m : El) (lc1 : List El) (e1 : El), lc1.length = lc.length → lc1[it]? = some e1 →
        T.hid e1 = false → lc1.take it = lc.take it → Joins T e1 last m →
        (∀ x, lc1[it + (n + 1)]? = some x → T.hid x = false) →
        fixLoop T first n (it + 1) m lc1 = some (true, lc') →
        ∃ ns', Path T first (vis T lc') ns' first := by
      intro m lc1 e1 h1 h2 h3 h4 h5 h6 h7
      refine ih (it + 1) m lc1 lc' (ns ++ [last]) (by omega)
        (by rw [show it + 1 + n = it + (n + 1) by omega]; exact h6) ?_ h7
      rw [take_vis h2, h4, vis_cons_vis h3]
      exact hp.append (.cons h5 (.nil _))
    split at h
    next hid =>
      refine ih (it + 1) last lc lc' ns (by omega)
        (by rw [show it + 1 + n = it + (n + 1) by omega]; exact hv) ?_ h
      rw [take_vis he, vis_cons_hid hid]
      simpa [vis] using hp
    next hid =>
    have hid : T.hid e = false := by simpa using hid
    split at h
    · cases h
    next c d hcd =>
    split at h
    next hc => subst hc; exact hstep d lc e rfl he hid rfl (ends_joins hcd) hv h
    split at h
    next hd => subst hd; exact hstep c lc e rfl he hid rfl (ends_joins hcd).symm hv h
    split at h
    · cases h
    next j hj =>
    split at h
    · cases h
    next lc1 hs =>
    obtain ⟨h1, e', ab, h2, h3, h4, h5⟩ := search_some _ _ _ hj
    rw [List.getElem?_drop, show it + 1 + (j - (it + 1)) = j by omega] at h2
    obtain ⟨p1, p2, p3, p4, p5⟩ := swapAt_spec he h2 (by omega) hs
    have hlast := swap_last he h2 (by omega) hs (k := it + (n + 1)) (by omega) hid hv
    rw [p3, Option.bind_some, h4] at h
    obtain ⟨c', d'⟩ := ab
    simp only at h
    simp only [touches, Bool.or_eq_true, decide_eq_true_eq] at h5
    split at h
    next hc =>
      subst hc
      exact hstep d' lc1 e' p1.length_eq p3 h3 p2 (ends_joins h4) hlast h
    next hc =>
      have hd : last = d' := by tauto
      subst hd
      exact hstep c' lc1 e' p1.length_eq p3 h3 p2 (ends_joins h4).symm hlast h

theorem fixLoop_complete {first : El} : ∀ (n it : Nat) (last : El) (lc ns1 rest ns2 : List El),
    it + n + 1 = lc.length → (∀ x, lc[it + n]? = some x → T.hid x = false) →
    Path T last rest ns2 first → first ∈ ns1 → (ns1 ++ ns2).Nodup →
    rest.Perm (vis T (lc.drop it)) → Path T first (vis T (lc.take it)) ns1 last →
    ∃ lc', fixLoop T first n it last lc = some (true, lc') ∧
      ∃ ns', Path T first (vis T lc') ns' first ∧ ns'.Nodup := by
  intro n
  induction n with
  | zero =>
    intro it last lc ns1 rest ns2 hl hv hp hf hnd hpm hdone
    have he : lc[it]? = some lc[it] := List.getElem?_eq_getElem (by omega)
    have hve := hv _ he
    rw [drop_cons he, List.drop_eq_nil_of_le (by omega), vis_cons_vis hve] at hpm
    have hr : rest = [lc[it]] := List.perm_singleton.1 hpm
    subst hr
    unfold fixLoop
    rw [he]
    cases hp with
    | cons hj hp' =>
      cases hp' with
      | nil =>
        refine ⟨lc, by rcases hj.ends with h | h <;> simp [h], ns1 ++ [last], ?_, hnd⟩
        have := take_vis (T := T) he
        rw [show it + 1 = lc.length by omega, List.take_length, vis_cons_vis hve] at this
        rw [this]
        exact hdone.append (.cons hj (.nil _))
  | succ n ih =>
    intro it last lc ns1 rest ns2 hl hv hp hf hnd hpm hdone
    have he : lc[it]? = some lc[it] := List.getElem?_eq_getElem (by omega)
    unfold fixLoop
    rw [he]
    generalize hee : lc[it] = e at *
    simp only
    have hshift : it + 1 + n = it + (n + 1) := by omega
    cases hid : T.hid e with
    | true =>
      simp only [if_true]
      refine ih (it + 1) last lc ns1 rest ns2 (by omega) (by rw [hshift]; exact hv) hp hf hnd ?_ ?_
      · rw [drop_cons he, vis_cons_hid hid] at hpm
        exact hpm
      · rw [take_vis he, vis_cons_hid hid]
        simpa [vis] using hdone
    | false =>
      simp only [Bool.false_eq_true, if_false]
      -- the next edge of the loop
      have hein : e ∈ rest := by
        rw [hpm.mem_iff, drop_cons he, vis_cons_vis hid]; simp
      cases hp with
      | nil => cases hein
      | @cons e' _ m _ rest' ns2' hj hp' =>
      have hnl : last ∉ ns1 ∧ last ∉ ns2' := by
        rw [List.nodup_append] at hnd
        refine ⟨fun h => hnd.2.2 last h last (by simp) rfl, ?_⟩
        exact (List.nodup_cons.1 hnd.2.1).1
      have hne : last ≠ first := fun h => hnl.1 (h ▸ hf)
      have huniq : ∀ x ∈ e' :: rest', ∀ p, ends T x = some p → touches last p = true → x = e' := by
        intro x hx p hxp ht
        rcases List.mem_cons.1 hx with h | hx
        · exact h
        · exfalso
          obtain ⟨u, v, h1, h2, h3⟩ := hp'.mem hx
          rcases (h1.touch hxp).1 ht with rfl | rfl
          · exact hnl.2 h2
          · rcases List.mem_append.1 h3 with h3 | h3
            · exact hnl.2 h3
            · exact hne (by simpa using h3)
      have hends : ∀ x ∈ e' :: rest', ∃ ab, ends T x = some ab := by
        intro x hx
        rcases List.mem_cons.1 hx with rfl | hx
        · rcases hj.ends with h | h <;> exact ⟨_, h⟩
        · obtain ⟨u, v, h1, -⟩ := hp'.mem hx
          rcases h1.ends with h | h <;> exact ⟨_, h⟩
      have hnd' : ((ns1 ++ [last]) ++ ns2').Nodup := by simpa using hnd
      have hf' : first ∈ ns1 ++ [last] := by simp [hf]
      have hstep : ∀ (lc1 : List El), lc1.length = lc.length → lc1[it]? = some e' →
          T.hid e' = false → (vis T (lc1.drop it)).Perm (vis T (lc.drop it)) →
          (∀ x, lc1[it + (n + 1)]? = some x → T.hid x = false) →
          lc1.take it = lc.take it →
          ∃ lc', fixLoop T first n (it + 1) m lc1 = some (true, lc') ∧
            ∃ ns', Path T first (vis T lc') ns' first ∧ ns'.Nodup := by
        intro lc1 h1 h2 h3 h4 h5 h6
        refine ih (it + 1) m lc1 (ns1 ++ [last]) rest' ns2' (by omega) (by rw [hshift]; exact h5) hp'
          hf' hnd' ?_ ?_
        · have := hpm.trans h4.symm
          rw [drop_cons h2, vis_cons_vis h3] at this
          exact (List.perm_cons _).1 this
        · rw [take_vis h2, h6, vis_cons_vis h3]
          exact hdone.append (.cons hj (.nil _))
      obtain ⟨⟨c, d⟩, hcd⟩ := hends e hein
      rw [hcd]
      simp only
      by_cases ht : touches last (c, d) = true
      · have heq := huniq e hein _ hcd ht
        rw [heq] at hcd hid he
        have ho := other_eq hj hcd
        simp only [touches, Bool.or_eq_true, decide_eq_true_eq] at ht
        by_cases hc : last = c
        · rw [if_pos hc] at ho ⊢
          subst ho
          exact hstep lc rfl he hid (.refl _) hv rfl
        · have hd : last = d := by tauto
          rw [if_neg hc] at ho ⊢
          rw [if_pos hd]
          subst ho
          exact hstep lc rfl he hid (.refl _) hv rfl
      · simp only [touches, Bool.or_eq_true, decide_eq_true_eq, not_or] at ht
        rw [if_neg ht.1, if_neg ht.2]
        have hmem' : ∀ x ∈ vis T (lc.drop (it + 1)), x ∈ e' :: rest' := by
          intro x hx
          rw [hpm.mem_iff, drop_cons he, vis_cons_vis hid]; simp [hx]
        obtain ⟨p', hp'e⟩ := hends e' (by simp)
        have ht' : touches last p' = true := (hj.touch hp'e).2 (Or.inl rfl)
        have hne' : e' ≠ e := by
          rintro rfl
          rw [hp'e] at hcd; cases hcd
          simp only [touches, Bool.or_eq_true, decide_eq_true_eq] at ht'
          tauto
        have hin' : e' ∈ vis T (lc.drop (it + 1)) := by
          have : e' ∈ vis T (lc.drop it) := hpm.mem_iff.1 (by simp)
          rw [drop_cons he, vis_cons_vis hid] at this
          exact (List.mem_cons.1 this).resolve_left hne'
        obtain ⟨j, hjs⟩ := search_isSome (p := touches last) (lc.drop (it + 1)) (it + 1)
          (fun x hx => hends x (hmem' x hx)) ⟨e', hin', p', hp'e, ht'⟩
        rw [hjs]
        simp only
        obtain ⟨h1, ej, ab, h2, h3, h4, h5⟩ := search_some _ _ _ hjs
        have hejm : ej ∈ vis T (lc.drop (it + 1)) := mem_vis.2 ⟨List.mem_of_getElem? h2, h3⟩
        rw [List.getElem?_drop, show it + 1 + (j - (it + 1)) = j by omega] at h2
        have heq := huniq ej (hmem' ej hejm) ab h4 h5
        subst heq
        obtain ⟨lc1, hs⟩ := swapAt_isSome he h2
        obtain ⟨p1, p2, p3, p4, p5⟩ := swapAt_spec he h2 (by omega) hs
        rw [hs]
        simp only [p3, Option.bind_some, h4]
        obtain ⟨c', d'⟩ := ab
        have hlast := swap_last he h2 (by omega) hs (k := it + (n + 1)) (by omega) hid hv
        have hdp : (vis T (lc1.drop it)).Perm (vis T (lc.drop it)) := by
          apply vis_perm
          have := p1
          rw [← List.take_append_drop it lc1, ← List.take_append_drop it lc, p2] at this
          exact (List.perm_append_left_iff _).1 this
        have ho := other_eq hj h4
        simp only
        by_cases hc : last = c'
        · rw [if_pos hc] at ho ⊢
          subst ho
          exact hstep lc1 p1.length_eq p3 h3 hdp hlast p2
        · rw [if_neg hc] at ho ⊢
          subst ho
          exact hstep lc1 p1.length_eq p3 h3 hdp hlast p2

end Verif.EdgeLoop
