import Verif.Adjacency.Spec
import Verif.EdgeLoop.Nodes
import Verif.Topology.ReachInv

/-! # Lemmas for C94 -/

namespace Verif.Adjacency
open Verif.Topology Verif.EdgeLoop

/-- What is known of a state reached from `T`. -/
structure Keeps (T : Topo) (A : Adj) : Prop where
  cn : A.T.cn = T.cn
  alive : A.T.alive = T.alive
  last : A.T.last = T.last
  hide : A.T.hide = T.hide
  hidden : A.T.hidden = T.hidden
  low : ∀ x, A.lo x.ty = true → (A.T.low x).Perm (T.low x)
  high : ∀ x, A.up x.ty = true → (A.T.high x).Perm (T.high x)
  noLow : ∀ x, A.lo x.ty = false → A.T.low x = []
  noHigh : ∀ x, A.up x.ty = false → A.T.high x = []
  one : ∀ t, t < 3 → A.up t = true ∨ A.lo (t + 1) = true
  up3 : ∀ t, 3 ≤ t → A.up t = T.cn
  lo0 : A.lo 0 = T.cn
  loBig : ∀ t, 3 < t → A.lo t = true

variable {T : Topo} {A A' : Adj}

theorem keeps_full (I : Inv T fun _ => False) : Keeps T (Adj.full T) := by
  refine ⟨rfl, rfl, rfl, rfl, rfl, fun _ _ => .refl _, fun _ _ => .refl _, ?_, ?_, ?_, ?_, ?_, ?_⟩
  · intro x h
    simp only [Adj.full, Bool.or_eq_false_iff, decide_eq_false_iff_not] at h ⊢
    refine List.eq_nil_iff_forall_not_mem.2 fun y hy => ?_
    have := (I.lowTy x y hy).2 (by omega)
    rw [h.2] at this; cases this.1
  · intro x h
    simp only [Adj.full, Bool.or_eq_false_iff, decide_eq_false_iff_not] at h ⊢
    refine List.eq_nil_iff_forall_not_mem.2 fun y hy => ?_
    have hl := (I.mem (fun h => h)).2 hy
    have hlv := I.tyLe y (I.lowLive hl).2
    have h0 := I.lowTy y x hl
    by_cases h1 : y.ty = 0
    · have := (h0.2 h1).1; rw [h.2] at this; cases this
    · have := h0.1 h1; omega
  · intro t ht; left; simp [Adj.full, ht]
  · intro t ht; simp [Adj.full, Nat.not_lt.2 ht]
  · simp [Adj.full]
  · intro t ht; simp only [Adj.full, Bool.or_eq_true, decide_eq_true_eq]; left; omega

theorem anyTy_false {p : Nat → Bool} (h : anyTy p = false) {t : Nat} (ht : t ≤ 3) : p t = false := by
  simp only [anyTy, Bool.or_eq_false_iff] at h
  obtain ⟨⟨⟨a, b⟩, c⟩, d⟩ := h
  match t, ht with
  | 0, _ => exact a
  | 1, _ => exact b
  | 2, _ => exact c
  | 3, _ => exact d

theorem allTy_iff {p : Nat → Bool} : allTy p = true ↔ ∀ t, t ≤ 3 → p t = true := by
  constructor
  · intro h t ht
    simp only [allTy, Bool.and_eq_true] at h
    obtain ⟨⟨⟨a, b⟩, c⟩, d⟩ := h
    match t, ht with
    | 0, _ => exact a
    | 1, _ => exact b
    | 2, _ => exact c
    | 3, _ => exact d
  · intro h
    simp [allTy, h]

theorem keeps_removeUpper (K : Keeps T A) {m : Nat → Bool} (e : A.removeUpper m = some A') : Keeps T A' := by
  rw [Adj.removeUpper] at e
  split at e
  · split at e
    · rename_i h
      rw [allTy_iff] at h
      cases e
      refine ⟨K.cn, K.alive, K.last, K.hide, K.hidden, K.low, ?_, K.noLow, ?_, ?_, ?_, K.lo0, K.loBig⟩
      · intro x hx
        simp only [Bool.and_eq_true, Bool.not_eq_true', Bool.and_eq_false_iff, decide_eq_false_iff_not] at hx
        change (if x.ty < 3 ∧ m x.ty = true then [] else A.T.high x).Perm _
        rw [if_neg]
        · exact K.high x hx.1
        · rintro ⟨h1, h2⟩
          rcases hx.2 with h3 | h3
          · exact h3 h1
          · rw [h2] at h3; cases h3
      · intro x hx
        simp only at hx ⊢
        split
        · rfl
        · rename_i hn
          refine K.noHigh x ?_
          cases hu : A.up x.ty with
          | false => rfl
          | true =>
            rw [hu] at hx
            simp only [Bool.true_and, Bool.not_eq_false', Bool.and_eq_true, decide_eq_true_eq] at hx
            exact absurd hx hn
      · intro t ht
        by_cases hm : m t = true
        · right
          have := h t (by omega)
          simpa [hm, ht] using this
        · rcases K.one t ht with h1 | h1
          · left; simp [h1, Bool.eq_false_iff.2 hm]
          · exact .inr h1
      · intro t ht
        simp only [← K.up3 t ht]
        have : decide (t < 3) = false := by simpa using ht
        rw [this]; simp
    · cases e
  · cases e; exact K

theorem keeps_removeLower (K : Keeps T A) {m : Nat → Bool} (e : A.removeLower m = some A') : Keeps T A' := by
  rw [Adj.removeLower] at e
  split at e
  · split at e
    · rename_i h
      rw [allTy_iff] at h
      cases e
      refine ⟨K.cn, K.alive, K.last, K.hide, K.hidden, ?_, K.high, ?_, K.noHigh, ?_, K.up3, ?_, ?_⟩
      · intro x hx
        simp only [Bool.and_eq_true, Bool.not_eq_true', Bool.and_eq_false_iff, decide_eq_false_iff_not] at hx
        change (if (0 < x.ty ∧ x.ty ≤ 3) ∧ m x.ty = true then [] else A.T.low x).Perm _
        rw [if_neg]
        · exact K.low x hx.1
        · rintro ⟨h1, h2⟩
          rcases hx.2 with h3 | h3
          · exact h3 h1
          · rw [h2] at h3; cases h3
      · intro x hx
        simp only at hx ⊢
        split
        · rfl
        · rename_i hn
          refine K.noLow x ?_
          cases hu : A.lo x.ty with
          | false => rfl
          | true =>
            rw [hu] at hx
            simp only [Bool.true_and, Bool.not_eq_false', Bool.and_eq_true, decide_eq_true_eq] at hx
            exact absurd hx hn
      · intro t ht
        by_cases hm : m (t + 1) = true
        · left
          have := h (t + 1) (by omega)
          simpa [hm] using this
        · rcases K.one t ht with h1 | h1
          · exact .inl h1
          · right; simp [h1, Bool.eq_false_iff.2 hm]
      · simp [K.lo0]
      · intro t ht
        have : ¬ t ≤ 3 := by omega
        simp [K.loBig t ht, this]
    · cases e
  · cases e; exact K

/-! ## Restoring -/

theorem each_append {α : Type} {f : Adj → α → Option Adj} : ∀ (l l' : List α) (A A1 : Adj),
    each f l A = some A1 → each f (l ++ l') A = each f l' A1
  | [], l', A, A1, e => by cases e; rfl
  | x :: l, l', A, A1, e => by
    rw [each] at e
    rw [List.cons_append, each]
    cases h : f A x with
    | none => rw [h] at e; cases e
    | some A2 => rw [h] at e; exact each_append l l' A2 A1 e

/-- The state with other upper lists. -/
def Adj.withHigh (A : Adj) (g : El → List El) : Adj := { A with T := { A.T with high := g } }

def Adj.withLow (A : Adj) (g : El → List El) : Adj := { A with T := { A.T with low := g } }

theorem pushesHigh (me : El) : ∀ (l : List El) (A : Adj), (∀ x ∈ l, A.T.alive x = true ∧ A.up x.ty = true) →
    each (Adj.pushHigh me) l A = some (A.withHigh fun x => A.T.high x ++ List.replicate (l.count x) me)
  | [], A, _ => by simp [each, Adj.withHigh]
  | y :: l, A, h => by
    rw [each, Adj.pushHigh, if_pos (h y (List.mem_cons_self ..))]
    refine (pushesHigh me l (A.withHigh (set1 A.T.high y (A.T.high y ++ [me])))
      fun x hx => h x (List.mem_cons_of_mem _ hx)).trans ?_
    simp only [Adj.withHigh, Option.some.injEq, Adj.mk.injEq, Topo.mk.injEq, true_and, and_true]
    refine funext fun x => ?_
    rw [List.count_cons]
    by_cases e : y = x
    · subst e
      simp only [set1_same, BEq.rfl, if_true, List.append_assoc, List.singleton_append,
        List.replicate_succ]
    · rw [set1_ne _ _ (fun h => e h.symm)]
      simp [e]

theorem pushesLow (me : El) : ∀ (l : List El) (A : Adj), (∀ x ∈ l, A.T.alive x = true ∧ A.lo x.ty = true) →
    each (Adj.pushLow me) l A = some (A.withLow fun x => A.T.low x ++ List.replicate (l.count x) me)
  | [], A, _ => by simp [each, Adj.withLow]
  | y :: l, A, h => by
    rw [each, Adj.pushLow, if_pos (h y (List.mem_cons_self ..))]
    refine (pushesLow me l (A.withLow (set1 A.T.low y (A.T.low y ++ [me])))
      fun x hx => h x (List.mem_cons_of_mem _ hx)).trans ?_
    simp only [Adj.withLow, Option.some.injEq, Adj.mk.injEq, Topo.mk.injEq, true_and, and_true]
    refine funext fun x => ?_
    rw [List.count_cons]
    by_cases e : y = x
    · subst e
      simp only [set1_same, BEq.rfl, if_true, List.append_assoc, List.singleton_append,
        List.replicate_succ]
    · rw [set1_ne _ _ (fun h => e h.symm)]
      simp [e]

/-- The list of the elements of type `ty` with numbers in `ids` that list `x`, each as often as it
does. -/
def gathered (alive : El → Bool) (conn : El → List El) (ty : Nat) (ids : List Nat) (x : El) : List El :=
  ids.flatMap fun i => if alive ⟨ty, i⟩ then List.replicate ((conn ⟨ty, i⟩).count x) ⟨ty, i⟩ else []

theorem linksUp (ty : Nat) : ∀ (ids : List Nat) (A : Adj), A.lo ty = true →
    (∀ b a, a ∈ A.T.low b → b.ty = ty → A.T.alive a = true ∧ A.up a.ty = true) →
    each (Adj.linkUp ty) ids A
      = some (A.withHigh fun x => A.T.high x ++ gathered A.T.alive A.T.low ty ids x)
  | [], A, _, _ => by simp [each, Adj.withHigh, gathered]
  | i :: ids, A, hl, h => by
    rw [each, Adj.linkUp]
    by_cases ha : A.T.alive ⟨ty, i⟩ = true
    · rw [if_pos ha, if_pos hl, pushesHigh _ _ _ fun x hx => h ⟨ty, i⟩ x hx rfl]
      refine (linksUp ty ids (A.withHigh fun x => A.T.high x ++ List.replicate ((A.T.low ⟨ty, i⟩).count x) ⟨ty, i⟩)
        hl h).trans ?_
      simp only [Adj.withHigh, Option.some.injEq, Adj.mk.injEq, Topo.mk.injEq, true_and, and_true]
      refine funext fun x => ?_
      simp only [gathered, List.flatMap_cons, ha, if_true, List.append_assoc]
    · rw [if_neg ha]
      refine (linksUp ty ids A hl h).trans ?_
      simp only [gathered, List.flatMap_cons, if_neg ha, List.nil_append]

theorem linksLow (ty : Nat) : ∀ (ids : List Nat) (A : Adj), A.up ty = true →
    (∀ b a, a ∈ A.T.high b → b.ty = ty → A.T.alive a = true ∧ A.lo a.ty = true) →
    each (Adj.linkLow ty) ids A
      = some (A.withLow fun x => A.T.low x ++ gathered A.T.alive A.T.high ty ids x)
  | [], A, _, _ => by simp [each, Adj.withLow, gathered]
  | i :: ids, A, hl, h => by
    rw [each, Adj.linkLow]
    by_cases ha : A.T.alive ⟨ty, i⟩ = true
    · rw [if_pos ha, if_pos hl, pushesLow _ _ _ fun x hx => h ⟨ty, i⟩ x hx rfl]
      refine (linksLow ty ids (A.withLow fun x => A.T.low x ++ List.replicate ((A.T.high ⟨ty, i⟩).count x) ⟨ty, i⟩)
        hl h).trans ?_
      simp only [Adj.withLow, Option.some.injEq, Adj.mk.injEq, Topo.mk.injEq, true_and, and_true]
      refine funext fun x => ?_
      simp only [gathered, List.flatMap_cons, ha, if_true, List.append_assoc]
    · rw [if_neg ha]
      refine (linksLow ty ids A hl h).trans ?_
      simp only [gathered, List.flatMap_cons, if_neg ha, List.nil_append]

theorem count_gathered {alive : El → Bool} {conn : El → List El} {ty : Nat} (x b : El) : ∀ {ids : List Nat},
    ids.Nodup → (gathered alive conn ty ids x).count b
      = if b.ty = ty ∧ b.id ∈ ids ∧ alive b = true then (conn b).count x else 0
  | [], _ => by simp [gathered]
  | i :: ids, hn => by
    rw [List.nodup_cons] at hn
    have ih := count_gathered (alive := alive) (conn := conn) (ty := ty) x b hn.2
    have e : gathered alive conn ty (i :: ids) x
        = (if alive ⟨ty, i⟩ then List.replicate ((conn ⟨ty, i⟩).count x) ⟨ty, i⟩ else [])
          ++ gathered alive conn ty ids x := by simp [gathered]
    rw [e, List.count_append, ih]
    by_cases hb : b = ⟨ty, i⟩
    · subst hb
      simp only [List.mem_cons, true_or, true_and, hn.1, false_and, if_false, Nat.add_zero]
      split
      · simp [List.count_replicate]
      · simp
    · have h0 : (if alive ⟨ty, i⟩ then List.replicate ((conn ⟨ty, i⟩).count x) (⟨ty, i⟩ : El) else []).count b = 0 := by
        split
        · rw [List.count_eq_zero]
          intro h
          exact hb (List.eq_of_mem_replicate h)
        · rfl
      rw [h0, Nat.zero_add]
      have hiff : (b.ty = ty ∧ b.id ∈ ids ∧ alive b = true) ↔ (b.ty = ty ∧ b.id ∈ i :: ids ∧ alive b = true) := by
        rw [List.mem_cons]
        constructor
        · rintro ⟨a, c, d⟩; exact ⟨a, .inr c, d⟩
        · rintro ⟨a, c | c, d⟩
          · exfalso; apply hb; cases b; simp_all
          · exact ⟨a, c, d⟩
      simp only [hiff]

theorem gathered_sorted {alive : El → Bool} {conn : El → List El} {ty : Nat} (x : El) : ∀ {ids : List Nat},
    ids.Pairwise (· < ·) → (gathered alive conn ty ids x).Pairwise (fun a b => a.id ≤ b.id)
  | [], _ => by simp [gathered]
  | i :: ids, hp => by
    rw [List.pairwise_cons] at hp
    have e : gathered alive conn ty (i :: ids) x
        = (if alive ⟨ty, i⟩ then List.replicate ((conn ⟨ty, i⟩).count x) ⟨ty, i⟩ else [])
          ++ gathered alive conn ty ids x := by simp [gathered]
    rw [e, List.pairwise_append]
    have hm : ∀ a ∈ (if alive ⟨ty, i⟩ then List.replicate ((conn ⟨ty, i⟩).count x) (⟨ty, i⟩ : El) else []),
        a = ⟨ty, i⟩ := by
      intro a ha
      split at ha
      · exact List.eq_of_mem_replicate ha
      · simp at ha
    refine ⟨?_, gathered_sorted x hp.2, ?_⟩
    · split
      · exact List.pairwise_replicate.2 (.inr (Nat.le_refl _))
      · exact List.Pairwise.nil
    · intro a ha b hb
      rw [hm a ha]
      simp only [gathered, List.mem_flatMap] at hb
      obtain ⟨j, hj, hb⟩ := hb
      split at hb
      · rw [List.eq_of_mem_replicate hb]; exact Nat.le_of_lt (hp.1 j hj)
      · simp at hb

theorem gathered_nil {alive : El → Bool} {conn : El → List El} {ty : Nat} {ids : List Nat} {x : El}
    (h : ∀ i, x ∉ conn ⟨ty, i⟩) : gathered alive conn ty ids x = [] := by
  refine List.eq_nil_iff_forall_not_mem.2 fun b hb => ?_
  simp only [gathered, List.mem_flatMap] at hb
  obtain ⟨i, _, hb⟩ := hb
  split at hb
  · have := (List.mem_replicate.1 hb).1
    rw [List.count_eq_zero.2 (h i)] at this; exact this rfl
  · simp at hb

/-- Upper lists restored from lower lists that agree with `T`. -/
theorem gathered_high (I : Inv T fun _ => False) {low : El → List El} {ty : Nat} (hty : 0 < ty) (hty3 : ty ≤ 3)
    (hlow : ∀ b, b.ty = ty → (low b).Perm (T.low b)) {x : El} (hx : x.ty + 1 = ty) :
    (gathered T.alive low ty (List.range (T.last ty)) x).Perm (T.high x) := by
  rw [List.perm_iff_count]
  intro b
  rw [count_gathered x b List.nodup_range, ← I.mirror x b (fun h => h)]
  split
  · rename_i h; exact (hlow b h.1).count_eq x
  · rename_i h
    symm
    rw [List.count_eq_zero]
    intro hm
    apply h
    have hb := (I.lowLive hm).2
    have ht := I.lowTy b x hm
    have hbt : b.ty = ty := by
      by_cases h0 : b.ty = 0
      · have := (ht.2 h0).2; omega
      · have := ht.1 h0; omega
    exact ⟨hbt, List.mem_range.2 (hbt ▸ I.lastLt b hb), hb⟩

theorem gathered_low (I : Inv T fun _ => False) {high : El → List El} {ty : Nat} (hty : ty < 3)
    (hhigh : ∀ b, b.ty = ty → (high b).Perm (T.high b)) {x : El} (hx : x.ty = ty + 1) :
    (gathered T.alive high ty (List.range (T.last ty)) x).Perm (T.low x) := by
  rw [List.perm_iff_count]
  intro b
  rw [count_gathered x b List.nodup_range, I.mirror b x (fun h => h)]
  split
  · rename_i h; exact (hhigh b h.1).count_eq x
  · rename_i h
    symm
    rw [List.count_eq_zero]
    intro hm
    apply h
    have hl := (I.mem (fun h => h)).2 hm
    have hb := (I.lowLive hl).1
    have ht := (I.lowTy x b hl).1 (by omega)
    have hbt : b.ty = ty := by omega
    exact ⟨hbt, List.mem_range.2 (hbt ▸ I.lastLt b hb), hb⟩

/-- During a restoration: types in `done` are restored. -/
structure Part (T : Topo) (A0 A : Adj) (m : Nat → Bool) (done : Nat → Bool) : Prop where
  cn : A.T.cn = T.cn
  alive : A.T.alive = T.alive
  last : A.T.last = T.last
  hide : A.T.hide = T.hide
  hidden : A.T.hidden = T.hidden
  low : A.T.low = A0.T.low
  lo : A.lo = A0.lo
  up : A.up = fun t => A0.up t || (decide (t < 3) && m t)
  old : ∀ x, ¬ (x.ty < 3 ∧ m x.ty = true ∧ A0.up x.ty = false ∧ done x.ty = true) → A.T.high x = A0.T.high x
  new : ∀ x, x.ty < 3 → m x.ty = true → A0.up x.ty = false → done x.ty = true →
    A.T.high x = gathered T.alive A0.T.low (x.ty + 1) (List.range (T.last (x.ty + 1))) x

theorem part_step (I : Inv T fun _ => False) {A0 : Adj} (K : Keeps T A0) {m done : Nat → Bool} (P : Part T A0 A m done)
    {ty : Nat} (h1 : 0 < ty) (h3 : ty ≤ 3) (hd : done (ty - 1) = false) :
    ∃ A', A.upType m A0.up ty = some A' ∧ Part T A0 A' m (fun t => if t = ty - 1 then true else done t) := by
  rw [Adj.upType]
  by_cases hc : m (ty - 1) = true ∧ A0.up (ty - 1) = false
  · obtain ⟨hm, hu⟩ := hc
    rw [if_pos (by simp [hm, hu])]
    have hlo : A0.lo ty = true := by
      rcases K.one (ty - 1) (by omega) with h | h
      · rw [hu] at h; cases h
      · rw [show ty = ty - 1 + 1 by omega]; exact h
    have hlow : ∀ b, b.ty = ty → (A0.T.low b).Perm (T.low b) := fun b hb => K.low b (hb ▸ hlo)
    have hin : ∀ b a, a ∈ A0.T.low b → b.ty = ty → T.alive a = true ∧ a.ty = ty - 1 := by
      intro b a ha hb
      have ha' := (hlow b hb).mem_iff.1 ha
      have := (I.lowTy b a ha').1 (by omega)
      exact ⟨(I.lowLive ha').1, by omega⟩
    have e := linksUp ty (List.range (A.T.last ty)) A (by rw [P.lo]; exact hlo) (by
      intro b a ha hb
      rw [P.low] at ha
      obtain ⟨q1, q2⟩ := hin b a ha hb
      rw [P.alive, P.up]
      refine ⟨q1, ?_⟩
      simp only [q2, hm, Bool.and_true, Bool.or_eq_true, decide_eq_true_eq]
      right; omega)
    refine ⟨_, e, P.cn, P.alive, P.last, P.hide, P.hidden, P.low, P.lo, P.up, ?_, ?_⟩
    · intro x hx
      simp only [Adj.withHigh]
      rw [P.alive, P.low]
      by_cases hxt : x.ty = ty - 1
      · exfalso
        apply hx
        rw [hxt]
        exact ⟨by omega, hm, hu, if_pos rfl⟩
      · rw [gathered_nil, List.append_nil]
        · apply P.old
          intro h
          apply hx
          rw [if_neg hxt]
          exact h
        · intro i hmem
          exact hxt (hin _ _ hmem rfl).2
    · intro x hx3 hxm hxu hxd
      simp only [Adj.withHigh]
      rw [P.alive, P.low, P.last]
      by_cases hxt : x.ty = ty - 1
      · have h0 : A.T.high x = [] := by
          rw [P.old x]
          · exact K.noHigh x hxu
          · rintro ⟨_, _, _, h⟩
            rw [hxt, hd] at h; cases h
        rw [h0, List.nil_append, show x.ty + 1 = ty by omega]
      · rw [gathered_nil, List.append_nil]
        · rw [if_neg hxt] at hxd
          exact P.new x hx3 hxm hxu hxd
        · intro i hmem
          exact hxt (hin _ _ hmem rfl).2
  · rw [if_neg (by simpa using hc)]
    refine ⟨A, rfl, P.cn, P.alive, P.last, P.hide, P.hidden, P.low, P.lo, P.up, ?_, ?_⟩
    · intro x hx
      apply P.old
      rintro ⟨q1, q2, q3, q4⟩
      apply hx
      refine ⟨q1, q2, q3, ?_⟩
      split
      · rfl
      · exact q4
    · intro x q1 q2 q3 q4
      by_cases hxt : x.ty = ty - 1
      · exact absurd ⟨hxt ▸ q2, hxt ▸ q3⟩ hc
      · rw [if_neg hxt] at q4
        exact P.new x q1 q2 q3 q4

/-- The three loops of `RestoreUpperAdjacencies`. -/
theorem upLoops (I : Inv T fun _ => False) (K : Keeps T A) (m : Nat → Bool) :
    ∃ A1 done, each (Adj.upType m A.up) [3, 2, 1] { A with up := fun t => A.up t || (decide (t < 3) && m t) } = some A1 ∧
      (∀ t, t < 3 → done t = true) ∧ Part T A A1 m done := by
  have P0 : Part T A { A with up := fun t => A.up t || (decide (t < 3) && m t) } m fun _ => false :=
    ⟨K.cn, K.alive, K.last, K.hide, K.hidden, rfl, rfl, rfl, fun _ _ => rfl, (fun _ _ _ _ h => (by cases h))⟩
  obtain ⟨A1, e1, P1⟩ := part_step I K P0 (ty := 3) (by omega) (by omega) rfl
  obtain ⟨A2, e2, P2⟩ := part_step I K P1 (ty := 2) (by omega) (by omega) rfl
  obtain ⟨A3, e3, P3⟩ := part_step I K P2 (ty := 1) (by omega) (by omega) rfl
  refine ⟨A3, _, ?_, ?_, P3⟩
  · simp only [each, e1, e2, e3]
  · intro t ht
    match t, ht with
    | 0, _ => rfl
    | 1, _ => rfl
    | 2, _ => rfl

theorem part_keeps (I : Inv T fun _ => False) {A0 : Adj} (K : Keeps T A0) {m done : Nat → Bool} (P : Part T A0 A m done)
    (hd : ∀ t, t < 3 → done t = true) : Keeps T A := by
  refine ⟨P.cn, P.alive, P.last, P.hide, P.hidden, ?_, ?_, ?_, ?_, ?_, ?_, ?_, ?_⟩
  · rw [P.low, P.lo]; exact K.low
  · intro x hx
    rw [P.up] at hx
    by_cases hu : A0.up x.ty = true
    · rw [P.old x (fun h => by rw [hu] at h; cases h.2.2.1)]; exact K.high x hu
    · simp only [hu, Bool.false_or, Bool.and_eq_true, decide_eq_true_eq] at hx
      have hu' : A0.up x.ty = false := Bool.eq_false_iff.2 hu
      rw [P.new x hx.1 hx.2 hu' (hd _ hx.1)]
      have hlo : A0.lo (x.ty + 1) = true := by
        rcases K.one x.ty hx.1 with h | h
        · exact absurd h hu
        · exact h
      exact gathered_high I (by omega) (by omega) (fun b hb => K.low b (hb ▸ hlo)) rfl
  · rw [P.low, P.lo]; exact K.noLow
  · intro x hx
    rw [P.up] at hx
    simp only [Bool.or_eq_false_iff, Bool.and_eq_false_iff, decide_eq_false_iff_not] at hx
    rw [P.old x]
    · exact K.noHigh x hx.1
    · rintro ⟨h1, h2, _, _⟩
      rcases hx.2 with h | h
      · exact h h1
      · rw [h2] at h; cases h
  · intro t ht
    rw [P.up, P.lo]
    rcases K.one t ht with h | h
    · left; simp [h]
    · exact .inr h
  · intro t ht
    rw [P.up]
    have : decide (t < 3) = false := by simpa using ht
    simp only [this, Bool.false_and, Bool.or_false]
    exact K.up3 t ht
  · rw [P.lo]; exact K.lo0
  · rw [P.lo]; exact K.loBig

/-- Reordering of connections that are kept. -/
theorem keeps_perm (K : Keeps T A) {T' : Topo} (h : PermEq A.T T') : Keeps T { A with T := T' } := by
  refine ⟨h.cn.trans K.cn, h.alive.trans K.alive, h.last.trans K.last, h.hide.trans K.hide, h.hidden.trans K.hidden,
    fun x hx => (h.low x).trans (K.low x hx), fun x hx => (h.high x).trans (K.high x hx), fun x hx => ?_, fun x hx => ?_,
    K.one, K.up3, K.lo0, K.loBig⟩
  · have := h.low x; rw [K.noLow x hx] at this; exact this.eq_nil
  · have := h.high x; rw [K.noHigh x hx] at this; exact this.eq_nil

theorem each_keeps {α : Type} {f : Adj → α → Option Adj}
    (hf : ∀ A A' x, Keeps T A → f A x = some A' → Keeps T A' ∧ A'.up = A.up ∧ A'.lo = A.lo) :
    ∀ (l : List α) (A A' : Adj), Keeps T A → each f l A = some A' → Keeps T A' ∧ A'.up = A.up ∧ A'.lo = A.lo
  | [], A, A', K, e => by cases e; exact ⟨K, rfl, rfl⟩
  | x :: l, A, A', K, e => by
    rw [each] at e
    cases h : f A x with
    | none => rw [h] at e; cases e
    | some A1 =>
      rw [h] at e
      obtain ⟨K1, u1, l1⟩ := hf A A1 x K h
      obtain ⟨K2, u2, l2⟩ := each_keeps hf l A1 A' K1 e
      exact ⟨K2, u2.trans u1, l2.trans l1⟩

theorem orientFace_keeps (flip : Topo → El → Bool) (A A' : Adj) (i : Nat) (K : Keeps T A)
    (e : A.orientFace flip i = some A') : Keeps T A' ∧ A'.up = A.up ∧ A'.lo = A.lo := by
  rw [Adj.orientFace] at e
  split at e
  · split at e
    · cases h : A.T.fixNormal flip ⟨2, i⟩ with
      | none => rw [h] at e; cases e
      | some T1 =>
        rw [h] at e
        cases e
        exact ⟨keeps_perm K (fixNormal_perm h), rfl, rfl⟩
    · cases e
  · cases e; exact ⟨K, rfl, rfl⟩

theorem fixEdgeOrder_perm {T T' : Topo} {f : El} {r : Bool} (e : fixEdgeOrder T f = some (r, T')) : PermEq T T' := by
  unfold fixEdgeOrder at e
  cases hl : T.lcOf f with
  | none => rw [hl] at e; cases e
  | some lc =>
    rw [hl] at e
    simp only at e
    cases hf : fixOrder T lc with
    | none => rw [hf] at e; cases e
    | some p =>
      obtain ⟨r', lc'⟩ := p
      rw [hf] at e
      simp only [Topo.modLow, hl, Option.map_some, Option.some.injEq, Prod.mk.injEq] at e
      obtain ⟨rfl, rfl⟩ := e
      refine ⟨rfl, rfl, rfl, rfl, rfl, fun x => ?_, fun _ => .refl _⟩
      by_cases hx : x = f
      · subst hx
        simp only [set1_same]
        rw [lcOf_some hl]
        exact fixOrder_perm hf
      · simp only [set1_ne _ _ hx]; exact .refl _

theorem fixFace_keeps (A A' : Adj) (i : Nat) (K : Keeps T A)
    (e : A.fixFace i = some A') : Keeps T A' ∧ A'.up = A.up ∧ A'.lo = A.lo := by
  rw [Adj.fixFace] at e
  split at e
  · split at e
    · split at e
      · cases e; exact ⟨K, rfl, rfl⟩
      · split at e
        · cases h : fixEdgeOrder A.T ⟨2, i⟩ with
          | none => rw [h] at e; cases e
          | some p =>
            rw [h] at e
            cases e
            exact ⟨keeps_perm K (fixEdgeOrder_perm (r := p.1) h), rfl, rfl⟩
        · cases e
    · cases e
  · cases e; exact ⟨K, rfl, rfl⟩

theorem keeps_restoreUpper (I : Inv T fun _ => False) (K : Keeps T A) {orient : Bool} {flip : Topo → El → Bool}
    {m : Nat → Bool} (e : A.restoreUpper orient flip m = some A') : Keeps T A' := by
  rw [Adj.restoreUpper] at e
  split at e
  · cases e; exact K
  · obtain ⟨A1, done, e1, hd, P⟩ := upLoops I K m
    rw [e1] at e
    have K1 := part_keeps I K P hd
    simp only at e
    split at e
    · exact (each_keeps (orientFace_keeps flip) _ _ _ K1 e).1
    · cases e; exact K1

/-! ## Lower connections -/

structure PartL (T : Topo) (A0 A : Adj) (m : Nat → Bool) (done : Nat → Bool) : Prop where
  cn : A.T.cn = T.cn
  alive : A.T.alive = T.alive
  last : A.T.last = T.last
  hide : A.T.hide = T.hide
  hidden : A.T.hidden = T.hidden
  high : A.T.high = A0.T.high
  up : A.up = A0.up
  lo : A.lo = fun t => A0.lo t || (decide (0 < t) && m t)
  old : ∀ x, ¬ (0 < x.ty ∧ x.ty ≤ 3 ∧ m x.ty = true ∧ A0.lo x.ty = false ∧ done x.ty = true) → A.T.low x = A0.T.low x
  new : ∀ x, 0 < x.ty → x.ty ≤ 3 → m x.ty = true → A0.lo x.ty = false → done x.ty = true →
    A.T.low x = gathered T.alive A0.T.high (x.ty - 1) (List.range (T.last (x.ty - 1))) x

theorem partL_step (I : Inv T fun _ => False) {A0 : Adj} (K : Keeps T A0) {m done : Nat → Bool} (P : PartL T A0 A m done)
    {ty : Nat} (h3 : ty < 3) (hd : done (ty + 1) = false) :
    ∃ A', A.lowType m A0.lo ty = some A' ∧ PartL T A0 A' m (fun t => if t = ty + 1 then true else done t) := by
  rw [Adj.lowType]
  by_cases hc : m (ty + 1) = true ∧ A0.lo (ty + 1) = false
  · obtain ⟨hm, hu⟩ := hc
    rw [if_pos (by simp [hm, hu])]
    have hup : A0.up ty = true := by
      rcases K.one ty h3 with h | h
      · exact h
      · rw [hu] at h; cases h
    have hhigh : ∀ b, b.ty = ty → (A0.T.high b).Perm (T.high b) := fun b hb => K.high b (hb ▸ hup)
    have hin : ∀ b a, a ∈ A0.T.high b → b.ty = ty → T.alive a = true ∧ a.ty = ty + 1 := by
      intro b a ha hb
      have ha' := (I.mem (fun h => h)).2 ((hhigh b hb).mem_iff.1 ha)
      have hlv := I.lowLive ha'
      have := I.lowTy a b ha'
      refine ⟨hlv.2, ?_⟩
      by_cases h0 : a.ty = 0
      · have := (this.2 h0).2; omega
      · have := this.1 h0; omega
    have e := linksLow ty (List.range (A.T.last ty)) A (by rw [P.up]; exact hup) (by
      intro b a ha hb
      rw [P.high] at ha
      obtain ⟨q1, q2⟩ := hin b a ha hb
      rw [P.alive, P.lo]
      refine ⟨q1, ?_⟩
      simp [q2, hm])
    refine ⟨_, e, P.cn, P.alive, P.last, P.hide, P.hidden, P.high, P.up, P.lo, ?_, ?_⟩
    · intro x hx
      simp only [Adj.withLow]
      rw [P.alive, P.high]
      by_cases hxt : x.ty = ty + 1
      · exfalso
        apply hx
        rw [hxt]
        exact ⟨by omega, by omega, hm, hu, if_pos rfl⟩
      · rw [gathered_nil, List.append_nil]
        · apply P.old
          intro h
          apply hx
          rw [if_neg hxt]
          exact h
        · intro i hmem
          exact hxt (hin _ _ hmem rfl).2
    · intro x hx0 hx3 hxm hxu hxd
      simp only [Adj.withLow]
      rw [P.alive, P.high, P.last]
      by_cases hxt : x.ty = ty + 1
      · have h0 : A.T.low x = [] := by
          rw [P.old x]
          · exact K.noLow x hxu
          · rintro ⟨_, _, _, _, h⟩
            rw [hxt, hd] at h; cases h
        rw [h0, List.nil_append, show x.ty - 1 = ty by omega]
      · rw [gathered_nil, List.append_nil]
        · rw [if_neg hxt] at hxd
          exact P.new x hx0 hx3 hxm hxu hxd
        · intro i hmem
          exact hxt (hin _ _ hmem rfl).2
  · rw [if_neg (by simpa using hc)]
    refine ⟨A, rfl, P.cn, P.alive, P.last, P.hide, P.hidden, P.high, P.up, P.lo, ?_, ?_⟩
    · intro x hx
      apply P.old
      rintro ⟨q0, q1, q2, q3, q4⟩
      apply hx
      refine ⟨q0, q1, q2, q3, ?_⟩
      split
      · rfl
      · exact q4
    · intro x q0 q1 q2 q3 q4
      by_cases hxt : x.ty = ty + 1
      · exact absurd ⟨hxt ▸ q2, hxt ▸ q3⟩ hc
      · rw [if_neg hxt] at q4
        exact P.new x q0 q1 q2 q3 q4

theorem lowLoops (I : Inv T fun _ => False) (K : Keeps T A) (m : Nat → Bool) :
    ∃ A1 done, each (Adj.lowType m A.lo) [0, 1, 2] { A with lo := fun t => A.lo t || (decide (0 < t) && m t) } = some A1 ∧
      (∀ t, 0 < t → t ≤ 3 → done t = true) ∧ PartL T A A1 m done := by
  have P0 : PartL T A { A with lo := fun t => A.lo t || (decide (0 < t) && m t) } m fun _ => false :=
    ⟨K.cn, K.alive, K.last, K.hide, K.hidden, rfl, rfl, rfl, fun _ _ => rfl, (fun _ _ _ _ _ h => (by cases h))⟩
  obtain ⟨A1, e1, P1⟩ := partL_step I K P0 (ty := 0) (by omega) rfl
  obtain ⟨A2, e2, P2⟩ := partL_step I K P1 (ty := 1) (by omega) rfl
  obtain ⟨A3, e3, P3⟩ := partL_step I K P2 (ty := 2) (by omega) rfl
  refine ⟨A3, _, ?_, ?_, P3⟩
  · simp only [each, e1, e2, e3]
  · intro t h0 ht
    match t, h0, ht with
    | 1, _, _ => rfl
    | 2, _, _ => rfl
    | 3, _, _ => rfl

theorem partL_keeps (I : Inv T fun _ => False) {A0 : Adj} (K : Keeps T A0) {m done : Nat → Bool} (P : PartL T A0 A m done)
    (hd : ∀ t, 0 < t → t ≤ 3 → done t = true) : Keeps T A := by
  refine ⟨P.cn, P.alive, P.last, P.hide, P.hidden, ?_, ?_, ?_, ?_, ?_, ?_, ?_, ?_⟩
  · intro x hx
    rw [P.lo] at hx
    by_cases hu : A0.lo x.ty = true
    · rw [P.old x (fun h => by rw [hu] at h; cases h.2.2.2.1)]; exact K.low x hu
    · simp only [hu, Bool.false_or, Bool.and_eq_true, decide_eq_true_eq] at hx
      have hu' : A0.lo x.ty = false := Bool.eq_false_iff.2 hu
      have h3 : x.ty ≤ 3 := by
        by_contra h
        rw [K.loBig x.ty (by omega)] at hu'; cases hu'
      rw [P.new x hx.1 h3 hx.2 hu' (hd _ hx.1 h3)]
      have hup : A0.up (x.ty - 1) = true := by
        rcases K.one (x.ty - 1) (by omega) with h | h
        · exact h
        · rw [show x.ty - 1 + 1 = x.ty by omega] at h; exact absurd h hu
      exact gathered_low I (by omega) (fun b hb => K.high b (hb ▸ hup)) (by omega)
  · rw [P.high, P.up]; exact K.high
  · intro x hx
    rw [P.lo] at hx
    simp only [Bool.or_eq_false_iff, Bool.and_eq_false_iff, decide_eq_false_iff_not] at hx
    rw [P.old x]
    · exact K.noLow x hx.1
    · rintro ⟨h1, _, h2, _, _⟩
      rcases hx.2 with h | h
      · exact h h1
      · rw [h2] at h; cases h
  · rw [P.high, P.up]; exact K.noHigh
  · intro t ht
    rw [P.up, P.lo]
    rcases K.one t ht with h | h
    · exact .inl h
    · right; simp [h]
  · rw [P.up]; exact K.up3
  · rw [P.lo]; simp [K.lo0]
  · intro t ht; rw [P.lo]; simp [K.loBig t ht]

theorem keeps_restoreLower (I : Inv T fun _ => False) (K : Keeps T A)
    {m : Nat → Bool} (e : A.restoreLower m = some A') : Keeps T A' := by
  rw [Adj.restoreLower] at e
  split at e
  · cases e; exact K
  · obtain ⟨A1, done, e1, hd, P⟩ := lowLoops I K m
    rw [e1] at e
    have K1 := partL_keeps I K P hd
    simp only at e
    split at e
    · exact (each_keeps fixFace_keeps _ _ _ K1 e).1
    · cases e; exact K1

end Verif.Adjacency
