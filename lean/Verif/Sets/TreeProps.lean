import Verif.Sets.TreeLemmas

/-!
# Hierarchy of element sets: property C19
-/

namespace Verif.Sets

/-- What a caller has to respect.  A set that is added has no parent (asserted by the
functions) and is not a set that contains the new parent; a set that is removed is a child
of the set it is removed from, or a later sibling.  The condition on `sibling` when a set is
added is not among the documented ones, see `C19_readd_fails`. -/
def Permitted (t : Tree) : TOp → Prop
  | .addChild p c => p ≠ 0 ∧ c ≠ 0 ∧ (t c).parent = 0 ∧ (t c).sibling = 0 ∧ ¬ Within t c p
  | .addSibling s c => s ≠ 0 ∧ c ≠ 0 ∧ (t s).parent ≠ 0 ∧ (t c).parent = 0 ∧
      (t c).sibling = 0 ∧ ¬ Within t c (t s).parent
  | .remChild p c => p ≠ 0 ∧ c ≠ 0 ∧ (t c).parent = p
  | .remSibling s c => s ≠ 0 ∧ c ≠ 0 ∧ (t s).parent ≠ 0 ∧
      ∃ l, Chain t (t s).sibling l ∧ c ∈ l

/-- The set whose list of children an operation changes, and the list after it. -/
def target (t : Tree) : TOp → Nat
  | .addChild p _ => p
  | .addSibling s _ => (t s).parent
  | .remChild p _ => p
  | .remSibling s _ => (t s).parent

/-- The list of children after the operation. -/
def newChildren (l : List Nat) : TOp → List Nat
  | .addChild _ c => l ++ [c]
  | .addSibling _ c => l ++ [c]
  | .remChild _ c => l.erase c
  | .remSibling _ c => l.erase c

/-- Hierarchies obtained by permitted operations from sets without links. -/
inductive TReach : Tree → Prop
  | init : TReach Tree.init
  | step {t t' : Tree} (o : TOp) (n : Nat) : TReach t → Permitted t o → texec n t o = some t' →
      TReach t'

theorem fuel_unique {t : Tree} {o : TOp} {t1 t2 : Tree} {m n : Nat}
    (h1 : ∀ k, m ≤ k → texec k t o = some t1) (h2 : texec n t o = some t2) : t2 = t1 := by
  have mono : ∀ k, n ≤ k → texec k t o = some t2 := by
    have addS : ∀ (n : Nat) (cur s : Nat) (t2 : Tree), addSibling n t cur s = some t2 → ∀ k, n ≤ k →
        addSibling k t cur s = some t2 := by
      intro n
      induction n with
      | zero => intro cur s t2 h; simp [addSibling] at h
      | succ n ih =>
        intro cur s t2 h k hk
        cases k with
        | zero => omega
        | succ k =>
          rw [addSibling] at h ⊢
          split at h
          · cases h
          · rename_i g1
            rw [if_neg g1]
            split at h
            · rename_i g2
              rw [if_pos g2]; exact h
            · rename_i g2
              rw [if_neg g2]; exact ih _ _ _ h k (by omega)
    have remS : ∀ (n : Nat) (cur s : Nat) (t2 : Tree), remSibling n t cur s = some t2 → ∀ k, n ≤ k →
        remSibling k t cur s = some t2 := by
      intro n
      induction n with
      | zero => intro cur s t2 h; simp [remSibling] at h
      | succ n ih =>
        intro cur s t2 h k hk
        cases k with
        | zero => omega
        | succ k =>
          rw [remSibling] at h ⊢
          split at h
          · cases h
          · rename_i g1
            rw [if_neg g1]
            split at h
            · rename_i g2
              rw [if_pos g2]; exact h
            · rename_i g2
              rw [if_neg g2]; exact ih _ _ _ h k (by omega)
    intro k hk
    cases o with
    | addChild p c =>
      simp only [texec, addChild] at h2 ⊢
      split
      · rename_i g; rw [if_pos g] at h2; exact h2
      · rename_i g; rw [if_neg g] at h2; exact addS _ _ _ _ h2 k hk
    | addSibling s c => exact addS _ _ _ _ h2 k hk
    | remChild p c =>
      simp only [texec, remChild] at h2 ⊢
      split
      · rename_i g; rw [if_pos g] at h2; exact h2
      · rename_i g
        rw [if_neg g] at h2
        split
        · rename_i g'; rw [if_pos g'] at h2; exact h2
        · rename_i g'; rw [if_neg g'] at h2; exact remS _ _ _ _ h2 k hk
    | remSibling s c => exact remS _ _ _ _ h2 k hk
  have := mono (max m n) (by omega)
  rw [h1 (max m n) (by omega)] at this
  exact (Option.some.inj this).symm

theorem step_forest {t : Tree} (hf : Forest t) (o : TOp) (hp : Permitted t o) :
    ∃ t' L, Children t (target t o) L ∧ (∃ m, ∀ n, m ≤ n → texec n t o = some t') ∧ Forest t' ∧
      Children t' (target t o) (newChildren L o) ∧
      (∀ p l, p ≠ 0 → p ≠ target t o → Children t p l → Children t' p l) := by
  cases o with
  | addChild p c =>
    obtain ⟨h1, h2, h3, h4, h5⟩ := hp
    obtain ⟨L, g1, g2, g3⟩ := hf.children p h1
    by_cases hc : (t p).child = 0
    · have hL : L = [] := by
        rw [Children, hc] at g1
        exact (Chain.unique .nil g1).symm
      obtain ⟨k1, k2, k3⟩ := forest_append hf h1 h2 h3 h4 h5 g1 (.inl ⟨hL, rfl⟩)
      refine ⟨_, L, g1, ⟨0, fun n _ => ?_⟩, k1, k2, k3⟩
      simp [texec, addChild, hc, h3]
    · obtain ⟨z, a, e1, e2, e3⟩ := addSibling_eq h1 h3 L _ g1 hc fun y hy => ((g3 y).1 hy).2
      obtain ⟨k1, k2, k3⟩ := forest_append hf h1 h2 h3 h4 h5 g1 (.inr ⟨a, z, e1, e2, rfl⟩)
      refine ⟨_, L, g1, ⟨L.length, fun n hn => ?_⟩, k1, k2, k3⟩
      simp only [texec, addChild, if_neg hc]
      exact e3 n hn
  | addSibling s c =>
    obtain ⟨h0, h2, h1, h3, h4, h5⟩ := hp
    obtain ⟨L, g1, g2, g3⟩ := hf.children (t s).parent h1
    have hs : s ∈ L := (g3 s).2 ⟨h0, rfl⟩
    obtain ⟨a, b, e1, e2⟩ := Chain.split g1 hs
    obtain ⟨z, a2, f1, f2, f3⟩ := addSibling_eq h1 h3 (s :: b) s e2 h0 fun y hy =>
      ((g3 y).1 (by rw [e1]; simp only [List.mem_append]; exact .inr hy)).2
    obtain ⟨k1, k2, k3⟩ := forest_append hf h1 h2 h3 h4 h5 g1
      (.inr ⟨a ++ a2, z, by rw [e1, f1, List.append_assoc], f2, rfl⟩)
    exact ⟨_, L, g1, ⟨(s :: b).length, f3⟩, k1, k2, k3⟩
  | remChild p c =>
    obtain ⟨h1, h2, h3⟩ := hp
    obtain ⟨L, g1, g2, g3⟩ := hf.children p h1
    have hcL : c ∈ L := (g3 c).2 ⟨h2, h3⟩
    have g1' := g1
    rw [Children] at g1'
    cases L with
    | nil => simp at hcL
    | cons x l =>
      have hx : (t p).child = x := by
        generalize (t p).child = s at g1'
        cases g1' with
        | cons _ _ _ _ => rfl
      rw [hx] at g1'
      have hx0 : x ≠ 0 := g1'.ne_zero x (by simp)
      by_cases e : x = c
      · obtain ⟨k1, k2, _, k3⟩ := forest_remove hf h1 g1 hcL (.inl ⟨⟨l, by rw [e]⟩, rfl⟩)
        refine ⟨_, _, g1, ⟨0, fun n _ => ?_⟩, k1, k2, k3⟩
        simp [texec, remChild, hx, hx0, e, h3, h2]
      · rw [List.nodup_cons] at g2
        obtain ⟨z, a, b, e1, e2, e3⟩ := remSibling_eq l x g1' (fun y hy => ((g3 y).1 hy).2)
          ((List.mem_cons.1 hcL).resolve_left (Ne.symm e)) g2.2
        obtain ⟨k1, k2, _, k3⟩ := forest_remove hf h1 g1 hcL (.inr ⟨a, z, b, e1, rfl⟩)
        refine ⟨_, _, g1, ⟨l.length, fun n hn => ?_⟩, k1, k2, k3⟩
        simp only [texec, remChild, hx, if_neg hx0, if_neg e]
        exact e3 n hn
  | remSibling s c =>
    obtain ⟨h0, h2, h1, l, h3, h4⟩ := hp
    obtain ⟨L, g1, g2, g3⟩ := hf.children (t s).parent h1
    have hs : s ∈ L := (g3 s).2 ⟨h0, rfl⟩
    obtain ⟨a, b, e1, e2⟩ := Chain.split g1 hs
    have hb : b = l := by
      cases e2 with
      | cons _ _ _ h => exact h.unique h3
    subst hb
    have hnd := g2
    rw [e1, List.nodup_append, List.nodup_cons] at hnd
    obtain ⟨z, a2, b2, f1, f2, f3⟩ := remSibling_eq b s e2
      (fun y hy => ((g3 y).1 (by rw [e1]; simp only [List.mem_append]; exact .inr hy)).2) h4
      hnd.2.1.2
    obtain ⟨k1, k2, _, k3⟩ := forest_remove hf h1 g1
      (show c ∈ L by rw [e1]; simp [h4])
      (.inr ⟨a ++ a2, z, b2, by rw [e1, f1, List.append_assoc], rfl⟩)
    exact ⟨_, L, g1, ⟨b.length, f3⟩, k1, k2, k3⟩

theorem forest_init : Forest Tree.init :=
  ⟨fun p hp => ⟨[], .nil, by simp, fun c => by simp [Tree.init, Ne.symm hp]⟩,
    fun x _ => .root x rfl⟩

/-- After any history of permitted operations the links form a forest.  Missing from C19:
adding a set that was removed while it had a later sibling, see `C19_readd_fails`. -/
theorem C19_forest_partial {t : Tree} (h : TReach t) : Forest t := by
  induction h with
  | init => exact forest_init
  | step o n _ hp he ih =>
    obtain ⟨t1, _, _, ⟨m, h2⟩, h3, _⟩ := step_forest ih o hp
    rw [fuel_unique h2 he]; exact h3

/-- Every permitted operation returns; adding appends to the list of children of one set,
removing takes one set out of that list and keeps all others in their order, and the lists
of children of all other sets stay as they were. -/
theorem C19_operations_partial {t : Tree} (h : TReach t) (o : TOp) (hp : Permitted t o) :
    ∃ t' L, TReach t' ∧ Children t (target t o) L ∧
      (∃ m, ∀ n, m ≤ n → texec n t o = some t') ∧
      Children t' (target t o) (newChildren L o) ∧
      ∀ p l, p ≠ 0 → p ≠ target t o → Children t p l → Children t' p l := by
  obtain ⟨t', L, h1, ⟨m, h2⟩, _, h4, h5⟩ := step_forest (C19_forest_partial h) o hp
  exact ⟨t', L, .step o m h hp (h2 m (Nat.le_refl _)), h1, ⟨m, h2⟩, h4, h5⟩

/-- `CountChildren` returns the number of children. -/
theorem C19_count_partial {t : Tree} (h : TReach t) (p : Nat) (hp : p ≠ 0) :
    ∃ L, Children t p L ∧ L.Nodup ∧ (∀ c, c ∈ L ↔ c ≠ 0 ∧ (t c).parent = p) ∧
      ∀ n, L.length ≤ n → countChildren n t p = some L.length := by
  obtain ⟨L, h1, h2, h3⟩ := (C19_forest_partial h).children p hp
  refine ⟨L, h1, h2, h3, fun n hn => ?_⟩
  rw [countChildren]
  by_cases hc : (t p).child = 0
  · rw [if_pos hc]
    rw [Children, hc] at h1
    rw [← Chain.unique .nil h1]; rfl
  · rw [if_neg hc]
    exact countSiblings_eq L _ h1 hc n hn

/-- A run of operations with enough fuel for the examples. -/
def trun (t : Tree) : List TOp → Option Tree
  | [] => some t
  | o :: os => match texec 9 t o with
    | none => none
    | some t' => trun t' os

theorem not_within_init (a x : Nat) (t : Tree) (ht : ∀ y, (t y).parent = 0) (hx : x ≠ a)
    (ha : a ≠ 0) : ¬ Within t a x := by
  intro h
  have : ∀ y, Within t a y → y = a := by
    intro y hy
    induction hy with
    | self => rfl
    | up x _ ih => rw [ht x] at ih; exact absurd ih.symm ha
  exact hx (this x h)

/-- A set with two children, one of which is removed again. -/
example : ∃ t, TReach t ∧ Children t 1 [3] ∧ (t 2).parent = 0 := by
  have p1 : Permitted Tree.init (.addChild 1 2) :=
    ⟨by decide, by decide, rfl, rfl, not_within_init _ _ _ (fun _ => rfl) (by decide) (by decide)⟩
  obtain ⟨t1, L1, r1, c1, ⟨m1, e1⟩, k1, _⟩ := C19_operations_partial .init _ p1
  have w : ∀ (t : Tree), (t 1).parent = 0 → (t 0).parent = 0 → ¬ Within t 3 1 := by
    intro t h1 h0 h
    have : ∀ y, Within t 3 y → y ≠ 1 ∧ y ≠ 0 := by
      intro y hy
      induction hy with
      | self => decide
      | up x _ ih =>
        refine ⟨?_, ?_⟩
        · rintro rfl; rw [h1] at ih; exact ih.2 rfl
        · rintro rfl; rw [h0] at ih; exact ih.2 rfl
    exact (this 1 h).1 rfl
  have t1e : t1 = setChild (setParent Tree.init 2 1) 1 2 := by
    have := e1 (m1 + 1) (by omega)
    simpa [texec, addChild, Tree.init] using this.symm
  have p2 : Permitted t1 (.addChild 1 3) := by
    subst t1e
    exact ⟨by decide, by decide, rfl, rfl, w _ rfl rfl⟩
  obtain ⟨t2, L2, r2, c2, ⟨m2, e2⟩, k2, _⟩ := C19_operations_partial r1 _ p2
  cases c1.unique .nil
  cases c2.unique k1
  have f2 := C19_forest_partial r2
  obtain ⟨L, q1, q2, q3⟩ := f2.children 1 (by decide)
  cases q1.unique k2
  have p3 : Permitted t2 (.remChild 1 2) :=
    ⟨by decide, by decide, ((q3 2).1 (by decide)).2⟩
  obtain ⟨t3, L3, r3, c3, ⟨m3, e3⟩, k3, _⟩ := C19_operations_partial r2 _ p3
  cases c3.unique k2
  refine ⟨t3, r3, k3, ?_⟩
  have f3 := C19_forest_partial r3
  obtain ⟨L, q1, q2, q3⟩ := f3.children 1 (by decide)
  cases q1.unique k3
  have h2 : (t3 2).parent ≠ 1 := fun h => by
    have := (q3 2).2 ⟨by decide, h⟩
    exact absurd this (by decide)
  have hp1 : (trun Tree.init [.addChild 1 2, .addChild 1 3, .remChild 1 2]).map
      (fun t => (t 2).parent) = some 0 := by decide +kernel
  have s1 : texec 9 Tree.init (.addChild 1 2) = some t1 := by
    rw [t1e]; simp [texec, addChild, Tree.init]
  have s2 : ∃ t2', texec 9 t1 (.addChild 1 3) = some t2' := by
    subst t1e; exact ⟨_, rfl⟩
  obtain ⟨t2', s2⟩ := s2
  cases fuel_unique e2 s2
  have s3 : ∃ t3', texec 9 t2 (.remChild 1 2) = some t3' := by
    cases h : texec 9 t2 (.remChild 1 2) with
    | none => simp [trun, s1, s2, h] at hp1
    | some x => exact ⟨x, rfl⟩
  obtain ⟨t3', s3⟩ := s3
  cases fuel_unique e3 s3
  simpa [trun, s1, s2, s3] using hp1

/-- Removing a child that has a later sibling leaves its sibling link.  If the set is then
added to another parent the later sibling becomes a child of both: the list of children of
set 4 is `[2, 3]` although the parent of set 3 is set 1. -/
theorem C19_readd_fails :
    ∃ t, trun Tree.init [.addChild 1 2, .addChild 1 3, .remChild 1 2, .addChild 4 2] = some t ∧
      Children t 4 [2, 3] ∧ (t 3).parent = 1 ∧ ¬ Forest t := by
  have h : (trun Tree.init [.addChild 1 2, .addChild 1 3, .remChild 1 2, .addChild 4 2]).map
      (fun t => ((t 4).child, (t 2).sibling, (t 3).sibling, (t 3).parent)) =
      some (2, 3, 0, 1) := by decide +kernel
  cases hr : trun Tree.init [.addChild 1 2, .addChild 1 3, .remChild 1 2, .addChild 4 2] with
  | none => rw [hr] at h; cases h
  | some t =>
    rw [hr] at h
    simp only [Option.map_some, Option.some.injEq, Prod.mk.injEq] at h
    obtain ⟨h1, h2, h3, h4⟩ := h
    have hc : Children t 4 [2, 3] := by
      rw [Children, h1]
      refine .cons _ _ (by decide) ?_
      rw [h2]
      refine .cons _ _ (by decide) ?_
      rw [h3]; exact .nil
    refine ⟨t, rfl, hc, h4, fun hf => ?_⟩
    obtain ⟨l, g1, _, g3⟩ := hf.children 4 (by decide)
    cases hc.unique g1
    have := ((g3 3).1 (by decide)).2
    rw [h4] at this
    cases this

end Verif.Sets
