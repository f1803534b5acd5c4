import Verif.Sets.SendModel
import Verif.Sets.DeleteProps
import Verif.Parallel.RemoveLemmas

/-!
# Property C156: sets and their elements are asked to be sent exactly to the processors that lack them
-/

namespace Verif.Sets

open Verif.Parallel (setDiff setDiff_eq)

/-! ## Specification -/

/-- `y` is the set `x`, or one of its children, or one of their children, and so on -/
def Below (t : Tree) (x y : Nat) : Prop := y = x ∨ Inside t x y

/-- `y` is the set `x`, or its parent, or the parent of its parent, and so on -/
def Above (t : Tree) (x y : Nat) : Prop := y = x ∨ (y ≠ 0 ∧ Inside t y x)

/-! ## Lemmas -/

theorem mem_setUnion : ∀ (l m : List Int) (q : Int), q ∈ setUnion l m ↔ q ∈ l ∨ q ∈ m
  | [], m, q => by simp [setUnion]
  | a :: l, m, q => by
    have ih := mem_setUnion l
    rw [setUnion]
    induction m with
    | nil => simp [setUnionAt, ih]
    | cons b m im =>
      rw [setUnionAt]
      split
      · simp [ih]; tauto
      · split
        · refine (List.mem_cons.trans (or_congr_right im)).trans ?_
          simp; tauto
        · have : a = b := by omega
          subst this
          simp [ih]; tauto

theorem mem_insertRank (a q : Int) : ∀ l, q ∈ insertRank a l ↔ q = a ∨ q ∈ l
  | [] => by simp [insertRank]
  | b :: l => by
    rw [insertRank]
    split
    · simp
    · split
      · next h => subst h; simp
      · rw [List.mem_cons, mem_insertRank a q l, List.mem_cons]; tauto

theorem sorted_insertRank (a : Int) : ∀ l : List Int, l.Pairwise (· < ·) → (insertRank a l).Pairwise (· < ·)
  | [], _ => by simp [insertRank]
  | b :: l, h => by
    rw [List.pairwise_cons] at h
    rw [insertRank]
    split
    · next g => exact List.pairwise_cons.2 ⟨fun y hy => by
        rcases List.mem_cons.1 hy with rfl | hy
        · exact g
        · exact lt_trans g (h.1 y hy), List.pairwise_cons.2 h⟩
    · split
      · exact List.pairwise_cons.2 h
      · refine List.pairwise_cons.2 ⟨fun y hy => ?_, sorted_insertRank a l h.2⟩
        rcases (mem_insertRank a y l).1 hy with rfl | hy
        · omega
        · exact h.1 y hy

theorem insertAll_spec : ∀ (l s : List Int), s.Pairwise (· < ·) → (insertAll s l).Pairwise (· < ·) ∧ ∀ q, q ∈ insertAll s l ↔ q ∈ s ∨ q ∈ l
  | [], s, h => by simpa [insertAll] using h
  | a :: l, s, h => by
    have ih := insertAll_spec l (insertRank a s) (sorted_insertRank a s h)
    refine ⟨ih.1, fun q => ?_⟩
    rw [show insertAll s (a :: l) = insertAll (insertRank a s) l from rfl, ih.2, mem_insertRank]
    simp; tauto

theorem unionSendTo_mem (k : Known) (cont : List Int) (s : Sendto) (x : Nat) (hc : cont.Pairwise (· < ·)) (hp : (k.procs x).Pairwise (· < ·)) (y : Nat) (q : Int) :
    q ∈ unionSendTo k cont s x y ↔ q ∈ s y ∨ (y = x ∧ q ∈ cont ∧ q ∉ k.procs x) := by
  have e := setDiff_eq (id : Int → Int) cont (k.procs x) (by simpa using hc) (by simpa using hp.imp le_of_lt)
  simp only [id] at e
  rw [unionSendTo, Sendto.put]
  split
  · next g =>
    subst g
    rw [mem_setUnion, e, List.mem_filter, List.mem_insertionSort]
    have : (!(k.procs y).any fun b => decide (b = q)) = true ↔ q ∉ k.procs y := by
      simp only [Bool.not_eq_true', List.any_eq_false, decide_eq_true_eq]
      exact ⟨fun h m => h q m rfl, fun h x hx e => h (e ▸ hx)⟩
    rw [this]
    tauto
  · next g => simp [g]

theorem sendTo_mem (k : Known) (cont : List Int) (s : Sendto) (x : Nat) (hc : cont.Pairwise (· < ·)) (hp : (k.procs x).Pairwise (· < ·)) (y : Nat) (q : Int) :
    q ∈ sendTo k cont s x y ↔ q ∈ s y ∨ (k.parallel = true ∧ y = x ∧ q ∈ cont ∧ q ∉ k.procs x) := by
  rw [sendTo]
  split
  · next g => rw [unionSendTo_mem k cont s x hc hp]; simp [g]
  · next g => simp [g]

theorem foldl_sendTo (k : Known) (cont : List Int) (hc : cont.Pairwise (· < ·)) (hp : ∀ x, (k.procs x).Pairwise (· < ·)) (y : Nat) (q : Int) : ∀ (d : List Nat) (s : Sendto),
    q ∈ d.foldl (sendTo k cont) s y ↔ q ∈ s y ∨ (k.parallel = true ∧ y ∈ d ∧ q ∈ cont ∧ q ∉ k.procs y)
  | [], s => by simp
  | x :: d, s => by
    rw [List.foldl_cons, foldl_sendTo k cont hc hp y q d, sendTo_mem k cont s x hc (hp x)]
    constructor
    · rintro ((h | ⟨h1, rfl, h2, h3⟩) | ⟨h1, h2, h3⟩)
      · exact .inl h
      · exact .inr ⟨h1, by simp, h2, h3⟩
      · exact .inr ⟨h1, by simp [h2], h3⟩
    · rintro (h | ⟨h1, h2, h3, h4⟩)
      · exact .inl (.inl h)
      · rcases List.mem_cons.1 h2 with rfl | h2
        · exact .inl (.inr ⟨h1, rfl, h3, h4⟩)
        · exact .inr ⟨h1, h2, h3, h4⟩

/-- The sets in the order in which the loop over siblings from `c` on visits them. -/
inductive Pre (t : Tree) : Nat → List Nat → Prop
  | nil : Pre t 0 []
  | cons (c : Nat) (d1 d2 : List Nat) : c ≠ 0 → Pre t (t c).child d1 → Pre t (t c).sibling d2 → Pre t c (c :: d1 ++ d2)

theorem Post.pre {t : Tree} {c : Nat} {d : List Nat} (h : Post t c d) : ∃ d', Pre t c d' ∧ d'.Perm d := by
  induction h with
  | nil => exact ⟨[], .nil, .refl _⟩
  | cons c d1 d2 h0 _ _ ih1 ih2 =>
    obtain ⟨e1, g1, p1⟩ := ih1
    obtain ⟨e2, g2, p2⟩ := ih2
    refine ⟨_, .cons c e1 e2 h0 g1 g2, ?_⟩
    exact (List.Perm.cons c (p1.append p2)).trans List.perm_middle.symm

theorem siblingLoop_spec {σ : Type} (body : σ → Nat → σ) {t : Tree} {c : Nat} {d : List Nat} (h : Pre t c d) :
    ∃ N, ∀ m n s, N ≤ m → N ≤ n → siblingLoop (traverse body t m 1) t n s c = some (d.foldl body s) := by
  induction h with
  | nil => exact ⟨1, fun m n s _ hn => by obtain ⟨n, rfl⟩ : ∃ k, n = k + 1 := ⟨n - 1, by omega⟩; simp [siblingLoop]⟩
  | cons c d1 d2 h0 _ _ ih1 ih2 =>
    obtain ⟨N1, h1⟩ := ih1
    obtain ⟨N2, h2⟩ := ih2
    refine ⟨N1 + N2 + 1, fun m n s hm hn => ?_⟩
    obtain ⟨n, rfl⟩ : ∃ k, n = k + 1 := ⟨n - 1, by omega⟩
    obtain ⟨m, rfl⟩ : ∃ k, m = k + 1 := ⟨m - 1, by omega⟩
    have e : traverse body t (m + 1) 1 s c = some ((c :: d1).foldl body s) := by
      rw [traverse]
      by_cases g : (t c).child = 0
      · have : d1 = [] := by
          rename_i a _
          rw [g] at a
          cases a with
          | nil => rfl
          | cons _ _ _ x => exact absurd rfl x
        subst this
        simp [g]
      · have := h1 m m (body s c) (by omega) (by omega)
        simp [g, this]
    rw [siblingLoop, if_neg h0, e]
    simp only
    rw [h2 (m + 1) n _ (by omega) (by omega), ← List.foldl_append]

theorem Pre.exists {t : Tree} (h : TReach t) {x : Nat} (hx : x ≠ 0) : ∃ d, Pre t (t x).child d ∧ ∀ y, y ∈ d ↔ Inside t x y := by
  have hf := C19_forest_partial h
  obtain ⟨d, hd⟩ := Post.exists hf h.finitely hx
  obtain ⟨d', h1, h2⟩ := hd.pre
  refine ⟨d', h1, fun y => ?_⟩
  obtain ⟨l, g1, g2, g3⟩ := hf.children x hx
  rw [h2.mem_iff, hd.mem hf g1, inside_iff]
  constructor
  · rintro ⟨z, hz, e⟩; exact ⟨z, ((g3 z).1 hz).1, ((g3 z).1 hz).2, e⟩
  · rintro ⟨z, h0, hz, e⟩; exact ⟨z, (g3 z).2 ⟨h0, hz⟩, e⟩

theorem traverse_down {σ : Type} (body : σ → Nat → σ) {t : Tree} (h : TReach t) {x : Nat} (hx : x ≠ 0) :
    ∃ (d : List Nat) (N : Nat), (∀ n s, N ≤ n → traverse body t n 1 s x = some (d.foldl body s)) ∧ ∀ y, y ∈ d ↔ Below t x y := by
  obtain ⟨d, h1, h2⟩ := Pre.exists h hx
  obtain ⟨N, hN⟩ := siblingLoop_spec body h1
  refine ⟨x :: d, N + 1, fun n s hn => ?_, fun y => by simp [Below, h2]⟩
  obtain ⟨n, rfl⟩ : ∃ k, n = k + 1 := ⟨n - 1, by omega⟩
  rw [traverse]
  by_cases g : (t x).child = 0
  · have : d = [] := by
      rw [g] at h1
      cases h1 with
      | nil => rfl
      | cons _ _ _ x => exact absurd rfl x
    subst this
    simp [g]
  · have := hN n n (body s x) (by omega) (by omega)
    simp [g, this]

theorem above_step {t : Tree} {x y : Nat} (hx : x ≠ 0) (hp : (t x).parent ≠ 0) : Above t x y ↔ y = x ∨ Above t (t x).parent y := by
  unfold Above
  constructor
  · rintro (h | ⟨h0, h⟩)
    · exact .inl h
    · cases h with
      | child _ _ e => exact .inr (.inl e.symm)
      | deeper _ _ e => exact .inr (.inr ⟨h0, e⟩)
  · rintro (h | rfl | ⟨h0, h⟩)
    · exact .inl h
    · exact .inr ⟨hp, .child x hx rfl⟩
    · exact .inr ⟨h0, .deeper x hx h⟩

theorem traverse_up {σ : Type} (body : σ → Nat → σ) {t : Tree} {x : Nat} (h : Rooted t x) (hx : x ≠ 0) :
    ∃ (d : List Nat) (N : Nat), (∀ n s, N ≤ n → traverse body t n 2 s x = some (d.foldl body s)) ∧ ∀ y, y ∈ d ↔ Above t x y := by
  have stop : ∀ x, (t x).parent = 0 → x ≠ 0 → ∃ (d : List Nat) (N : Nat), (∀ n s, N ≤ n → traverse body t n 2 s x = some (d.foldl body s)) ∧ ∀ y, y ∈ d ↔ Above t x y := by
    intro x hp hx
    refine ⟨[x], 1, fun n s hn => ?_, fun y => ?_⟩
    · obtain ⟨n, rfl⟩ : ∃ k, n = k + 1 := ⟨n - 1, by omega⟩
      simp [traverse, hp]
    · simp only [List.mem_singleton, Above]
      refine ⟨.inl, ?_⟩
      rintro (h | ⟨h0, h⟩)
      · exact h
      · cases h with
        | child _ _ e => exact absurd (e.symm.trans hp) h0
        | deeper _ _ e => exact absurd hp e.ne_zero
  induction h with
  | root x hp => exact stop x hp hx
  | up x _ ih =>
    by_cases hp : (t x).parent = 0
    · exact stop x hp hx
    · obtain ⟨d, N, h1, h2⟩ := ih hp
      refine ⟨x :: d, N + 1, fun n s hn => ?_, fun y => ?_⟩
      · obtain ⟨n, rfl⟩ : ∃ k, n = k + 1 := ⟨n - 1, by omega⟩
        simp [traverse, hp, h1 n _ (by omega : N ≤ n)]
      · rw [List.mem_cons, h2, above_step hx hp]

theorem foldl_collect (k : Known) : ∀ (d : List Nat) (s : List Int), s.Pairwise (· < ·) →
    (d.foldl (fun s y => insertAll s (k.procs y)) s).Pairwise (· < ·) ∧ ∀ q, q ∈ d.foldl (fun s y => insertAll s (k.procs y)) s ↔ q ∈ s ∨ ∃ z ∈ d, q ∈ k.procs z
  | [], s, h => by simpa using h
  | x :: d, s, h => by
    have i := insertAll_spec (k.procs x) s h
    have ih := foldl_collect k d _ i.1
    refine ⟨ih.1, fun q => ?_⟩
    rw [List.foldl_cons, ih.2, i.2]
    simp; tauto

/-! ## C156 -/

/-- `SynchronizeSetChildren` returns, and asks every set below `x` (and `x`) to be sent to those processors that have some set below `x` and not this set;
nothing else is asked, and nothing asked before is lost. -/
theorem C156_children {t : Tree} (h : TReach t) (k : Known) (hp : ∀ y, (k.procs y).Pairwise (· < ·)) (s : Sendto) (x : Nat) (hx : x ≠ 0) :
    ∃ s' N, (∀ n, N ≤ n → syncChildren k t n s x = some s') ∧ ∀ y q, q ∈ s' y ↔
      q ∈ s y ∨ (k.parallel = true ∧ k.owned x = false ∧ Below t x y ∧ (∃ z, Below t x z ∧ q ∈ k.procs z) ∧ q ∉ k.procs y) := by
  by_cases g1 : k.parallel = true
  swap
  · exact ⟨s, 0, fun n _ => by simp [syncChildren, g1], fun y q => by simp [g1]⟩
  by_cases g2 : k.owned x = true
  · exact ⟨s, 0, fun n _ => by simp [syncChildren, g2], fun y q => by simp [g2]⟩
  obtain ⟨d, N, hd, md⟩ := traverse_down (fun s y => insertAll s (k.procs y)) h hx
  have c := foldl_collect k d [] List.Pairwise.nil
  generalize ep : d.foldl (fun s y => insertAll s (k.procs y)) [] = procs at c
  obtain ⟨d2, N2, hd2, md2⟩ := traverse_down (sendTo k procs) h hx
  have mp : ∀ q, q ∈ procs ↔ ∃ z, Below t x z ∧ q ∈ k.procs z := fun q => by rw [c.2]; simp [md]
  by_cases g3 : procs = []
  · refine ⟨s, N, fun n hn => by simp [syncChildren, g1, g2, collect, hd n [] hn, ep, g3], fun y q => ?_⟩
    rw [← mp]; simp [g3]
  · refine ⟨d2.foldl (sendTo k procs) s, N + N2, fun n hn => ?_, fun y q => ?_⟩
    · simp [syncChildren, g1, g2, collect, hd n [] (by omega), ep, g3, setSendTo, hd2 n s (by omega)]
    · rw [foldl_sendTo k procs c.1 hp, md2, mp]; simp [g1, g2]

/-- `SynchronizeSetParents` returns, and asks `x` and every set above it to be sent to those processors that have `x` and not this set. -/
theorem C156_parents {t : Tree} (h : TReach t) (k : Known) (hp : ∀ y, (k.procs y).Pairwise (· < ·)) (s : Sendto) (x : Nat) (hx : x ≠ 0) :
    ∃ s' N, (∀ n, N ≤ n → syncParents k t n s x = some s') ∧ ∀ y q, q ∈ s' y ↔
      q ∈ s y ∨ (k.parallel = true ∧ k.owned x = false ∧ Above t x y ∧ q ∈ k.procs x ∧ q ∉ k.procs y) := by
  by_cases g1 : k.parallel = true
  swap
  · exact ⟨s, 0, fun n _ => by simp [syncParents, g1], fun y q => by simp [g1]⟩
  by_cases g2 : k.owned x = true
  · exact ⟨s, 0, fun n _ => by simp [syncParents, g2], fun y q => by simp [g2]⟩
  have c := insertAll_spec (k.procs x) [] List.Pairwise.nil
  generalize ep : insertAll [] (k.procs x) = procs at c
  obtain ⟨d2, N2, hd2, md2⟩ := traverse_up (sendTo k procs) ((C19_forest_partial h).rooted x hx) hx
  have mp : ∀ q, q ∈ procs ↔ q ∈ k.procs x := fun q => by rw [c.2]; simp
  have hc : ∀ n, 1 ≤ n → collect k t n 0 x = some procs := by
    intro n hn
    obtain ⟨n, rfl⟩ : ∃ k, n = k + 1 := ⟨n - 1, by omega⟩
    simp [collect, traverse, ep]
  by_cases g3 : procs = []
  · refine ⟨s, 1, fun n hn => by simp [syncParents, g1, g2, hc n hn, g3], fun y q => ?_⟩
    rw [← mp]; simp [g3]
  · refine ⟨d2.foldl (sendTo k procs) s, N2 + 1, fun n hn => ?_, fun y q => ?_⟩
    · simp [syncParents, g1, g2, hc n (by omega), g3, setSendTo, hd2 n s (by omega)]
    · rw [foldl_sendTo k procs c.1 hp, md2, mp]; simp [g1, g2]

/-- `SynchronizeSetElements` asks the set to be sent to all other processors that have it, and each of its elements to those of them that do not have the element. -/
theorem C156_elements (k : Known) (hp : ∀ y, (k.procs y).Pairwise (· < ·)) (s : Sendto) (x : Nat) (elems : List Nat) (hx : x ∉ elems) (par : k.parallel = true) :
    (∀ q, q ∈ syncElements k s x elems x ↔ (q ∈ s x ∨ q ∈ k.procs x) ∧ q ≠ k.rank) ∧
    ∀ y q, y ≠ x → (q ∈ syncElements k s x elems y ↔ q ∈ s y ∨ (y ∈ elems ∧ q ∈ k.procs x ∧ q ∉ k.procs y)) := by
  have i1 := insertAll_spec (s x) [] List.Pairwise.nil
  have i2 := insertAll_spec (k.procs x) _ i1.1
  have e : syncElements k s x elems = elems.foldl (sendTo k (k.procs x)) (s.put x ((insertAll (insertAll [] (s x)) (k.procs x)).filter fun q => q ≠ k.rank)) := by
    simp [syncElements, par]
  rw [e]
  refine ⟨fun q => ?_, fun y q hy => ?_⟩
  · rw [foldl_sendTo k _ (hp x) hp]
    simp [hx, Sendto.put, i2.2, i1.2]
  · rw [foldl_sendTo k _ (hp x) hp]
    simp [hy, Sendto.put, par]

/-- `SynchronizeSetElementsWithOwner` asks a set that is not owned by this processor alone, and its elements that the owner lacks, to be sent to the owner of the set
(and the elements also to where the set was asked to be sent before). -/
theorem C156_owner (k : Known) (hp : ∀ y, (k.procs y).Pairwise (· < ·)) (s : Sendto) (x : Nat) (elems : List Nat) (hx : x ∉ elems) (par : k.parallel = true)
    (ho : k.owned x = false) :
    (∀ q, q ∈ syncOwner k s x elems x ↔ q ∈ s x ∨ q = k.owner x) ∧
    ∀ y q, y ≠ x → (q ∈ syncOwner k s x elems y ↔ q ∈ s y ∨ (y ∈ elems ∧ (q ∈ s x ∨ q = k.owner x) ∧ q ∉ k.procs y)) := by
  have i1 := insertAll_spec (s x) [] List.Pairwise.nil
  have so := sorted_insertRank (k.owner x) _ i1.1
  have e : syncOwner k s x elems = elems.foldl (sendTo k (insertRank (k.owner x) (insertAll [] (s x)))) (s.put x (insertRank (k.owner x) (insertAll [] (s x)))) := by
    simp [syncOwner, par, ho]
  rw [e]
  refine ⟨fun q => ?_, fun y q hy => ?_⟩
  · rw [foldl_sendTo k _ so hp]
    simp [hx, Sendto.put, i1.2, mem_insertRank]
    tauto
  · rw [foldl_sendTo k _ so hp]
    simp [hy, Sendto.put, par, i1.2, mem_insertRank]
    tauto

/-- A set shared by this processor, which owns it, is asked by `SynchronizeSetElementsWithOwner` to be sent to this processor itself: its rank is not taken out
(`SynchronizeSetElements` does that, eset.cpp L1789). -/
theorem C156_owner_itself_fails (k : Known) (hp : ∀ y, (k.procs y).Pairwise (· < ·)) (s : Sendto) (x : Nat) (elems : List Nat) (hx : x ∉ elems) (par : k.parallel = true)
    (ho : k.owned x = false) (own : k.owner x = k.rank) : k.rank ∈ syncOwner k s x elems x :=
  ((C156_owner k hp s x elems hx par ho).1 _).2 (.inr own.symm)

/-- three processors; set 1 has children 2 and 3, set 2 has child 4 -/
def demoKnown : Known := ⟨true, 0, fun y => if y = 1 then [0, 1] else if y = 4 then [0, 2] else [0], fun _ => 0, fun y => y = 2 || y = 3⟩

example : (trun Tree.init [.addChild 1 2, .addChild 1 3, .addChild 2 4]).bind (fun t => (syncChildren demoKnown t 9 (fun _ => []) 1).map fun s => (s 1, s 2, s 3, s 4, s 5))
    = some ([2], [1, 2], [1, 2], [1], []) := by decide +kernel

example : (trun Tree.init [.addChild 1 2, .addChild 1 3, .addChild 2 4]).bind (fun t => (syncParents demoKnown t 9 (fun _ => []) 4).map fun s => (s 1, s 2, s 3, s 4, s 5))
    = some ([2], [2], [], [], []) := by decide +kernel

example : ∀ y, (demoKnown.procs y).Pairwise (· < ·) := by
  intro y
  simp only [demoKnown]
  split
  · decide
  · split <;> decide

end Verif.Sets
