import Verif.Sets.TreeSpec
import Mathlib.Data.List.Nodup

/-! # Lemmas about the hierarchy of element sets -/

namespace Verif.Sets

theorem Chain.unique {t : Tree} {x : Nat} {l : List Nat} (h : Chain t x l) :
    ∀ {l'}, Chain t x l' → l = l' := by
  induction h with
  | nil =>
    intro l' h'
    cases h' with
    | nil => rfl
    | cons _ _ h0 _ => exact absurd rfl h0
  | cons x l h0 _ ih =>
    intro l' h'
    cases h' with
    | nil => exact absurd rfl h0
    | cons _ l2 _ h2 => rw [ih h2]

theorem Chain.congr {t t' : Tree} {x : Nat} {l : List Nat} (h : Chain t x l)
    (e : ∀ y ∈ l, (t' y).sibling = (t y).sibling) : Chain t' x l := by
  induction h with
  | nil => exact .nil
  | cons x l h0 _ ih =>
    refine .cons x l h0 ?_
    rw [e x (by simp)]
    exact ih fun y hy => e y (by simp [hy])

theorem Chain.ne_zero {t : Tree} {x : Nat} {l : List Nat} (h : Chain t x l) : ∀ y ∈ l, y ≠ 0 := by
  induction h with
  | nil => simp
  | cons x l h0 _ ih =>
    intro y hy
    rcases List.mem_cons.1 hy with rfl | h
    · exact h0
    · exact ih y h

/-- A chain is cut at any of its members. -/
theorem Chain.split {t : Tree} {x s : Nat} {l : List Nat} (h : Chain t x l) (hs : s ∈ l) :
    ∃ a b, l = a ++ s :: b ∧ Chain t s (s :: b) := by
  induction h with
  | nil => simp at hs
  | cons x l h0 hc ih =>
    by_cases e : s = x
    · subst e; exact ⟨[], l, rfl, .cons s l h0 hc⟩
    · obtain ⟨a, b, h1, h2⟩ := ih ((List.mem_cons.1 hs).resolve_left e)
      exact ⟨x :: a, b, by rw [h1]; rfl, h2⟩

theorem Chain.cut {t : Tree} {s : Nat} {b : List Nat} : ∀ {a : List Nat} {x : Nat},
    Chain t x (a ++ s :: b) → Chain t s (s :: b)
  | [], _, h => by cases h with | cons _ _ h0 h1 => exact .cons _ _ h0 h1
  | _ :: _, _, h => by cases h with | cons _ _ _ h1 => exact Chain.cut h1

/-- Replace the end of a chain. -/
theorem Chain.replace {t t' : Tree} {x s : Nat} {l a b c : List Nat} (h : Chain t x l)
    (hl : l = a ++ s :: b) (e : ∀ y ∈ a, (t' y).sibling = (t y).sibling)
    (hc : Chain t' s (s :: c)) : Chain t' x (a ++ s :: c) := by
  induction a generalizing x l with
  | nil =>
    subst hl
    cases h with
    | cons _ _ _ _ => exact hc
  | cons y a ih =>
    subst hl
    cases h with
    | cons _ _ h0 h1 =>
      refine .cons _ _ h0 ?_
      rw [e y (by simp)]
      exact ih h1 rfl fun z hz => e z (by simp [hz])

/-- `AddSibling` goes to the end of the chain. -/
theorem addSibling_eq {t : Tree} {q c : Nat} (hq : q ≠ 0) (hc : (t c).parent = 0) :
    ∀ (l : List Nat) (cur : Nat), Chain t cur l → cur ≠ 0 → (∀ y ∈ l, (t y).parent = q) →
    ∃ z a, l = a ++ [z] ∧ (t z).sibling = 0 ∧ ∀ n, l.length ≤ n →
      addSibling n t cur c = some (setParent (setSibling t z c) c q) := by
  intro l
  induction l with
  | nil => intro cur h h0 _; cases h; exact absurd rfl h0
  | cons x l ih =>
    intro cur h h0 hp
    cases h with
    | cons _ _ _ h1 =>
      have hx := hp x (by simp)
      by_cases hs : (t x).sibling = 0
      · rw [hs] at h1
        cases h1 with
        | nil =>
          refine ⟨x, [], rfl, hs, fun n hn => ?_⟩
          cases n with
          | zero => simp at hn
          | succ n => simp [addSibling, hx, hq, hs, hc]
        | cons _ _ h2 _ => exact absurd rfl h2
      · obtain ⟨z, a, e1, e2, e3⟩ := ih _ h1 hs fun y hy => hp y (by simp [hy])
        refine ⟨z, x :: a, by rw [e1]; rfl, e2, fun n hn => ?_⟩
        cases n with
        | zero => simp at hn
        | succ n =>
          rw [addSibling, if_neg (by rw [hx]; exact hq), if_neg hs]
          exact e3 n (by simpa using hn)

/-- `RemSibling` finds the predecessor. -/
theorem remSibling_eq {t : Tree} {q c : Nat} :
    ∀ (l : List Nat) (cur : Nat), Chain t cur (cur :: l) → (∀ y ∈ cur :: l, (t y).parent = q) →
    c ∈ l → l.Nodup → ∃ z a b, cur :: l = a ++ z :: c :: b ∧ (t z).sibling = c ∧
      ∀ n, l.length ≤ n →
      remSibling n t cur c = some (setSibling (setParent t c 0) z (t c).sibling) := by
  intro l
  induction l with
  | nil => intro cur _ _ h; simp at h
  | cons x l ih =>
    intro cur h hp hc hnd
    cases h with
    | cons _ _ h0 h1 =>
      have hx : (t cur).sibling = x := by
        generalize hs : (t cur).sibling = s at h1
        cases h1 with
        | cons _ _ _ _ => rfl
      rw [hx] at h1
      have hx0 : x ≠ 0 := h1.ne_zero x (by simp)
      by_cases e : x = c
      · refine ⟨cur, [], l, by rw [e]; rfl, by rw [hx, e], fun n hn => ?_⟩
        cases n with
        | zero => simp at hn
        | succ n =>
          rw [remSibling, hx, if_neg hx0, if_pos e]
          rw [if_neg]
          simp only [ne_eq, not_not]
          rw [hp cur (by simp), hp c (by simp [e])]
      · rw [List.nodup_cons] at hnd
        obtain ⟨z, a, b, e1, e2, e3⟩ := ih x h1 (fun y hy => hp y (List.mem_cons_of_mem _ hy))
          ((List.mem_cons.1 hc).resolve_left (Ne.symm e)) hnd.2
        refine ⟨z, cur :: a, b, by rw [e1]; rfl, e2, fun n hn => ?_⟩
        cases n with
        | zero => simp at hn
        | succ n =>
          rw [remSibling, hx, if_neg hx0, if_neg e]
          exact e3 n (by simpa using hn)

theorem countSiblings_eq {t : Tree} : ∀ (l : List Nat) (cur : Nat), Chain t cur l → cur ≠ 0 →
    ∀ n, l.length ≤ n → countSiblings n t cur = some l.length := by
  intro l
  induction l with
  | nil => intro cur h h0; cases h; exact absurd rfl h0
  | cons x l ih =>
    intro cur h h0 n hn
    cases h with
    | cons _ _ _ h1 =>
      cases n with
      | zero => simp at hn
      | succ n =>
        rw [countSiblings]
        by_cases hs : (t x).sibling = 0
        · rw [if_pos hs]
          rw [hs] at h1
          cases h1 with
          | nil => rfl
          | cons _ _ h2 _ => exact absurd rfl h2
        · rw [if_neg hs, ih _ h1 hs n (by simpa using hn)]
          rfl

/-! ## Parent links -/

theorem rooted_link {t t' : Tree} {c q : Nat} (hc : (t' c).parent = q)
    (hp : ∀ y, y ≠ c → (t' y).parent = (t y).parent)
    (hq : Rooted t q) (hw : ¬ Within t c q) : ∀ {x}, Rooted t x → Rooted t' x := by
  have hq' : Rooted t' q := by
    clear hc
    induction hq with
    | root x h =>
      refine .root x ?_
      rw [hp x (fun e => hw (e ▸ .self))]; exact h
    | up x _ ih =>
      refine .up x ?_
      rw [hp x (fun e => hw (e ▸ .self))]
      exact ih fun h => hw (.up x h)
  intro x hx
  induction hx with
  | root x h =>
    by_cases e : x = c
    · subst e; exact .up x (by rw [hc]; exact hq')
    · exact .root x (by rw [hp x e]; exact h)
  | up x _ ih =>
    by_cases e : x = c
    · subst e; exact .up x (by rw [hc]; exact hq')
    · exact .up x (by rw [hp x e]; exact ih)

theorem rooted_unlink {t t' : Tree} {c : Nat} (hc : (t' c).parent = 0)
    (hp : ∀ y, y ≠ c → (t' y).parent = (t y).parent) : ∀ {x}, Rooted t x → Rooted t' x := by
  intro x hx
  induction hx with
  | root x h =>
    by_cases e : x = c
    · subst e; exact .root x hc
    · exact .root x (by rw [hp x e]; exact h)
  | up x _ ih =>
    by_cases e : x = c
    · subst e; exact .root x hc
    · exact .up x (by rw [hp x e]; exact ih)

/-! ## One operation -/

/-- The lists of children after `c` was appended to the children of `q`. -/
theorem forest_append {t : Tree} {q c : Nat} (hf : Forest t) (hq : q ≠ 0) (hc0 : c ≠ 0)
    (hcp : (t c).parent = 0) (hcs : (t c).sibling = 0) (hw : ¬ Within t c q)
    {t' : Tree} {L : List Nat} (hL : Children t q L)
    (ht : (L = [] ∧ t' = setChild (setParent t c q) q c) ∨
      ∃ a z, L = a ++ [z] ∧ (t z).sibling = 0 ∧ t' = setParent (setSibling t z c) c q) :
    Forest t' ∧ Children t' q (L ++ [c]) ∧
      ∀ p l, p ≠ 0 → p ≠ q → Children t p l → Children t' p l := by
  have hqc : q ≠ c := fun e => hw (e ▸ .self)
  obtain ⟨L', h1, h2, h3⟩ := hf.children q hq
  cases hL.unique h1
  have hcL : c ∉ L := fun h => by
    have := ((h3 c).1 h).2
    rw [hcp] at this; exact hq this.symm
  have hpar : (t' c).parent = q := by
    rcases ht with ⟨_, e⟩ | ⟨a, z, _, _, e⟩ <;> subst e
    · simp [setChild, setParent, Ne.symm hqc]
    · simp [setParent]
  have hpar' : ∀ y, y ≠ c → (t' y).parent = (t y).parent := by
    intro y hy
    rcases ht with ⟨_, e⟩ | ⟨a, z, _, _, e⟩ <;> subst e
    · simp only [setChild, setParent, hy, if_false]; split <;> rfl
    · simp only [setSibling, setParent, hy, if_false]; split <;> rfl
  have hsib : ∀ y, y ∉ L → (t' y).sibling = (t y).sibling := by
    intro y hy
    rcases ht with ⟨_, e⟩ | ⟨a, z, e1, _, e⟩ <;> subst e
    · simp only [setChild, setParent]; split <;> split <;> rfl
    · have : y ≠ z := by rintro rfl; apply hy; rw [e1]; simp
      simp only [setSibling, setParent, this, if_false]; split <;> rfl
  have hchild : ∀ p, p ≠ q → (t' p).child = (t p).child := by
    intro p hp
    rcases ht with ⟨_, e⟩ | ⟨a, z, _, _, e⟩ <;> subst e
    · simp only [setChild, setParent, hp, if_false]; split <;> rfl
    · simp only [setSibling, setParent]; split <;> split <;> rfl
  have hnew : Children t' q (L ++ [c]) := by
    have hcc : Chain t' c [c] := by
      refine .cons c [] hc0 ?_
      rw [hsib c hcL, hcs]; exact .nil
    rcases ht with ⟨e0, e⟩ | ⟨a, z, e1, e2, e⟩
    · subst e0
      rw [Children]
      have : (t' q).child = c := by subst e; simp [setChild]
      rw [this]; exact hcc
    · have hz : (t' z).sibling = c := by
        have hzc : z ≠ c := by rintro rfl; apply hcL; rw [e1]; simp
        subst e; simp [setParent, setSibling, hzc]
      have hz0 : z ≠ 0 := ((h3 z).1 (by rw [e1]; simp)).1
      rw [e1] at h2 h1
      have hq' : (t' q).child = (t q).child := by
        subst e; simp only [setSibling, setParent]; split <;> split <;> rfl
      rw [Children, hq', e1]
      have := Chain.replace (t' := t') (c := [c]) h1 (rfl : a ++ [z] = a ++ z :: []) (by
        intro y hy
        have hyz : y ≠ z := by
          rintro rfl
          rw [List.nodup_append] at h2
          exact h2.2.2 y hy y (by simp) rfl
        have hyc : y ≠ c := by
          rintro rfl; apply hcL; rw [e1]; simp [hy]
        subst e; simp [setParent, setSibling, hyz, hyc]) (.cons z _ hz0 (by rw [hz]; exact hcc))
      simpa using this
  have hold : ∀ p l, p ≠ 0 → p ≠ q → Children t p l → Children t' p l := by
    intro p l hp hpq hl
    rw [Children, hchild p hpq]
    refine Chain.congr hl fun y hy => hsib y fun hyL => ?_
    obtain ⟨l2, g1, _, g3⟩ := hf.children p hp
    cases hl.unique g1
    have h5 := ((g3 y).1 hy).2
    have h6 := ((h3 y).1 hyL).2
    exact hpq (by rw [← h5, h6])
  refine ⟨⟨fun p hp => ?_, fun x hx => ?_⟩, hnew, hold⟩
  · by_cases hpq : p = q
    · subst hpq
      refine ⟨_, hnew, ?_, fun y => ?_⟩
      · rw [List.nodup_append]
        refine ⟨h2, by simp, ?_⟩
        intro y hy z hz
        simp only [List.mem_singleton] at hz
        subst hz
        rintro rfl; exact hcL hy
      · simp only [List.mem_append, List.mem_singleton]
        by_cases e : y = c
        · subst e; simp [hpar, hc0]
        · rw [hpar' y e, h3 y]; simp [e]
    · obtain ⟨l, g1, g2, g3⟩ := hf.children p hp
      refine ⟨l, hold p l hp hpq g1, g2, fun y => ?_⟩
      rw [g3 y]
      by_cases e : y = c
      · subst e
        rw [hpar, hcp]
        exact ⟨fun h => absurd h.2 (Ne.symm hp), fun h => absurd h.2 (Ne.symm hpq)⟩
      · rw [hpar' y e]
  · exact rooted_link hpar hpar' (hf.rooted q hq) hw (hf.rooted x hx)

/-- The lists of children after `c` was unlinked from the children of `q`. -/
theorem forest_remove {t : Tree} {q c : Nat} (hf : Forest t) (hq : q ≠ 0)
    {t' : Tree} {L : List Nat} (hL : Children t q L) (hcL : c ∈ L)
    (ht : ((∃ b, L = c :: b) ∧ t' = setChild (setParent t c 0) q (t c).sibling) ∨
      ∃ a z b, L = a ++ z :: c :: b ∧
        t' = setSibling (setParent t c 0) z (t c).sibling) :
    Forest t' ∧ Children t' q (L.erase c) ∧ (t' c).parent = 0 ∧
      ∀ p l, p ≠ 0 → p ≠ q → Children t p l → Children t' p l := by
  obtain ⟨L', h1, h2, h3⟩ := hf.children q hq
  cases hL.unique h1
  have hcp := ((h3 c).1 hcL).2
  have hc0 := ((h3 c).1 hcL).1
  have hpar : (t' c).parent = 0 := by
    rcases ht with ⟨_, e⟩ | ⟨a, z, b, _, e⟩ <;> subst e
    · simp only [setChild, setParent, if_true]; split <;> rfl
    · simp only [setSibling, setParent, if_true]; split <;> rfl
  have hpar' : ∀ y, y ≠ c → (t' y).parent = (t y).parent := by
    intro y hy
    rcases ht with ⟨_, e⟩ | ⟨a, z, b, _, e⟩ <;> subst e
    · simp only [setChild, setParent, hy, if_false]; split <;> rfl
    · simp only [setSibling, setParent, hy, if_false]; split <;> rfl
  have hsib : ∀ y, y ∉ L → (t' y).sibling = (t y).sibling := by
    intro y hy
    rcases ht with ⟨_, e⟩ | ⟨a, z, b, e1, e⟩ <;> subst e
    · simp only [setChild, setParent]; split <;> split <;> rfl
    · have : y ≠ z := by rintro rfl; apply hy; rw [e1]; simp
      simp only [setSibling, setParent, this, if_false]; split <;> rfl
  have hchild : ∀ p, p ≠ q → (t' p).child = (t p).child := by
    intro p hp
    rcases ht with ⟨_, e⟩ | ⟨a, z, b, _, e⟩ <;> subst e
    · simp only [setChild, setParent, hp, if_false]; split <;> rfl
    · simp only [setSibling, setParent]; split <;> split <;> rfl
  have hnew : Children t' q (L.erase c) := by
    rcases ht with ⟨⟨b, e0⟩, e⟩ | ⟨a, z, b, e1, e⟩
    · subst e0
      rw [List.erase_cons_head, Children]
      have e5 : (t' q).child = (t c).sibling := by subst e; simp [setChild]
      rw [e5]
      have h4 : Chain t (t c).sibling b := by
        rw [Children] at h1
        generalize (t q).child = s at h1
        cases h1 with
        | cons _ _ _ h => exact h
      refine h4.congr fun y hy => ?_
      subst e
      simp only [setChild, setParent]; split <;> split <;> rfl
    · subst e1
      have hza : z ∉ a := by
        intro h
        rw [List.nodup_append] at h2
        exact h2.2.2 z h z (by simp) rfl
      have hzcb : z ∉ c :: b := by
        intro h
        rw [List.nodup_append, List.nodup_cons] at h2
        exact h2.2.1.1 h
      have hca : c ∉ a := by
        intro h
        rw [List.nodup_append] at h2
        exact h2.2.2 c h c (by simp) rfl
      have hzc : z ≠ c := by rintro rfl; exact hzcb (by simp)
      have hcut : Chain t z (z :: c :: b) := Chain.cut h1
      have h6 : Chain t (t c).sibling b := by
        cases hcut with
        | cons _ _ _ h =>
          generalize (t z).sibling = s at h
          cases h with
          | cons _ _ _ h => exact h
      have hz0 : z ≠ 0 := ((h3 z).1 (by simp)).1
      have hzs : (t' z).sibling = (t c).sibling := by
        subst e; simp [setSibling]
      have hq' : (t' q).child = (t q).child := by
        subst e; simp only [setSibling, setParent]; split <;> split <;> rfl
      have hsame : ∀ y, y ≠ z → (t' y).sibling = (t y).sibling := by
        intro y hy
        subst e; simp only [setSibling, setParent, hy, if_false]; split <;> rfl
      have herase : (a ++ z :: c :: b).erase c = a ++ z :: b := by
        rw [List.erase_append_right _ hca, List.erase_cons_tail (by simpa using hzc),
          List.erase_cons_head]
      rw [herase, Children, hq']
      refine Chain.replace h1 rfl (fun y hy => hsame y ?_) (.cons z _ hz0 ?_)
      · rintro rfl; exact hza hy
      · rw [hzs]
        refine h6.congr fun y hy => hsame y ?_
        rintro rfl; exact hzcb (by simp [hy])
  have hold : ∀ p l, p ≠ 0 → p ≠ q → Children t p l → Children t' p l := by
    intro p l hp hpq hl
    rw [Children, hchild p hpq]
    refine Chain.congr hl fun y hy => hsib y fun hyL => ?_
    obtain ⟨l2, g1, _, g3⟩ := hf.children p hp
    cases hl.unique g1
    have h5 := ((g3 y).1 hy).2
    have h6 := ((h3 y).1 hyL).2
    exact hpq (by rw [← h5, h6])
  refine ⟨⟨fun p hp => ?_, fun x hx => rooted_unlink hpar hpar' (hf.rooted x hx)⟩, hnew, hpar,
    hold⟩
  by_cases hpq : p = q
  · subst hpq
    refine ⟨_, hnew, h2.erase c, fun y => ?_⟩
    rw [h2.mem_erase_iff, h3 y]
    by_cases e : y = c
    · subst e; simp [hpar, Ne.symm hp]
    · rw [hpar' y e]; simp [e]
  · obtain ⟨l, g1, g2, g3⟩ := hf.children p hp
    refine ⟨l, hold p l hp hpq g1, g2, fun y => ?_⟩
    rw [g3 y]
    by_cases e : y = c
    · subst e
      rw [hpar, hcp]
      exact ⟨fun h => absurd h.2.symm hpq, fun h => absurd h.2 (Ne.symm hp)⟩
    · rw [hpar' y e]

end Verif.Sets
