import Verif.Refs.Model
import Verif.Sets.TreeProps

/-! # Lemmas on the links of sets when hidden sets are taken out -/

namespace Verif.Refs

open Verif.Sets

/-- Following the siblings from any set one comes to an end. -/
def Ends (t : Tree) : Prop := ∀ x, ∃ l, Chain t x l

theorem ends_skip {t t' : Tree} {c : Nat} (hc : c ≠ 0) (E : Ends t)
    (h : ∀ y, (t' y).sibling = (t y).sibling ∨ ((t y).sibling = c ∧ (t' y).sibling = (t c).sibling)) :
    Ends t' := by
  have key : ∀ (n : Nat) (x : Nat) (l : List Nat), l.length ≤ n → Chain t x l → ∃ l', Chain t' x l' := by
    intro n
    induction n with
    | zero =>
      intro x l hl hx
      cases hx with
      | nil => exact ⟨[], .nil⟩
      | cons _ _ _ _ => simp at hl
    | succ n ih =>
      intro x l hl hx
      cases hx with
      | nil => exact ⟨[], .nil⟩
      | cons _ l h0 h1 =>
        simp only [List.length_cons] at hl
        rcases h x with h2 | ⟨h2, h3⟩
        · obtain ⟨l', h4⟩ := ih _ l (by omega) h1
          exact ⟨x :: l', .cons x l' h0 (h2 ▸ h4)⟩
        · rw [h2] at h1
          cases h1 with
          | nil => exact absurd rfl hc
          | cons _ l2 _ h5 =>
            simp only [List.length_cons] at hl
            obtain ⟨l', h4⟩ := ih _ l2 (by omega) h5
            exact ⟨x :: l', .cons x l' h0 (h3 ▸ h4)⟩
  intro x
  obtain ⟨l, hl⟩ := E x
  exact key _ x l (Nat.le_refl _) hl

theorem ends_zero {t t' : Tree} (E : Ends t)
    (h : ∀ y, (t' y).sibling = (t y).sibling ∨ (t' y).sibling = 0) : Ends t' := by
  have key : ∀ x l, Chain t x l → ∃ l', Chain t' x l' := by
    intro x l hx
    induction hx with
    | nil => exact ⟨[], .nil⟩
    | cons x l h0 _ ih =>
      rcases h x with h2 | h2
      · obtain ⟨l', h4⟩ := ih
        exact ⟨x :: l', .cons x l' h0 (h2 ▸ h4)⟩
      · exact ⟨[x], .cons x [] h0 (h2 ▸ .nil)⟩
  intro x
  obtain ⟨l, hl⟩ := E x
  exact key x l hl

/-- The link of a set without parent to its sibling does not matter to the forest. -/
theorem forest_fields {t t' : Tree} (hf : Forest t)
    (hp : ∀ z, (t' z).parent = (t z).parent) (hc : ∀ z, (t' z).child = (t z).child)
    (hs : ∀ z, (t z).parent ≠ 0 → (t' z).sibling = (t z).sibling) :
    Forest t' ∧ ∀ p l, p ≠ 0 → Children t p l → Children t' p l := by
  have key : ∀ p l, p ≠ 0 → Children t p l → Children t' p l := by
    intro p l hp0 hl
    rw [Children, hc]
    refine Chain.congr hl fun z hz => hs z ?_
    obtain ⟨l2, g1, _, g3⟩ := hf.children p hp0
    cases hl.unique g1
    rw [((g3 z).1 hz).2]
    exact hp0
  refine ⟨⟨fun p hp0 => ?_, fun x hx => ?_⟩, key⟩
  · obtain ⟨l, g1, g2, g3⟩ := hf.children p hp0
    exact ⟨l, key p l hp0 g1, g2, fun c => by rw [g3 c, hp c]⟩
  · have : ∀ x, Rooted t x → Rooted t' x := by
      intro x h
      induction h with
      | root x h => exact .root x (by rw [hp]; exact h)
      | up x _ ih => exact .up x (by rw [hp]; exact ih)
    exact this x (hf.rooted x hx)

/-- What remains of the links while hidden sets are taken out: a forest whose lists of
children are parts of the former ones; a set has lost its parent only if one of both is
hidden. -/
structure Part (mk : Nat → Bool) (t0 t : Tree) : Prop where
  forest : Forest t
  ends : Ends t
  par : ∀ x, (t x).parent = (t0 x).parent ∨
    ((t x).parent = 0 ∧ (mk x = true ∨ mk (t0 x).parent = true))
  sub : ∀ p l0 l, p ≠ 0 → Children t0 p l0 → Children t p l → l.Sublist l0
  link : ∀ x, (t x).child = (t0 x).child ∨ (t x).child = 0 ∨ (∃ y, (t x).child = (t0 y).sibling)
  link2 : ∀ x, (t x).sibling = 0 ∨ (∃ y, (t x).sibling = (t0 y).sibling)
  none : ∀ x, ((t0 x).sibling = 0 → (t x).sibling = 0) ∧ ((t0 x).child = 0 → (t x).child = 0)

theorem Part.refl {mk : Nat → Bool} {t : Tree} (F : Forest t) (E : Ends t) : Part mk t t where
  forest := F
  ends := E
  par := fun _ => .inl rfl
  sub := fun p l0 l _ h0 h => by cases h0.unique h; exact List.Sublist.refl _
  link := fun _ => .inl rfl
  link2 := fun x => .inr ⟨x, rfl⟩
  none := fun _ => ⟨id, id⟩

variable {mk : Nat → Bool} {t0 t : Tree}

/-- One set is taken out of the list of children of `q`. -/
theorem Part.cut {t' : Tree} {q c : Nat} {L : List Nat} (P : Part mk t0 t) (hq : q ≠ 0)
    (hL : Children t q L) (hc : c ∈ L) (hm : mk c = true ∨ mk q = true)
    (ht : ((∃ b, L = c :: b) ∧ t' = setChild (setParent t c 0) q (t c).sibling) ∨
      ∃ a z b, L = a ++ z :: c :: b ∧
        t' = setSibling (setParent t c 0) z (t c).sibling) :
    Part mk t0 t' ∧ (∀ y, (t' y).parent = if y = c then 0 else (t y).parent) ∧
      (∀ y, (t' y).sibling = (t y).sibling ∨
        ((t y).sibling = c ∧ (t y).parent = q ∧ (t' y).sibling = (t c).sibling)) ∧
      (∀ y, (t' y).child = (t y).child ∨
        ((t y).child = c ∧ y = q ∧ (t' y).child = (t c).sibling)) := by
  obtain ⟨L', h1, h2, h3⟩ := P.forest.children q hq
  cases hL.unique h1
  have hcp := ((h3 c).1 hc).2
  have hc0 := ((h3 c).1 hc).1
  obtain ⟨k1, k2, k3, k4⟩ := forest_remove P.forest hq hL hc ht
  have f1 : ∀ y, (t' y).parent = if y = c then 0 else (t y).parent := by
    intro y
    by_cases e : y = c
    · subst e; rw [if_pos rfl]; exact k3
    · rw [if_neg e]
      rcases ht with ⟨_, e⟩ | ⟨a, z, b, _, e⟩ <;> subst e
      · simp only [setChild, setParent]; split <;> (try split) <;> simp_all
      · simp only [setSibling, setParent]; split <;> (try split) <;> simp_all
  have f2 : ∀ y, (t' y).sibling = (t y).sibling ∨
        ((t y).sibling = c ∧ (t y).parent = q ∧ (t' y).sibling = (t c).sibling) := by
    intro y
    rcases ht with ⟨_, e⟩ | ⟨a, z, b, e1, e⟩
    · left; subst e; simp only [setChild, setParent]; split <;> split <;> rfl
    · by_cases e2 : y = z
      · right
        subst e2
        have hcut : Chain t y (y :: c :: b) := by
          have := hL
          rw [e1, Children] at this
          exact Chain.cut this
        refine ⟨?_, ((h3 y).1 (by rw [e1]; simp)).2, ?_⟩
        · cases hcut with
          | cons _ _ _ h =>
            generalize (t y).sibling = s at h
            cases h with
            | cons _ _ _ _ => rfl
        · subst e; simp [setSibling]
      · left; subst e; simp only [setSibling, setParent, e2, if_false]; split <;> rfl
  have f3 : ∀ y, (t' y).child = (t y).child ∨
        ((t y).child = c ∧ y = q ∧ (t' y).child = (t c).sibling) := by
    intro y
    rcases ht with ⟨⟨b, e1⟩, e⟩ | ⟨a, z, b, e1, e⟩
    · by_cases e2 : y = q
      · right
        subst e2
        refine ⟨?_, rfl, ?_⟩
        · have := hL
          rw [e1, Children] at this
          generalize (t y).child = s at this
          cases this with
          | cons _ _ _ _ => rfl
        · subst e; simp [setChild]
      · left; subst e; simp only [setChild, setParent, e2, if_false]; split <;> rfl
    · left; subst e; simp only [setSibling, setParent]; split <;> split <;> rfl
  refine ⟨⟨k1, ends_skip hc0 P.ends fun y => (f2 y).imp id fun h => ⟨h.1, h.2.2⟩, ?_, ?_, ?_, ?_, ?_⟩,
    f1, f2, f3⟩
  · intro x
    rw [f1 x]
    split
    · rename_i e
      subst e
      right
      refine ⟨rfl, ?_⟩
      rcases P.par x with h | ⟨h, h'⟩
      · rw [← h, hcp]; exact hm
      · exact h'
    · exact P.par x
  · intro p l0 l hp h0 hl
    by_cases e : p = q
    · subst e
      cases k2.unique hl
      exact List.erase_sublist.trans (P.sub p l0 L hp h0 hL)
    · obtain ⟨l2, g1, _⟩ := P.forest.children p hp
      rw [← (k4 p l2 hp e g1).unique hl]
      exact P.sub p l0 l2 hp h0 g1
  · intro x
    rcases f3 x with h | ⟨_, _, h⟩
    · rw [h]; exact P.link x
    · rw [h]
      rcases P.link2 c with h | h
      · exact .inr (.inl h)
      · exact .inr (.inr h)
  · intro x
    rcases f2 x with h | ⟨_, _, h⟩
    · rw [h]; exact P.link2 x
    · rw [h]; exact P.link2 c
  · intro x
    refine ⟨fun h => ?_, fun h => ?_⟩
    · have h0 := (P.none x).1 h
      rcases f2 x with h | ⟨h, _⟩
      · rw [h, h0]
      · exact absurd (h.symm.trans h0) hc0
    · have h0 := (P.none x).2 h
      rcases f3 x with h | ⟨h, _⟩
      · rw [h, h0]
      · exact absurd (h.symm.trans h0) hc0

/-- A set that has no parent drops its link to the next set, which has no parent either. -/
theorem Part.skip {t' : Tree} {x s : Nat} (P : Part mk t0 t) (hx : (t x).parent = 0)
    (hs : (t x).sibling = s) (hs0 : s ≠ 0) (hsp : (t s).parent = 0)
    (ht : t' = setSibling (setParent t s 0) x (t s).sibling) :
    Part mk t0 t' ∧ (∀ y, (t' y).parent = (t y).parent) ∧
      (∀ y, (t' y).sibling = if y = x then (t s).sibling else (t y).sibling) ∧
      (∀ y, (t' y).child = (t y).child) := by
  have f1 : ∀ y, (t' y).parent = (t y).parent := by
    intro y; subst ht
    simp only [setSibling, setParent]
    split <;> split <;> simp_all
  have f2 : ∀ y, (t' y).sibling = if y = x then (t s).sibling else (t y).sibling := by
    intro y; subst ht
    simp only [setSibling, setParent]
    split <;> (try split) <;> simp_all
  have f3 : ∀ y, (t' y).child = (t y).child := by
    intro y; subst ht
    simp only [setSibling, setParent]
    split <;> split <;> simp_all
  obtain ⟨g1, g2⟩ := forest_fields P.forest f1 f3 fun z hz => by
    rw [f2, if_neg]; rintro rfl; exact hz hx
  refine ⟨⟨g1, ends_skip hs0 P.ends fun y => ?_, fun y => by rw [f1]; exact P.par y, ?_, fun y => ?_,
    fun y => ?_, fun y => ⟨fun h => ?_, fun h => ?_⟩⟩, f1, f2, f3⟩
  · rw [f2]
    split
    · rename_i e; subst e; exact .inr ⟨hs, rfl⟩
    · exact .inl rfl
  · intro p l0 l hp h0 hl
    obtain ⟨l2, k1, _⟩ := P.forest.children p hp
    rw [← (g2 p l2 hp k1).unique hl]
    exact P.sub p l0 l2 hp h0 k1
  · rw [f3]; exact P.link y
  · rw [f2]
    split
    · exact P.link2 s
    · exact P.link2 y
  · have h0 := (P.none y).1 h
    rw [f2, if_neg]
    · exact h0
    · rintro rfl; exact hs0 (hs.symm.trans h0)
  · rw [f3]; exact (P.none y).2 h

/-- `RemChild` of a child. -/
theorem remChild_shape {q c : Nat} (F : Forest t) (hq : q ≠ 0) (hc : c ≠ 0) (hp : (t c).parent = q) :
    ∃ L t', Children t q L ∧ c ∈ L ∧
      (((∃ b, L = c :: b) ∧ t' = setChild (setParent t c 0) q (t c).sibling) ∨
        ∃ a z b, L = a ++ z :: c :: b ∧ t' = setSibling (setParent t c 0) z (t c).sibling) ∧
      ∃ m, ∀ n, m ≤ n → remChild n t q c = some t' := by
  obtain ⟨L, g1, g2, g3⟩ := F.children q hq
  have hcL : c ∈ L := (g3 c).2 ⟨hc, hp⟩
  have g1' := g1
  rw [Children] at g1'
  cases L with
  | nil => simp at hcL
  | cons x l =>
    have hx : (t q).child = x := by
      generalize (t q).child = s at g1'
      cases g1' with
      | cons _ _ _ _ => rfl
    rw [hx] at g1'
    have hx0 : x ≠ 0 := g1'.ne_zero x (by simp)
    by_cases e : x = c
    · refine ⟨_, _, g1, hcL, .inl ⟨⟨l, by rw [e]⟩, rfl⟩, 0, fun n _ => ?_⟩
      simp [remChild, hx, e, hp, hc]
    · rw [List.nodup_cons] at g2
      obtain ⟨z, a, b, e1, e2, e3⟩ := remSibling_eq l x g1' (fun y hy => ((g3 y).1 hy).2)
        ((List.mem_cons.1 hcL).resolve_left (Ne.symm e)) g2.2
      refine ⟨_, _, g1, hcL, .inr ⟨a, z, b, e1, rfl⟩, l.length, fun n hn => ?_⟩
      simp only [remChild, hx, if_neg hx0, if_neg e]
      exact e3 n hn

/-- No link of the set leads to a marked set. -/
def Clean (mk : Nat → Bool) (t : Tree) (x : Nat) : Prop :=
  mk (t x).parent = false ∧ mk (t x).sibling = false ∧ mk (t x).child = false

/-- A set without parent is followed by a marked set only if that set has no parent. -/
def Loose (mk : Nat → Bool) (t : Tree) : Prop :=
  ∀ x, (t x).parent = 0 → mk (t x).sibling = true → (t (t x).sibling).parent = 0

/-- All links lead to existing sets. -/
def Linked (lv : Nat → Bool) (t : Tree) : Prop :=
  ∀ x, ((t x).parent = 0 ∨ lv (t x).parent = true) ∧ ((t x).sibling = 0 ∨ lv (t x).sibling = true) ∧
    ((t x).child = 0 ∨ lv (t x).child = true)

theorem Part.linked {lv : Nat → Bool} (P : Part mk t0 t) (H : Linked lv t0) : Linked lv t := by
  intro x
  refine ⟨?_, ?_, ?_⟩
  · rcases P.par x with h | ⟨h, _⟩
    · rw [h]; exact (H x).1
    · exact .inl h
  · rcases P.link2 x with h | ⟨y, h⟩
    · exact .inl h
    · rw [h]; exact (H y).2.1
  · rcases P.link x with h | h | ⟨y, h⟩
    · rw [h]; exact (H x).2.2
    · exact .inl h
    · rw [h]; exact (H y).2.1

/-- The parent of a set in the course of the work. -/
theorem Part.hidPar (P : Part mk t0 t) (m0 : mk 0 = false)
    (A : ∀ x, mk x = true → mk (t0 x).parent = false) {x : Nat} (h : mk (t x).parent = true) :
    mk x = false := by
  cases e : mk x with
  | false => rfl
  | true =>
    rcases P.par x with h1 | ⟨h1, _⟩
    · rw [h1, A x e] at h; cases h
    · rw [h1, m0] at h; cases h

/-- The next sibling of a set with a parent has the same parent. -/
theorem next_parent (F : Forest t) {x : Nat} (hx : x ≠ 0) (hp : (t x).parent ≠ 0)
    (hs : (t x).sibling ≠ 0) : (t (t x).sibling).parent = (t x).parent := by
  obtain ⟨L, g1, g2, g3⟩ := F.children _ hp
  obtain ⟨a, b, e1, e2⟩ := Chain.split g1 ((g3 x).2 ⟨hx, rfl⟩)
  cases e2 with
  | cons _ _ _ h =>
    generalize hs2 : (t x).sibling = s at h hs
    cases h with
    | nil => exact absurd rfl hs
    | cons _ l2 _ _ => exact ((g3 s).1 (by rw [e1]; simp)).2

theorem child_parent (F : Forest t) {x : Nat} (hx : x ≠ 0) (hs : (t x).child ≠ 0) :
    (t (t x).child).parent = x := by
  obtain ⟨L, g1, g2, g3⟩ := F.children x hx
  rw [Children] at g1
  generalize hs2 : (t x).child = s at g1 hs
  cases g1 with
  | nil => exact absurd rfl hs
  | cons _ l2 _ _ => exact ((g3 s).1 (by simp)).2

variable {lv : Nat → Bool}

theorem dropParent_spec {x : Nat} (P : Part mk t0 t) (m0 : mk 0 = false)
    (A : ∀ x, mk x = true → mk (t0 x).parent = false) (H : Linked lv t0) (B : Loose mk t)
    (hx : x ≠ 0) :
    ∃ t' m, (∀ n, m ≤ n → dropParent lv mk n t x = some t') ∧ Part mk t0 t' ∧ Loose mk t' ∧
      mk (t' x).parent = false ∧ ∀ y, Clean mk t y → Clean mk t' y := by
  by_cases h0 : (t x).parent = 0
  · refine ⟨t, 0, fun n _ => ?_, P, B, by rw [h0]; exact m0, fun _ h => h⟩
    rw [dropParent, if_pos h0]
  · have hl : lv (t x).parent = true := ((P.linked H x).1).resolve_left h0
    cases hm : mk (t x).parent with
    | false =>
      refine ⟨t, 0, fun n _ => ?_, P, B, hm, fun _ h => h⟩
      rw [dropParent, if_neg h0, linkMarked, if_pos hl, hm]
    | true =>
      obtain ⟨L, t', k1, k2, k3, m, k4⟩ := remChild_shape P.forest h0 hx rfl
      obtain ⟨P', f1, f2, f3⟩ := P.cut h0 k1 k2 (.inr hm) k3
      have hsx : mk (t x).sibling = false := by
        by_cases e : (t x).sibling = 0
        · rw [e]; exact m0
        · refine P.hidPar m0 A ?_
          rw [next_parent P.forest hx h0 e]; exact hm
      have hsib : ∀ y, mk (t' y).sibling = true → mk (t y).sibling = true ∧
          (t' y).sibling = (t y).sibling := by
        intro y hy
        rcases f2 y with h | ⟨_, _, h⟩
        · rw [h] at hy; exact ⟨hy, h⟩
        · rw [h, hsx] at hy; cases hy
      refine ⟨t', m, fun n hn => ?_, P', ?_, by rw [f1, if_pos rfl]; exact m0, ?_⟩
      · rw [dropParent, if_neg h0, linkMarked, if_pos hl, hm]
        exact k4 n hn
      · intro y hy hs
        obtain ⟨h1, h2⟩ := hsib y hs
        rw [h2, f1]
        split
        · rfl
        · by_cases e : y = x
          · subst e; rw [hsx] at h1; cases h1
          · rw [f1, if_neg e] at hy
            exact B y hy h1
      · rintro y ⟨h1, h2, h3⟩
        refine ⟨?_, ?_, ?_⟩
        · rw [f1]; split
          · exact m0
          · exact h1
        · cases e : mk (t' y).sibling with
          | false => rfl
          | true => rw [(hsib y e).1] at h2; cases h2
        · rcases f3 y with h | ⟨_, _, h⟩
          · rw [h]; exact h3
          · rw [h]; exact hsx

theorem dropChildren_spec {x : Nat} (m0 : mk 0 = false) (H : Linked lv t0) (hx : x ≠ 0) :
    ∀ (k : Nat) (t : Tree) (L : List Nat), L.length = k → Children t x L → Part mk t0 t →
    (∀ y, (t y).parent = 0 → mk (t y).sibling = true →
      (t (t y).sibling).parent = 0 ∨ (t y).sibling = (t x).child) →
    ∃ t', (∀ n, k + 1 ≤ n → dropChildren lv mk n t x = some t') ∧ Part mk t0 t' ∧ Loose mk t' ∧
      mk (t' x).child = false ∧ (∀ y, mk (t y).parent = false → mk (t' y).parent = false) ∧
      (∀ y, (t' y).sibling = (t y).sibling) ∧ (∀ y, y ≠ x → (t' y).child = (t y).child) := by
  intro k
  induction k with
  | zero =>
    intro t L hk hL P B
    have : L = [] := List.length_eq_zero_iff.1 hk
    subst this
    have hc : (t x).child = 0 := by
      rw [Children] at hL
      generalize (t x).child = s at hL
      cases hL with
      | nil => rfl
    refine ⟨t, fun n hn => ?_, P, ?_, by rw [hc]; exact m0, fun _ h => h, fun _ => rfl, fun _ _ => rfl⟩
    · cases n with
      | zero => omega
      | succ n => rw [dropChildren, if_pos hc]
    · intro y hy hs
      rcases B y hy hs with h | h
      · exact h
      · rw [h, hc, m0] at hs; cases hs
  | succ k ih =>
    intro t L hk hL P B
    cases L with
    | nil => simp at hk
    | cons c b =>
      have hcL := hL
      have hc : (t x).child = c := by
        rw [Children] at hL
        generalize (t x).child = s at hL
        cases hL with
        | cons _ _ _ _ => rfl
      have hc0 : c ≠ 0 := hL.ne_zero c (by simp)
      have hl : lv c = true := by
        have := (P.linked H x).2.2
        rw [hc] at this
        exact this.resolve_left hc0
      cases hm : mk c with
      | false =>
        refine ⟨t, fun n hn => ?_, P, ?_, by rw [hc]; exact hm, fun _ h => h, fun _ => rfl,
          fun _ _ => rfl⟩
        · cases n with
          | zero => omega
          | succ n => rw [dropChildren, hc, if_neg hc0, linkMarked, if_pos hl, hm]
        · intro y hy hs
          rcases B y hy hs with h | h
          · exact h
          · rw [h, hc, hm] at hs; cases hs
      | true =>
        have hcp : (t c).parent = x := by
          have := child_parent P.forest hx (by rw [hc]; exact hc0)
          rwa [hc] at this
        obtain ⟨P', f1, f2, f3⟩ := P.cut (t' := setChild (setParent t c 0) x (t c).sibling) hx hL
          (by simp) (.inl hm) (.inl ⟨⟨b, rfl⟩, rfl⟩)
        obtain ⟨_, k2, _, _⟩ := forest_remove P.forest hx hL (by simp) (.inl ⟨⟨b, rfl⟩, rfl⟩)
        rw [List.erase_cons_head] at k2
        have g2 : ∀ y, ((setChild (setParent t c 0) x (t c).sibling) y).sibling = (t y).sibling := by
          intro y; simp only [setChild, setParent]; split <;> split <;> rfl
        have g3 : ((setChild (setParent t c 0) x (t c).sibling) x).child = (t c).sibling := by
          simp [setChild]
        obtain ⟨t', e1, e2, e3, e4, e5, e6, e7⟩ := ih _ b (by simpa using hk) k2 P' (by
          intro y hy hs
          rw [g2] at hs ⊢
          rw [g3, f1]
          by_cases e : y = c
          · subst e; exact .inr rfl
          · rw [f1, if_neg e] at hy
            rcases B y hy hs with h | h
            · left; rw [h]; split <;> rfl
            · left; rw [h, hc, if_pos rfl])
        refine ⟨t', fun n hn => ?_, e2, e3, e4, fun y hy => e5 y ?_, fun y => by rw [e6, g2],
          fun y hy => ?_⟩
        · cases n with
          | zero => omega
          | succ n =>
            rw [dropChildren, hc, if_neg hc0, linkMarked, if_pos hl, hm]
            have : remChild (n + 1) t x c = some (setChild (setParent t c 0) x (t c).sibling) := by
              simp [remChild, hc, hc0, hcp]
            simp only [this]
            exact e1 n (by omega)
        · rw [f1]; split
          · exact m0
          · exact hy
        · rw [e7 y hy]
          rcases f3 y with h | ⟨_, h, _⟩
          · exact h
          · exact absurd h hy

theorem dropSiblings_spec {x : Nat} (m0 : mk 0 = false) (H : Linked lv t0) (hx : x ≠ 0) :
    ∀ (k : Nat) (t : Tree) (L : List Nat), L.length = k → Chain t (t x).sibling L → Part mk t0 t →
    (∀ y, (t y).parent = 0 → mk (t y).sibling = true →
      (t (t y).sibling).parent = 0 ∨ ((t x).parent ≠ 0 ∧ (t y).sibling = (t x).sibling)) →
    ∃ t', (∀ n, k + 1 ≤ n → dropSiblings lv mk n t x = some t') ∧ Part mk t0 t' ∧ Loose mk t' ∧
      mk (t' x).sibling = false ∧ (∀ y, mk (t y).parent = false → mk (t' y).parent = false) ∧
      (∀ y, y ≠ x → (t' y).sibling = (t y).sibling) ∧ (∀ y, (t' y).child = (t y).child) := by
  intro k
  induction k with
  | zero =>
    intro t L hk hL P B
    have : L = [] := List.length_eq_zero_iff.1 hk
    subst this
    have hc : (t x).sibling = 0 := by
      generalize (t x).sibling = s at hL
      cases hL with
      | nil => rfl
    refine ⟨t, fun n hn => ?_, P, ?_, by rw [hc]; exact m0, fun _ h => h, fun _ _ => rfl, fun _ => rfl⟩
    · cases n with
      | zero => omega
      | succ n => rw [dropSiblings, if_pos hc]
    · intro y hy hs
      rcases B y hy hs with h | ⟨_, h⟩
      · exact h
      · rw [h, hc, m0] at hs; cases hs
  | succ k ih =>
    intro t L hk hL P B
    cases L with
    | nil => simp at hk
    | cons c b =>
      have hc : (t x).sibling = c := by
        generalize (t x).sibling = s at hL
        cases hL with
        | cons _ _ _ _ => rfl
      have hc0 : c ≠ 0 := hL.ne_zero c (by simp)
      have hb : Chain t (t c).sibling b := by
        rw [hc] at hL
        cases hL with
        | cons _ _ _ h => exact h
      have hl : lv c = true := by
        have := (P.linked H x).2.1
        rw [hc] at this
        exact this.resolve_left hc0
      cases hm : mk c with
      | false =>
        refine ⟨t, fun n hn => ?_, P, ?_, by rw [hc]; exact hm, fun _ h => h, fun _ _ => rfl,
          fun _ => rfl⟩
        · cases n with
          | zero => omega
          | succ n => rw [dropSiblings, hc, if_neg hc0, linkMarked, if_pos hl, hm]
        · intro y hy hs
          rcases B y hy hs with h | ⟨_, h⟩
          · exact h
          · rw [h, hc, hm] at hs; cases hs
      | true =>
        -- the next set is taken out
        have key : ∃ t1, t1 = setSibling (setParent t c 0) x (t c).sibling ∧ Part mk t0 t1 ∧
            (∀ y, (t1 y).parent = if y = c then 0 else (t y).parent) ∧
            (t c).parent = (t x).parent ∧
            (∀ y, (t1 y).sibling = if y = x then (t c).sibling else (t y).sibling) ∧
            (∀ y, (t1 y).child = (t y).child) := by
          refine ⟨_, rfl, ?_⟩
          by_cases hp : (t x).parent = 0
          · have hcp : (t c).parent = 0 := by
              rcases B x hp (by rw [hc]; exact hm) with h | ⟨h, _⟩
              · rwa [hc] at h
              · exact absurd hp h
            obtain ⟨P', f1, f2, f3⟩ := P.skip hp hc hc0 hcp rfl
            refine ⟨P', fun y => ?_, by rw [hcp, hp], f2, f3⟩
            rw [f1]; split
            · rename_i e; rw [e]; exact hcp
            · rfl
          · have hcp : (t c).parent = (t x).parent := by
              have := next_parent P.forest hx hp (by rw [hc]; exact hc0)
              rwa [hc] at this
            obtain ⟨L, g1, g2, g3⟩ := P.forest.children _ hp
            obtain ⟨a, b2, q1, q2⟩ := Chain.split g1 ((g3 x).2 ⟨hx, rfl⟩)
            have q3 : b2 = c :: b := by
              cases q2 with
              | cons _ _ _ h => exact h.unique hL
            subst q3
            obtain ⟨P', f1, f2, f3⟩ := P.cut
              (t' := setSibling (setParent t c 0) x (t c).sibling) hp g1 (by rw [q1]; simp)
              (.inl hm) (.inr ⟨a, x, b, q1, rfl⟩)
            refine ⟨P', f1, hcp, fun y => ?_, fun y => ?_⟩
            · simp only [setSibling, setParent]
              split
              · rfl
              · split <;> rfl
            · simp only [setSibling, setParent]
              split <;> split <;> rfl
        obtain ⟨t1, ht1, P', f1, hcp, f2, f3⟩ := key
        have hcx : c ≠ x := by
          intro e
          subst e
          rw [hc] at hb hL
          have := congrArg List.length (hL.unique hb)
          simp at this
        have hch : ∀ (z : Nat) (l : List Nat), Chain t z l → x ∉ l → Chain t1 z l := by
          intro z l h hxl
          refine h.congr fun y hy => ?_
          rw [f2, if_neg]; rintro rfl; exact hxl hy
        have hxb : x ∉ b := by
          intro h
          obtain ⟨a, b2, q1, q2⟩ := Chain.split hb h
          cases q2 with
          | cons _ _ _ q =>
            have := q.unique hL
            have := congrArg List.length this
            rw [q1] at this
            simp at this
            omega
        obtain ⟨t', e1, e2, e3, e4, e5, e6, e7⟩ := ih t1 b (by simpa using hk)
          (by rw [f2, if_pos rfl]; exact hch _ _ hb hxb) P' (by
          intro y hy hs
          by_cases e : y = x
          · subst e
            by_cases hp : (t y).parent = 0
            · -- the set has no parent
              rw [f2, if_pos rfl] at hs ⊢
              left
              rw [f1]
              split
              · rfl
              · rcases B c (by rw [hcp]; exact hp) hs with h | ⟨h, _⟩
                · exact h
                · exact absurd hp h
            · rw [f1, if_neg (Ne.symm hcx)] at hy
              exact absurd hy hp
          · rw [f2, if_neg e] at hs ⊢
            rw [f1 x, if_neg (Ne.symm hcx), f2 x, if_pos rfl]
            by_cases e2 : y = c
            · subst e2
              by_cases hp : (t x).parent = 0
              · left
                rw [f1]
                split
                · rfl
                · rcases B y (by rw [hcp]; exact hp) hs with h | ⟨h, _⟩
                  · exact h
                  · exact absurd hp h
              · exact .inr ⟨hp, rfl⟩
            · rw [f1, if_neg e2] at hy
              rcases B y hy hs with h | ⟨h, h'⟩
              · left; rw [f1, h]; split <;> rfl
              · left; rw [h', hc, f1, if_pos rfl])
        refine ⟨t', fun n hn => ?_, e2, e3, e4, fun y hy => e5 y ?_, fun y hy => by
          rw [e6 y hy, f2, if_neg hy], fun y => by rw [e7, f3]⟩
        · cases n with
          | zero => omega
          | succ n =>
            rw [dropSiblings, hc, if_neg hc0, linkMarked, if_pos hl, hm]
            have : remSibling (n + 1) t x c = some t1 := by
              rw [ht1]; simp [remSibling, hc, hc0, hcp]
            simp only [this]
            exact e1 n (by omega)
        · rw [f1]; split
          · exact m0
          · exact hy

/-- The links of one set. -/
theorem dropLinks_spec {x : Nat} (P : Part mk t0 t) (m0 : mk 0 = false)
    (A : ∀ x, mk x = true → mk (t0 x).parent = false) (H : Linked lv t0) (B : Loose mk t)
    (hx : x ≠ 0) :
    ∃ t' m, (∀ n, m ≤ n → dropLinks lv mk n t x = some t') ∧ Part mk t0 t' ∧ Loose mk t' ∧
      Clean mk t' x ∧ ∀ y, Clean mk t y → Clean mk t' y := by
  obtain ⟨t1, m1, a1, a2, a3, a4, a5⟩ := dropParent_spec P m0 A H B hx
  obtain ⟨L, hL, _⟩ := a2.forest.children x hx
  obtain ⟨t2, b1, b2, b3, b4, b5, b6, b7⟩ := dropChildren_spec (lv := lv) m0 H hx L.length t1 L rfl hL a2
    fun y hy hs => .inl (a3 y hy hs)
  obtain ⟨L2, hL2⟩ := b2.ends (t2 x).sibling
  obtain ⟨t3, c1, c2, c3, c4, c5, c6, c7⟩ := dropSiblings_spec (lv := lv) m0 H hx L2.length t2 L2 rfl hL2 b2
    fun y hy hs => .inl (b3 y hy hs)
  refine ⟨t3, max m1 (max (L.length + 1) (L2.length + 1)), fun n hn => ?_, c2, c3, ⟨c5 x (b5 x a4), c4, ?_⟩, ?_⟩
  · rw [dropLinks, a1 n (by omega)]
    simp only
    rw [b1 n (by omega)]
    simp only
    exact c1 n (by omega)
  · rw [c7]; exact b4
  · intro y hy
    by_cases e : y = x
    · subst e; exact ⟨c5 y (b5 y a4), c4, by rw [c7]; exact b4⟩
    · obtain ⟨h1, h2, h3⟩ := a5 y hy
      exact ⟨c5 y (b5 y h1), by rw [c6 y e, b6]; exact h2, by rw [c7, b7 y e]; exact h3⟩

end Verif.Refs
