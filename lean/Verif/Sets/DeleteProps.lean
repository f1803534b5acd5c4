import Verif.Sets.DeleteModel
import Verif.Sets.TreeProps
import Mathlib.Data.Finset.Card

/-!
# Property C114: deletion of element sets
-/

namespace Verif.Sets

/-! ## Specification -/

/-- `y` is a child of `a`, or a child of a child, and so on. -/
inductive Inside (t : Tree) (a : Nat) : Nat → Prop
  | child (y : Nat) : y ≠ 0 → (t y).parent = a → Inside t a y
  | deeper (y : Nat) : y ≠ 0 → Inside t a (t y).parent → Inside t a y

/-! ## Lemmas -/

theorem Inside.ne_zero {t : Tree} {a y : Nat} (h : Inside t a y) : y ≠ 0 := by
  cases h <;> assumption

theorem Inside.trans {t : Tree} {a b c : Nat} (h1 : Inside t a b) (h2 : Inside t b c) : Inside t a c := by
  induction h2 with
  | child y h0 hp => exact .deeper y h0 (hp ▸ h1)
  | deeper y h0 _ ih => exact .deeper y h0 ih

theorem Rooted.acyclic {t : Tree} {y : Nat} (h : Rooted t y) : ¬ Inside t y y := by
  induction h with
  | root x hx =>
    intro h
    cases h with
    | child _ h0 hp => exact h0 (hp ▸ hx)
    | deeper _ h0 h => rw [hx] at h; exact h.ne_zero rfl
  | up x _ ih =>
    intro h
    cases h with
    | child _ h0 hp => rw [hp] at ih; exact ih (.child x h0 hp)
    | deeper _ h0 h => exact ih ((Inside.child x h0 rfl).trans h)

theorem Forest.acyclic {t : Tree} (hf : Forest t) (y : Nat) : ¬ Inside t y y := fun h => (hf.rooted y h.ne_zero).acyclic h

/-- Ancestors of one set are on one line. -/
theorem Inside.line {t : Tree} {a b y : Nat} (h1 : Inside t a y) : Inside t b y → a = b ∨ Inside t a b ∨ Inside t b a := by
  induction h1 with
  | child y h0 hp =>
    intro h2
    cases h2 with
    | child _ _ hp' => exact Or.inl (hp.symm.trans hp')
    | deeper _ _ h => rw [hp] at h; exact Or.inr (Or.inr h)
  | deeper y h0 h ih =>
    intro h2
    cases h2 with
    | child _ _ hp' => rw [hp'] at h; exact Or.inr (Or.inl h)
    | deeper _ _ h' => exact ih h'

theorem inside_iff {t : Tree} {a y : Nat} : Inside t a y ↔ ∃ z, z ≠ 0 ∧ (t z).parent = a ∧ (y = z ∨ Inside t z y) := by
  constructor
  · intro h
    induction h with
    | child y h0 hp => exact ⟨y, h0, hp, Or.inl rfl⟩
    | deeper y h0 _ ih =>
      obtain ⟨z, h1, h2, h3⟩ := ih
      refine ⟨z, h1, h2, Or.inr ?_⟩
      rcases h3 with h3 | h3
      · exact .child y h0 h3
      · exact .deeper y h0 h3
  · rintro ⟨z, h1, h2, h3 | h3⟩
    · rw [h3]; exact .child z h1 h2
    · exact (Inside.child z h1 h2).trans h3

/-- The sets in the order in which the loop over siblings from `c` on destroys them. -/
inductive Post (t : Tree) : Nat → List Nat → Prop
  | nil : Post t 0 []
  | cons (c : Nat) (d1 d2 : List Nat) : c ≠ 0 → Post t (t c).child d1 → Post t (t c).sibling d2 → Post t c (d1 ++ c :: d2)

theorem Post.mem {t : Tree} (hf : Forest t) {c : Nat} {d : List Nat} (h : Post t c d) :
    ∀ {l : List Nat}, Chain t c l → ∀ y, y ∈ d ↔ ∃ z ∈ l, y = z ∨ Inside t z y := by
  induction h with
  | nil =>
    intro l hl y
    cases hl with
    | nil => simp
    | cons _ _ h0 _ => exact absurd rfl h0
  | cons c d1 d2 h0 _ _ ih1 ih2 =>
    intro l hl y
    cases hl with
    | nil => exact absurd rfl h0
    | cons _ l _ hl =>
      obtain ⟨l1, g1, g2, g3⟩ := hf.children c h0
      have m1 : y ∈ d1 ↔ Inside t c y := by
        rw [ih1 g1 y, inside_iff]
        constructor
        · rintro ⟨z, hz, h⟩; exact ⟨z, ((g3 z).1 hz).1, ((g3 z).1 hz).2, h⟩
        · rintro ⟨z, h1, h2, h⟩; exact ⟨z, (g3 z).2 ⟨h1, h2⟩, h⟩
      rw [List.mem_append, List.mem_cons, m1, ih2 hl y]
      constructor
      · rintro (h | h | ⟨z, h1, h2⟩)
        · exact ⟨c, by simp, Or.inr h⟩
        · exact ⟨c, by simp, Or.inl h⟩
        · exact ⟨z, by simp [h1], h2⟩
      · rintro ⟨z, h1, h2⟩
        rcases List.mem_cons.1 h1 with rfl | h1
        · rcases h2 with h2 | h2
          · exact Or.inr (Or.inl h2)
          · exact Or.inl h2
        · exact Or.inr (Or.inr ⟨z, h1, h2⟩)

theorem Post.nodup {t : Tree} (hf : Forest t) {c : Nat} {d : List Nat} (h : Post t c d) :
    ∀ {l : List Nat} {p : Nat}, Chain t c l → l.Nodup → (∀ z ∈ l, (t z).parent = p) → d.Nodup := by
  induction h with
  | nil => intros; exact List.nodup_nil
  | cons c d1 d2 h0 p1 p2 ih1 ih2 =>
    intro l p hl hn hp
    cases hl with
    | nil => exact absurd rfl h0
    | cons _ l _ hl =>
      obtain ⟨l1, g1, g2, g3⟩ := hf.children c h0
      have hn' := List.nodup_cons.1 hn
      have m1 : ∀ y, y ∈ d1 → Inside t c y := by
        intro y hy
        obtain ⟨z, hz, h⟩ := (p1.mem hf g1 y).1 hy
        exact inside_iff.2 ⟨z, ((g3 z).1 hz).1, ((g3 z).1 hz).2, h⟩
      have m2 := p2.mem hf hl
      -- siblings are not inside each other
      have sib : ∀ a b, a ∈ c :: l → b ∈ c :: l → ¬ Inside t a b := by
        intro a b ha hb h
        have h0a : a ≠ 0 := (Chain.cons c l h0 hl).ne_zero a ha
        cases h with
        | child _ h0b hpb =>
          have h1 := hp b hb
          rw [hpb] at h1
          have h2 := hp a ha
          exact hf.acyclic a (.child a h0a (h2.trans h1.symm))
        | deeper _ h0b h =>
          rw [hp b hb] at h
          exact hf.acyclic p ((Inside.child a h0a (hp a ha)).trans h)
      rw [List.nodup_append, List.nodup_cons]
      refine ⟨ih1 g1 g2 fun z hz => ((g3 z).1 hz).2, ⟨fun hc => ?_, ih2 hl hn'.2 fun z hz => hp z (by simp [hz])⟩, fun a ha b hb hab => ?_⟩
      · obtain ⟨z, hz, h | h⟩ := (m2 c).1 hc
        · exact hn'.1 (h ▸ hz)
        · exact sib z c (by simp [hz]) (by simp) h
      · subst hab
        have hca := m1 a ha
        rcases List.mem_cons.1 hb with h | h
        · rw [h] at hca; exact hf.acyclic c hca
        · obtain ⟨z, hz, h | h⟩ := (m2 a).1 h
          · rw [h] at hca; exact sib c z (by simp) (by simp [hz]) hca
          · rcases hca.line h with h' | h' | h'
            · exact hn'.1 (h' ▸ hz)
            · exact sib c z (by simp) (by simp [hz]) h'
            · exact sib z c (by simp [hz]) (by simp) h'

/-- Only finitely many sets have a parent. -/
def Finitely (t : Tree) : Prop := ∃ all : List Nat, ∀ y, (t y).parent ≠ 0 → y ∈ all

theorem Inside.has_parent {t : Tree} {a y : Nat} (ha : a ≠ 0) (h : Inside t a y) : (t y).parent ≠ 0 := by
  cases h with
  | child _ _ hp => rw [hp]; exact ha
  | deeper _ _ h => exact h.ne_zero

open Classical in
theorem Post.exists {t : Tree} (hf : Forest t) (hfin : Finitely t) {x : Nat} (hx : x ≠ 0) : ∃ d, Post t (t x).child d := by
  obtain ⟨all, hall⟩ := hfin
  have key : ∀ (n x : Nat), x ≠ 0 → (all.toFinset.filter fun y => Inside t x y).card = n → ∃ d, Post t (t x).child d := by
    intro n
    induction n using Nat.strongRecOn with
    | _ n ih =>
      intro x hx hn
      obtain ⟨l, g1, g2, g3⟩ := hf.children x hx
      have sub : ∀ z ∈ l, ∃ d, Post t (t z).child d := by
        intro z hz
        have hz' := (g3 z).1 hz
        have hxz : Inside t x z := .child z hz'.1 hz'.2
        refine ih _ ?_ z hz'.1 rfl
        rw [← hn]
        apply Finset.card_lt_card
        refine ⟨fun y hy => ?_, fun h => ?_⟩
        · simp only [Finset.mem_filter] at hy ⊢
          exact ⟨hy.1, hxz.trans hy.2⟩
        · have := h (Finset.mem_filter.2 ⟨List.mem_toFinset.2 (hall z (by rw [hz'.2]; exact hx)), hxz⟩)
          exact hf.acyclic z (Finset.mem_filter.1 this).2
      rw [Children] at g1
      clear hn g2 g3
      generalize (t x).child = c at g1 ⊢
      induction g1 with
      | nil => exact ⟨[], .nil⟩
      | cons c l h0 _ ih' =>
        obtain ⟨d2, h2⟩ := ih' fun z hz => sub z (by simp [hz])
        obtain ⟨d1, h1⟩ := sub c (by simp)
        exact ⟨_, .cons c d1 d2 h0 h1 h2⟩
  exact key _ x hx rfl

theorem destroy_alone {t : Tree} {x : Nat} (h1 : (t x).parent = 0) (h2 : (t x).child = 0) (n : Nat) :
    destroySet (n + 1) t x = some fun y => if y = x then ⟨0, 0, 0⟩ else t y := by
  simp [destroySet, leaveParent, h1, dropChildren, h2]

theorem childLoop_spec {t : Tree} {c : Nat} {d : List Nat} (h : Post t c d) : d.Nodup → ∃ N, ∀ t' : Tree,
    (∀ y ∈ d, (t' y).child = (t y).child ∧ (t' y).sibling = (t y).sibling) → ∃ t'', (∀ m k, N ≤ m → N ≤ k →
      childLoop (deleteTree k) m t' c = some (t'', d)) ∧ ∀ y, y ∉ d → t'' y = t' y := by
  induction h with
  | nil =>
    intro _
    refine ⟨1, fun t' _ => ⟨t', fun m k hm _ => ?_, fun _ _ => rfl⟩⟩
    obtain ⟨m, rfl⟩ : ∃ j, m = j + 1 := ⟨m - 1, by omega⟩
    simp [childLoop]
  | cons c d1 d2 h0 p1 p2 ih1 ih2 =>
    intro hn
    rw [List.nodup_append, List.nodup_cons] at hn
    obtain ⟨n1, ⟨n2, n3⟩, n4⟩ := hn
    obtain ⟨N1, ih1⟩ := ih1 n1
    obtain ⟨N2, ih2⟩ := ih2 n3
    have hc1 : c ∉ d1 := fun h => n4 c h c (by simp) rfl
    refine ⟨N1 + N2 + 2, fun t' ht' => ?_⟩
    obtain ⟨hcc, hcs⟩ := ht' c (by simp)
    -- the recursive call
    obtain ⟨t1, e1, f1⟩ := ih1 (setChild (setSibling (setParent t' c 0) c 0) c 0) (fun y hy => by
      have hyc : y ≠ c := fun h => hc1 (h ▸ hy)
      have := ht' y (by simp [hy])
      simpa [setChild, setSibling, setParent, hyc] using this)
    have hrec : ∀ k, N1 + N2 + 2 ≤ k → deleteTree k (setSibling (setParent t' c 0) c 0) c =
        some (fun y => if y = c then ⟨0, 0, 0⟩ else t1 y, d1 ++ [c]) := by
      intro k hk
      obtain ⟨k, rfl⟩ : ∃ j, k = j + 2 := ⟨k - 2, by omega⟩
      have hp : (setSibling (setParent t' c 0) c 0 c).parent = 0 := by simp [setSibling, setParent]
      have hch : (setSibling (setParent t' c 0) c 0 c).child = (t c).child := by simp [setSibling, setParent, hcc]
      have hc := f1 c hc1
      rw [deleteTree]
      simp only [leaveParent, hp, if_true, hch]
      rw [e1 (k + 1) (k + 1) (by omega) (by omega)]
      simp only
      rw [destroy_alone (by rw [hc]; simp [setChild, setSibling, setParent]) (by rw [hc]; simp [setChild, setSibling, setParent])]
    obtain ⟨t2, e2, f2⟩ := ih2 (fun y => if y = c then ⟨0, 0, 0⟩ else t1 y) (fun y hy => by
      have hyc : y ≠ c := fun h => n2 (h ▸ hy)
      have hy1 : y ∉ d1 := fun h => n4 y h y (by simp [hy]) rfl
      have := ht' y (by simp [hy])
      simpa [hyc, f1 y hy1, setChild, setSibling, setParent] using this)
    refine ⟨t2, fun m k hm hk => ?_, fun y hy => ?_⟩
    · obtain ⟨m, rfl⟩ : ∃ j, m = j + 1 := ⟨m - 1, by omega⟩
      rw [childLoop, if_neg h0, hrec k hk]
      simp only
      rw [hcs, e2 m k (by omega) (by omega)]
      simp
    · simp only [List.mem_append, List.mem_cons, not_or] at hy
      rw [f2 y hy.2.2]
      simp [hy.2.1, f1 y hy.1, setChild, setSibling, setParent]

theorem remSibling_parent : ∀ (n : Nat) (t t' : Tree) (cur c : Nat), remSibling n t cur c = some t' →
    ∀ y, (t' y).parent = (if y = c then 0 else (t y).parent) ∧ (t' y).child = (t y).child := by
  intro n
  induction n with
  | zero => intro t t' cur c h; simp [remSibling] at h
  | succ n ih =>
    intro t t' cur c h y
    rw [remSibling] at h
    split at h
    · cases h
    · split at h
      · split at h
        · cases h
        · cases h
          by_cases h1 : y = c <;> by_cases h2 : y = cur <;> simp [setSibling, setParent, h1, h2]
          all_goals (try (subst h1; simp_all))
          all_goals simp_all
      · exact ih _ _ _ _ h y

theorem remChild_parent {n : Nat} {t t' : Tree} {p c : Nat} (h : remChild n t p c = some t') :
    ∀ y, (t' y).parent = (if y = c then 0 else (t y).parent) ∧ (y ≠ p → (t' y).child = (t y).child) := by
  intro y
  rw [remChild] at h
  split at h
  · cases h
  · split at h
    · split at h
      · cases h
      · cases h
        refine ⟨?_, fun hy => ?_⟩
        · by_cases h1 : y = c <;> by_cases h2 : y = p <;> simp [setChild, setParent, h1, h2]
          all_goals (try (subst h1; simp_all))
          all_goals simp_all
        · by_cases h1 : y = c <;> simp [setChild, setParent, h1, hy]
          all_goals (try (subst h1; simp_all))
    · have := remSibling_parent _ _ _ _ _ h y
      exact ⟨this.1, fun _ => this.2⟩

theorem addSibling_parent : ∀ (n : Nat) (t t' : Tree) (cur c : Nat), addSibling n t cur c = some t' →
    ∀ y, y ≠ c → (t' y).parent = (t y).parent := by
  intro n
  induction n with
  | zero => intro t t' cur c h; simp [addSibling] at h
  | succ n ih =>
    intro t t' cur c h y hy
    rw [addSibling] at h
    split at h
    · cases h
    · split at h
      · split at h
        · cases h
        · cases h
          by_cases h2 : y = cur <;> simp [setSibling, setParent, hy, h2]
      · exact ih _ _ _ _ h y hy

theorem TReach.finitely {t : Tree} (h : TReach t) : Finitely t := by
  induction h with
  | init => exact ⟨[], fun y hy => absurd rfl hy⟩
  | step o n _ hp he ih =>
    rename_i t t' _
    obtain ⟨all, hall⟩ := ih
    have key : ∃ c, ∀ y, y ≠ c → (t' y).parent ≠ 0 → (t y).parent ≠ 0 := by
      cases o with
      | addChild p c =>
        refine ⟨c, fun y hy h => ?_⟩
        simp only [texec, addChild] at he
        split at he
        · split at he
          · cases he
          · cases he
            by_cases h2 : y = p
            · subst h2; simpa [setChild, setParent, hy] using h
            · simpa [setChild, setParent, hy, h2] using h
        · rw [addSibling_parent _ _ _ _ _ he y hy] at h; exact h
      | addSibling s c => exact ⟨c, fun y hy h => by rw [addSibling_parent _ _ _ _ _ he y hy] at h; exact h⟩
      | remChild p c => exact ⟨c, fun y hy h => by rw [(remChild_parent he y).1, if_neg hy] at h; exact h⟩
      | remSibling s c => exact ⟨c, fun y hy h => by rw [(remSibling_parent _ _ _ _ _ he y).1, if_neg hy] at h; exact h⟩
    obtain ⟨c, hc⟩ := key
    refine ⟨c :: all, fun y hy => ?_⟩
    by_cases h : y = c
    · simp [h]
    · exact List.mem_cons_of_mem _ (hall y (hc y h hy))

/-- A set leaves its parent: it becomes a root, its parent loses exactly this child. -/
theorem leave_spec {t : Tree} (hf : Forest t) {x : Nat} (hx : x ≠ 0) : ∃ t1, (∃ N, ∀ n, N ≤ n → leaveParent n t x = some t1) ∧ Forest t1 ∧
    (∀ y, (t1 y).parent = if y = x then 0 else (t y).parent) ∧ (t1 x).child = (t x).child ∧
    (∀ p l, p ≠ 0 → Children t p l → Children t1 p (l.erase x)) := by
  by_cases hp : (t x).parent = 0
  · refine ⟨t, ⟨0, fun n _ => by simp [leaveParent, hp]⟩, hf, fun y => ?_, rfl, fun p l hp0 hl => ?_⟩
    · by_cases h : y = x
      · subst h; simp [hp]
      · simp [h]
    · obtain ⟨l', g1, g2, g3⟩ := hf.children p hp0
      cases g1.unique hl
      rw [List.erase_of_not_mem]
      · exact hl
      · intro h
        have := ((g3 x).1 h).2
        exact hp0 (this.symm.trans hp)
  · obtain ⟨t1, L, h1, ⟨m, h2⟩, h3, h4, h5⟩ := step_forest hf (.remChild (t x).parent x) ⟨hp, hx, rfl⟩
    have hxp : x ≠ (t x).parent := fun h => hf.acyclic x (.child x hx h.symm)
    have hr : remChild m t (t x).parent x = some t1 := h2 m (Nat.le_refl _)
    refine ⟨t1, ⟨m, fun n hn => by simpa [leaveParent, hp, texec] using h2 n hn⟩, h3, fun y => (remChild_parent hr y).1,
      (remChild_parent hr x).2 hxp, fun p l hp0 hl => ?_⟩
    by_cases h : p = (t x).parent
    · subst h
      have h4 : Children t1 (t x).parent (L.erase x) := h4
      have h1 : Children t (t x).parent L := h1
      cases h1.unique hl
      exact h4
    · obtain ⟨l', g1, g2, g3⟩ := hf.children p hp0
      cases g1.unique hl
      rw [List.erase_of_not_mem fun hm => h ((g3 x).1 hm).2.symm]
      exact h5 p l hp0 h hl

/-! ## C114 -/

/-- `DeleteSetTree` destroys exactly the set and all sets inside of it, each once; all other sets keep their parents and, apart from the
deleted one, their lists of children in order.  Missing from C114: `C114_sibling_fails`. -/
theorem C114_tree_partial {t : Tree} (h : TReach t) (x : Nat) (hx : x ≠ 0) :
    ∃ t' d, (∃ N, ∀ n, N ≤ n → deleteTree n t x = some (t', d)) ∧ d.Nodup ∧ (∀ y, y ∈ d ↔ y = x ∨ Inside t x y) ∧
      (∀ y, y ∉ d → (t' y).parent = (t y).parent) ∧
      (∀ p l, p ≠ 0 → p ∉ d → Children t p l → Children t' p (l.erase x)) := by
  have hf := C19_forest_partial h
  obtain ⟨t1, ⟨N1, e1⟩, hf1, hpar, hch, hkids⟩ := leave_spec hf hx
  have hfin : Finitely t1 := by
    obtain ⟨all, hall⟩ := h.finitely
    refine ⟨all, fun y hy => hall y ?_⟩
    rw [hpar y] at hy
    split at hy
    · exact absurd rfl hy
    · exact hy
  have ins : ∀ y, Inside t1 x y ↔ Inside t x y := by
    intro y
    constructor
    · intro hi
      induction hi with
      | child y h0 hp =>
        rw [hpar y] at hp
        split at hp
        · exact absurd hp.symm hx
        · exact .child y h0 hp
      | deeper y h0 _ ih =>
        rw [hpar y] at ih
        split at ih
        · exact absurd rfl ih.ne_zero
        · exact .deeper y h0 ih
    · intro hi
      induction hi with
      | child y h0 hp =>
        have hyx : y ≠ x := fun e => hf.acyclic x (by subst e; exact .child y h0 hp)
        exact .child y h0 (by rw [hpar y, if_neg hyx, hp])
      | deeper y h0 hi ih =>
        have hyx : y ≠ x := fun e => hf.acyclic x (by subst e; exact .deeper y h0 hi)
        exact .deeper y h0 (by rw [hpar y, if_neg hyx]; exact ih)
  obtain ⟨d, hd⟩ := Post.exists hf1 hfin hx
  obtain ⟨l, g1, g2, g3⟩ := hf1.children x hx
  have hmem : ∀ y, y ∈ d ↔ Inside t x y := by
    intro y
    rw [hd.mem hf1 g1 y, ← ins, inside_iff]
    constructor
    · rintro ⟨z, hz, h⟩; exact ⟨z, ((g3 z).1 hz).1, ((g3 z).1 hz).2, h⟩
    · rintro ⟨z, h1, h2, h⟩; exact ⟨z, (g3 z).2 ⟨h1, h2⟩, h⟩
  have hn : d.Nodup := hd.nodup hf1 g1 g2 fun z hz => ((g3 z).1 hz).2
  have hxd : x ∉ d := fun hh => hf.acyclic x ((hmem x).1 hh)
  obtain ⟨N2, loop⟩ := childLoop_spec hd hn
  obtain ⟨t2, e2, f2⟩ := loop (setChild t1 x 0) (fun y hy => by
    have : y ≠ x := fun e => hxd (e ▸ hy)
    simp [setChild, this])
  have hx2 := f2 x hxd
  refine ⟨fun y => if y = x then ⟨0, 0, 0⟩ else t2 y, d ++ [x], ⟨N1 + N2 + 2, fun n hn' => ?_⟩, ?_, fun y => ?_, fun y hy => ?_, fun p l' hp0 hp hl => ?_⟩
  · obtain ⟨n, rfl⟩ : ∃ j, n = j + 2 := ⟨n - 2, by omega⟩
    rw [deleteTree, e1 (n + 1) (by omega)]
    simp only
    rw [e2 (n + 1) (n + 1) (by omega) (by omega)]
    simp only
    have hpx := hpar x
    rw [if_pos rfl] at hpx
    rw [destroy_alone (by rw [hx2]; simp [setChild, hpx]) (by rw [hx2]; simp [setChild])]
  · rw [List.nodup_append]
    exact ⟨hn, by simp, fun a ha b hb => by simp only [List.mem_singleton] at hb; rintro rfl; exact hxd (hb ▸ ha)⟩
  · rw [List.mem_append, List.mem_singleton, hmem y, or_comm]
  · simp only [List.mem_append, List.mem_singleton, not_or] at hy
    simp only [if_neg hy.2, f2 y hy.1]
    simp [setChild, hy.2, hpar y]
  · simp only [List.mem_append, List.mem_singleton, not_or] at hp
    have hk := hkids p l' hp0 hl
    obtain ⟨l1, k1, k2, k3⟩ := hf1.children p hp0
    cases k1.unique hk
    -- no child of p is destroyed
    have hnot : ∀ z ∈ l'.erase x, z ≠ x ∧ z ∉ d := by
      intro z hz
      obtain ⟨hz0, hzp⟩ := (k3 z).1 hz
      have hzx : z ≠ x := fun e => by
        rw [hpar z, if_pos e] at hzp; exact hp0 hzp.symm
      refine ⟨hzx, fun hzd => ?_⟩
      have := (hmem z).1 hzd
      rw [hpar z, if_neg hzx] at hzp
      cases this with
      | child _ _ hh => exact hp.2 (hzp.symm.trans hh)
      | deeper _ _ hh => rw [hzp] at hh; exact hp.1 ((hmem p).2 hh)
    have hpc : ((if p = x then (⟨0, 0, 0⟩ : Links) else t2 p)).child = (t1 p).child := by
      rw [if_neg hp.2, f2 p hp.1]; simp [setChild, hp.2]
    rw [Children, hpc]
    refine Chain.congr k1 fun z hz => ?_
    obtain ⟨h1, h2⟩ := hnot z hz
    simp only [if_neg h1, f2 z h2]
    simp [setChild, h1]

-- 1 has the children 2 and 3, 2 has the child 4
example : (trun Tree.init [.addChild 1 2, .addChild 1 3, .addChild 2 4]).bind (fun t => (deleteTree 9 t 2).map fun r =>
    (r.2, (r.1 1).child, (r.1 3).parent, (r.1 3).sibling)) = some ([4, 2], 3, 1, 0) := by decide +kernel

theorem dropChildren_spec : ∀ (l : List Nat) (t : Tree) (x : Nat), x ∉ l → l.Nodup → Chain t (t x).child l → (∀ z ∈ l, (t z).parent = x) →
    ∃ t', (∀ n, l.length < n → dropChildren n t x = some t') ∧ (t' x).child = 0 ∧ (∀ y, (t' y).parent = if y ∈ l then 0 else (t y).parent) ∧
      (∀ y, (t' y).sibling = (t y).sibling) ∧ (∀ y, y ≠ x → (t' y).child = (t y).child) := by
  intro l
  induction l with
  | nil =>
    intro t x _ _ hc _
    have h0 : (t x).child = 0 := by
      generalize (t x).child = c at hc
      cases hc; rfl
    refine ⟨t, fun n hn => ?_, h0, by simp, fun _ => rfl, fun _ _ => rfl⟩
    obtain ⟨n, rfl⟩ : ∃ j, n = j + 1 := ⟨n - 1, by omega⟩
    simp [dropChildren, h0]
  | cons c l ih =>
    intro t x hx hn hc hp
    have hn' := List.nodup_cons.1 hn
    have hx' : x ≠ c ∧ x ∉ l := by simpa using hx
    obtain ⟨hcx, hc0, hcl⟩ : (t x).child = c ∧ c ≠ 0 ∧ Chain t (t c).sibling l := by
      generalize (t x).child = c' at hc
      cases hc with
      | cons _ _ h0 h => exact ⟨rfl, h0, h⟩
    have hpc := hp c (by simp)
    obtain ⟨t', e, f1, f2, f3, f4⟩ := ih (setChild (setParent t c 0) x (t c).sibling) x hx'.2 hn'.2
      (by
        have : (setChild (setParent t c 0) x (t c).sibling x).child = (t c).sibling := by simp [setChild]
        rw [this]
        refine Chain.congr hcl fun z _ => ?_
        by_cases h1 : z = x <;> by_cases h2 : z = c <;> simp [setChild, setParent, h1, h2]
        all_goals (try (subst h2; simp_all))
        all_goals simp_all)
      (fun z hz => by
        have hzc : z ≠ c := fun h => hn'.1 (h ▸ hz)
        have hzx : z ≠ x := fun h => hx'.2 (h ▸ hz)
        simp [setChild, setParent, hzc, hzx, hp z (by simp [hz])])
    refine ⟨t', fun n hl => ?_, f1, fun y => ?_, fun y => ?_, fun y hy => ?_⟩
    · obtain ⟨n, rfl⟩ : ∃ j, n = j + 1 := ⟨n - 1, by omega⟩
      rw [dropChildren, if_neg (by rw [hcx]; exact hc0), remChild, if_neg (by rw [hcx]; exact hc0), if_pos rfl, hcx,
        if_neg (by rw [hpc]; simp)]
      exact e n (by simp only [List.length_cons] at hl; omega)
    · rw [f2 y]
      by_cases h1 : y ∈ l
      · simp [h1]
      · by_cases h2 : y = c
        · subst h2
          have : y ≠ x := fun h => hx'.1 h.symm
          simp [setChild, setParent, this]
        · by_cases h3 : y = x <;> simp [setChild, setParent, h1, h2, h3]
          subst h3; simp [h2]
    · rw [f3 y]
      by_cases h1 : y = x <;> by_cases h2 : y = c <;> simp [setChild, setParent, h1, h2]
      all_goals (try (subst h2; simp_all))
      all_goals simp_all
    · rw [f4 y hy]
      by_cases h2 : y = c <;> simp [setChild, setParent, hy, h2]
      subst h2; simp_all

/-- `DeleteSet` destroys one set: its parent loses this child and no other, its children become roots, all other sets keep their
parents and lists of children.  Missing: the former children keep their links to each other, see `C114_sibling_fails`. -/
theorem C114_delete_partial {t : Tree} (h : TReach t) (x : Nat) (hx : x ≠ 0) :
    ∃ t', (∃ N, ∀ n, N ≤ n → deleteSet n t x = some t') ∧
      (∀ y, y ≠ x → (t' y).parent = if (t y).parent = x then 0 else (t y).parent) ∧
      (∀ p l, p ≠ 0 → p ≠ x → Children t p l → Children t' p (l.erase x)) ∧ t' x = ⟨0, 0, 0⟩ := by
  have hf := C19_forest_partial h
  obtain ⟨t1, ⟨N1, e1⟩, hf1, hpar, hch, hkids⟩ := leave_spec hf hx
  obtain ⟨l, g1, g2, g3⟩ := hf1.children x hx
  have hpx : (t1 x).parent = 0 := by rw [hpar x, if_pos rfl]
  have hxl : x ∉ l := fun hh => by
    have := ((g3 x).1 hh).2
    rw [hpx] at this; exact hx this.symm
  obtain ⟨t2, e2, f1, f2, f3, f4⟩ := dropChildren_spec l t1 x hxl g2 g1 fun z hz => ((g3 z).1 hz).2
  refine ⟨fun y => if y = x then ⟨0, 0, 0⟩ else t2 y, ⟨N1 + l.length + 1, fun n hn => ?_⟩, fun y hy => ?_, fun p l' hp0 hp hl => ?_, by simp⟩
  · rw [deleteSet, e1 n (by omega)]
    simp only [destroySet, leaveParent, hpx, if_true]
    rw [e2 n (by omega)]
  · simp only [if_neg hy, f2 y, hpar y]
    by_cases h0 : y = 0
    · have : y ∉ l := fun hh => ((g3 y).1 hh).1 h0
      -- the entry of the invalid handle
      by_cases hq : (t y).parent = x
      · exfalso
        have hz : ∀ t : Tree, TReach t → (t 0).parent = 0 := by
          intro t ht
          induction ht with
          | init => rfl
          | step o n _ hp he ih =>
            cases o with
            | addChild p c =>
              simp only [texec, addChild] at he
              have hc : (0 : Nat) ≠ c := fun e => hp.2.1 e.symm
              split at he
              · split at he
                · cases he
                · cases he
                  have hp' : (0 : Nat) ≠ p := fun e => hp.1 e.symm
                  simpa [setChild, setParent, hc, hp'] using ih
              · rw [addSibling_parent _ _ _ _ _ he 0 hc]; exact ih
            | addSibling s c => rw [addSibling_parent _ _ _ _ _ he 0 (fun e => hp.2.1 e.symm)]; exact ih
            | remChild p c => rw [(remChild_parent he 0).1]; split <;> [rfl; exact ih]
            | remSibling s c => rw [(remSibling_parent _ _ _ _ _ he 0).1]; split <;> [rfl; exact ih]
        rw [h0, hz t h] at hq
        exact hx hq.symm
      · simp [this, hq]
    · by_cases hq : (t y).parent = x
      · have : y ∈ l := (g3 y).2 ⟨h0, by rw [hpar y, if_neg hy, hq]⟩
        simp [this, hq]
      · have : y ∉ l := fun hh => by
          have := ((g3 y).1 hh).2
          rw [hpar y, if_neg hy] at this
          exact hq this
        simp [this, hq]
  · have hk := hkids p l' hp0 hl
    obtain ⟨l1, k1, k2, k3⟩ := hf1.children p hp0
    cases k1.unique hk
    have hpc : ((if p = x then (⟨0, 0, 0⟩ : Links) else t2 p)).child = (t1 p).child := by
      rw [if_neg hp, f4 p hp]
    rw [Children, hpc]
    refine Chain.congr k1 fun z hz => ?_
    have hzx : z ≠ x := fun e => by
      have := ((k3 z).1 hz).2
      rw [e, hpx] at this; exact hp0 this.symm
    simp only [if_neg hzx, f3 z]

example : (trun Tree.init [.addChild 1 2, .addChild 1 3, .addChild 2 4]).bind (fun t => (deleteSet 9 t 2).map fun r =>
    ((r 1).child, (r 3).parent, (r 4).parent, r 2)) = some (3, 1, 0, ⟨0, 0, 0⟩) := by decide +kernel

/-- After the deletion of a set with the children 2 and 3, adding 2 to set 4 makes 3 a child of 4 as well, although 3 has no parent. -/
theorem C114_sibling_fails : ∃ t t' t'', trun Tree.init [.addChild 1 2, .addChild 1 3] = some t ∧ deleteSet 9 t 1 = some t' ∧
    addChild 9 t' 4 2 = some t'' ∧ Children t'' 4 [2, 3] ∧ (t'' 3).parent = 0 := by
  have h : ((trun Tree.init [.addChild 1 2, .addChild 1 3]).bind fun t => (deleteSet 9 t 1).bind fun t' => (addChild 9 t' 4 2).map fun t'' =>
    ((t'' 4).child, (t'' 2).sibling, (t'' 3).sibling, (t'' 3).parent)) = some (2, 3, 0, 0) := by decide +kernel
  cases h1 : trun Tree.init [.addChild 1 2, .addChild 1 3] with
  | none => rw [h1] at h; cases h
  | some t =>
    rw [h1, Option.bind_some] at h
    cases h2 : deleteSet 9 t 1 with
    | none => rw [h2] at h; cases h
    | some t' =>
      rw [h2, Option.bind_some] at h
      cases h3 : addChild 9 t' 4 2 with
      | none => rw [h3] at h; cases h
      | some t'' =>
        rw [h3] at h
        simp only [Option.map_some, Option.some.injEq, Prod.mk.injEq] at h
        obtain ⟨a, b, c, d⟩ := h
        refine ⟨t, t', t'', rfl, h2, h3, ?_, d⟩
        rw [Children, a]
        refine .cons _ _ (by decide) ?_
        rw [b]
        refine .cons _ _ (by decide) ?_
        rw [c]; exact .nil

end Verif.Sets
