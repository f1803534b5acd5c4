import Verif.Names.Spec

/-! # Lemmas for C92 -/

namespace Verif.Names

theorem strLt_iff : ∀ a b : Str, strLt a b = true ↔ Before a b
  | a, [] => by
    constructor
    · intro h; cases a <;> simp [strLt] at h
    · intro h; cases h
  | [], b :: bs => ⟨fun _ => .nil b bs, fun _ => rfl⟩
  | a :: as, b :: bs => by
    rw [strLt]
    split
    · rename_i h; exact ⟨fun _ => .lt as bs h, fun _ => rfl⟩
    · rename_i h
      split
      · rename_i h2
        constructor
        · intro h; cases h
        · intro h3; cases h3 with
          | lt _ _ h4 => exact absurd h4 h
          | cons _ _ => exact absurd h2 (Nat.lt_irrefl _)
      · rename_i h2
        have e : a = b := by omega
        subst e
        rw [strLt_iff as bs]
        constructor
        · exact .cons a
        · intro h3; cases h3 with
          | lt _ _ h4 => exact absurd h4 h
          | cons _ h4 => exact h4

theorem Before.irrefl : ∀ {a : Str}, ¬ Before a a
  | [], h => by cases h
  | a :: as, h => by
    cases h with
    | lt _ _ h => exact absurd h (Nat.lt_irrefl _)
    | cons _ h => exact Before.irrefl h

theorem Before.trans : ∀ {a b c : Str}, Before a b → Before b c → Before a c
  | _, _, _, .nil _ _, .lt _ _ _ => .nil _ _
  | _, _, _, .nil _ _, .cons _ _ => .nil _ _
  | _, _, _, .lt _ _ h, .lt _ _ h2 => .lt _ _ (Nat.lt_trans h h2)
  | _, _, _, .lt _ _ h, .cons _ _ => .lt _ _ h
  | _, _, _, .cons _ _, .lt _ _ h2 => .lt _ _ h2
  | _, _, _, .cons _ h, .cons _ h2 => .cons _ (h.trans h2)

theorem before_total : ∀ a b : Str, Before a b ∨ a = b ∨ Before b a
  | [], [] => .inr (.inl rfl)
  | [], b :: bs => .inl (.nil b bs)
  | a :: as, [] => .inr (.inr (.nil a as))
  | a :: as, b :: bs => by
    rcases Nat.lt_trichotomy a b with h | h | h
    · exact .inl (.lt _ _ h)
    · subst h
      rcases before_total as bs with h | h | h
      · exact .inl (.cons _ h)
      · exact .inr (.inl (by rw [h]))
      · exact .inr (.inr (.cons _ h))
    · exact .inr (.inr (.lt _ _ h))

theorem Before.take : ∀ {a b : Str} (n : Nat), Before a b → ¬ Before (b.take n) (a.take n)
  | _, _, 0, _ => by simp only [List.take_zero]; exact fun h => by cases h
  | _, _, n + 1, .nil _ _ => by simp only [List.take_nil]; exact fun h => by cases h
  | _, _, n + 1, .lt _ _ h => by
    simp only [List.take_succ_cons]
    intro h2
    cases h2 with
    | lt _ _ h3 => exact absurd (Nat.lt_trans h h3) (Nat.lt_irrefl _)
    | cons _ _ => exact absurd h (Nat.lt_irrefl _)
  | _, _, n + 1, .cons _ h => by
    simp only [List.take_succ_cons]
    intro h2
    cases h2 with
    | lt _ _ h3 => exact absurd h3 (Nat.lt_irrefl _)
    | cons _ h3 => exact Before.take n h h3

theorem prefix_not_before : ∀ {p k : Str}, p <+: k → ¬ Before k p
  | [], _, _, h => by cases h
  | a :: p, k, ⟨t, e⟩, h => by
    subst e
    simp only [List.cons_append] at h
    cases h with
    | lt _ _ h => exact absurd h (Nat.lt_irrefl _)
    | cons _ h => exact prefix_not_before ⟨t, rfl⟩ h

/-! ## The map -/

/-- The keys of `set_search` in strict order. -/
def Sorted (r : Reg) : Prop := r.Pairwise fun a b => Before a.1 b.1

theorem find_some {r : Reg} (hs : Sorted r) {n : Str} {h : Nat} : r.find n = some h ↔ (n, h) ∈ r := by
  induction r with
  | nil => simp [Reg.find]
  | cons a r ih =>
    obtain ⟨k, g⟩ := a
    rw [Sorted, List.pairwise_cons] at hs
    rw [Reg.find, List.mem_cons]
    split
    · rename_i e
      subst e
      constructor
      · intro e; simp only [Option.some.injEq] at e; subst e; exact .inl rfl
      · rintro (e | e)
        · cases e; rfl
        · exact absurd (hs.1 _ e) Before.irrefl
    · rename_i e
      rw [ih hs.2]
      constructor
      · exact .inr
      · rintro (e2 | e2)
        · cases e2; exact absurd rfl e
        · exact e2

theorem put_mem {r : Reg} (hs : Sorted r) (n : Str) (h : Nat) (a : Str × Nat) :
    a ∈ r.put n h ↔ a = (n, h) ∨ (a ∈ r ∧ a.1 ≠ n) := by
  induction r with
  | nil => simp [Reg.put]
  | cons b r ih =>
    obtain ⟨k, g⟩ := b
    rw [Sorted, List.pairwise_cons] at hs
    rw [Reg.put]
    split
    · rename_i e
      rw [strLt_iff] at e
      rw [List.mem_cons]
      constructor
      · rintro (h1 | h1)
        · exact .inl h1
        · refine .inr ⟨h1, ?_⟩
          rintro rfl
          rcases List.mem_cons.1 h1 with h2 | h2
          · subst h2; exact Before.irrefl e
          · exact Before.irrefl (e.trans (hs.1 _ h2))
      · rintro (h1 | h1)
        · exact .inl h1
        · exact .inr h1.1
    · rename_i e
      split
      · rename_i e2
        rw [strLt_iff] at e2
        rw [List.mem_cons, ih hs.2, List.mem_cons]
        constructor
        · rintro (h1 | h1 | h1)
          · subst h1; exact .inr ⟨.inl rfl, by rintro rfl; exact Before.irrefl e2⟩
          · exact .inl h1
          · exact .inr ⟨.inr h1.1, h1.2⟩
        · rintro (h1 | ⟨h1 | h1, h2⟩)
          · exact .inr (.inl h1)
          · exact .inl h1
          · exact .inr (.inr ⟨h1, h2⟩)
      · rename_i e2
        have ek : k = n := by
          rcases before_total k n with h1 | h1 | h1
          · exact absurd ((strLt_iff _ _).2 h1) e2
          · exact h1
          · exact absurd ((strLt_iff _ _).2 h1) e
        subst ek
        rw [List.mem_cons, List.mem_cons]
        constructor
        · rintro (h1 | h1)
          · exact .inl h1
          · refine .inr ⟨.inr h1, ?_⟩
            intro e3
            have := hs.1 a h1
            rw [e3] at this
            exact Before.irrefl this
        · rintro (h1 | ⟨h1 | h1, h2⟩)
          · exact .inl h1
          · subst h1; exact absurd rfl h2
          · exact .inr h1

theorem put_sorted {r : Reg} (hs : Sorted r) (n : Str) (h : Nat) : Sorted (r.put n h) := by
  induction r with
  | nil => simp [Reg.put, Sorted]
  | cons b r ih =>
    obtain ⟨k, g⟩ := b
    have hs0 := hs
    rw [Sorted, List.pairwise_cons] at hs
    rw [Reg.put]
    split
    · rename_i e
      rw [strLt_iff] at e
      rw [Sorted, List.pairwise_cons]
      refine ⟨fun a ha => ?_, hs0⟩
      rcases List.mem_cons.1 ha with h2 | h2
      · subst h2; exact e
      · exact e.trans (hs.1 a h2)
    · rename_i e
      split
      · rename_i e2
        rw [strLt_iff] at e2
        rw [Sorted, List.pairwise_cons]
        refine ⟨fun a ha => ?_, ih hs.2⟩
        rcases (put_mem hs.2 n h a).1 ha with h1 | h1
        · subst h1; exact e2
        · exact hs.1 a h1.1
      · rw [Sorted, List.pairwise_cons]
        exact hs

theorem erase_mem {r : Reg} (hs : Sorted r) (n : Str) (a : Str × Nat) :
    a ∈ r.erase n ↔ a ∈ r ∧ a.1 ≠ n := by
  induction r with
  | nil => simp [Reg.erase]
  | cons b r ih =>
    obtain ⟨k, g⟩ := b
    rw [Sorted, List.pairwise_cons] at hs
    rw [Reg.erase]
    split
    · rename_i e
      subst e
      rw [List.mem_cons]
      constructor
      · intro h1
        refine ⟨.inr h1, ?_⟩
        intro e
        have := hs.1 a h1
        rw [e] at this
        exact Before.irrefl this
      · rintro ⟨h1 | h1, h2⟩
        · subst h1; exact absurd rfl h2
        · exact h1
    · rename_i e
      rw [List.mem_cons, List.mem_cons, ih hs.2]
      constructor
      · rintro (h1 | h1)
        · subst h1; exact ⟨.inl rfl, e⟩
        · exact ⟨.inr h1.1, h1.2⟩
      · rintro ⟨h1 | h1, h2⟩
        · exact .inl h1
        · exact .inr ⟨h1, h2⟩

theorem erase_sorted {r : Reg} (hs : Sorted r) (n : Str) : Sorted (r.erase n) := by
  induction r with
  | nil => simp [Reg.erase, Sorted]
  | cons b r ih =>
    obtain ⟨k, g⟩ := b
    rw [Sorted, List.pairwise_cons] at hs
    rw [Reg.erase]
    split
    · exact hs.2
    · rw [Sorted, List.pairwise_cons]
      exact ⟨fun a ha => hs.1 a ((erase_mem hs.2 n a).1 ha).1, ih hs.2⟩

/-! ## Prefixes -/

theorem take_eq_iff {p k : Str} : k.take p.length = p ↔ p <+: k := by
  constructor
  · intro h; rw [← h]; exact List.take_prefix _ _
  · rintro ⟨t, rfl⟩; simp

theorem prefixLoop_eq (p : Str) : ∀ r : Reg, Sorted r →
    prefixLoop p r = (r.filter fun a => decide (p <+: a.1)).map (·.2)
  | [], _ => rfl
  | (k, h) :: r, hs => by
    rw [Sorted, List.pairwise_cons] at hs
    rw [prefixLoop]
    split
    · rename_i e
      rw [take_eq_iff] at e
      rw [List.filter_cons_of_pos (by simpa using e), List.map_cons, prefixLoop_eq p r hs.2]
    · rename_i e
      rw [List.filter_cons_of_neg (by simpa using fun h => e (take_eq_iff.2 h))]
      split
      · rename_i e2
        rw [strLt_iff] at e2
        rw [List.filter_eq_nil_iff.2]
        · rfl
        · intro a ha
          simp only [decide_eq_true_eq]
          intro hp
          have := (hs.1 a ha).take p.length
          rw [take_eq_iff.2 hp] at this
          exact this e2
      · exact prefixLoop_eq p r hs.2

theorem lowerBound_filter (p : Str) : ∀ r : Reg,
    (r.lowerBound p).filter (fun a => decide (p <+: a.1)) = r.filter fun a => decide (p <+: a.1)
  | [] => rfl
  | (k, h) :: r => by
    rw [Reg.lowerBound]
    split
    · rename_i e
      rw [strLt_iff] at e
      rw [lowerBound_filter p r, List.filter_cons_of_neg]
      simpa using fun h => prefix_not_before h e
    · rfl

theorem lowerBound_sorted {p : Str} : ∀ {r : Reg}, Sorted r → Sorted (r.lowerBound p)
  | [], h => h
  | (k, h) :: r, hs => by
    rw [Reg.lowerBound]
    split
    · rw [Sorted, List.pairwise_cons] at hs
      exact lowerBound_sorted hs.2
    · exact hs

theorem byPrefix_eq {S : Sets} (hs : Sorted S.reg) (p : Str) :
    S.byPrefix p = (S.reg.filter fun a => decide (p <+: a.1)).map (·.2) := by
  rw [Sets.byPrefix, prefixLoop_eq p _ (lowerBound_sorted hs), lowerBound_filter]

/-! ## The invariant -/

structure Ok (S : Sets) : Prop where
  sorted : Sorted S.reg
  mem : ∀ n h, (n, h) ∈ S.reg ↔ S.live h = true ∧ S.name h = n
  bound : ∀ h, S.live h = true → h < S.last
  dead : ∀ h, S.live h = false → S.hidden h = false

theorem Ok.distinct {S : Sets} (I : Ok S) {a b : Nat} (ha : S.live a = true) (hb : S.live b = true)
    (h : S.name a = S.name b) : a = b := by
  have h1 := (find_some I.sorted).2 ((I.mem (S.name a) a).2 ⟨ha, rfl⟩)
  have h2 := (find_some I.sorted).2 ((I.mem (S.name a) b).2 ⟨hb, h.symm⟩)
  rw [h1] at h2; simpa using h2

theorem ok_unique {S : Sets} (I : Ok S) {n : Str} {h : Nat} (hl : S.live h = false)
    (hn : ∀ k, S.live k = true → S.name k ≠ n) : Ok (S.createUnique n h) := by
  refine ⟨put_sorted I.sorted n h, ?_, ?_, ?_⟩
  · intro m g
    simp only [Sets.createUnique, put_mem I.sorted, I.mem]
    by_cases e : g = h
    · subst e
      simp only [if_true, hl]
      constructor
      · rintro (e | ⟨⟨e, _⟩, _⟩)
        · cases e; exact ⟨trivial, rfl⟩
        · cases e
      · rintro ⟨_, rfl⟩; exact .inl rfl
    · simp only [if_neg e]
      constructor
      · rintro (e2 | ⟨e2, _⟩)
        · cases e2; exact absurd rfl e
        · exact e2
      · rintro ⟨h1, rfl⟩
        exact .inr ⟨⟨h1, rfl⟩, hn g h1⟩
  · intro g hg
    simp only [Sets.createUnique] at hg ⊢
    split at hg
    · rename_i e; subst e; omega
    · have := I.bound g hg; omega
  · intro g hg
    simp only [Sets.createUnique] at hg ⊢
    split at hg
    · cases hg
    · rename_i e; rw [if_neg e]; exact I.dead g hg

theorem ok_destroy {S S' : Sets} (I : Ok S) {h : Nat} (e : S.destroy h = some S') :
    Ok S' ∧ S.live h = true ∧ (∀ g, S'.live g = true ↔ S.live g = true ∧ g ≠ h) ∧ S'.name = S.name ∧
      S'.hide = S.hide ∧ S'.last = S.last ∧ (∀ g, S'.hidden g = true ↔ S.hidden g = true ∧ g ≠ h) := by
  rw [Sets.destroy] at e
  split at e
  · rename_i hl
    cases e
    have hlive : ∀ g, (if g = h then false else S.live g) = true ↔ S.live g = true ∧ g ≠ h := by
      intro g; split <;> simp_all
    have hhid : ∀ g, (if g = h then false else S.hidden g) = true ↔ S.hidden g = true ∧ g ≠ h := by
      intro g; split <;> simp_all
    refine ⟨⟨erase_sorted I.sorted _, ?_, ?_, ?_⟩, hl, hlive, rfl, rfl, rfl, hhid⟩
    · intro m g
      simp only [erase_mem I.sorted, I.mem, hlive]
      constructor
      · rintro ⟨⟨h1, h2⟩, h3⟩
        refine ⟨⟨h1, ?_⟩, h2⟩
        rintro rfl; exact h3 h2.symm
      · rintro ⟨⟨h1, h2⟩, h3⟩
        refine ⟨⟨h1, h3⟩, fun e => h2 (I.distinct h1 hl (h3.trans e))⟩
    · intro g hg
      exact I.bound g ((hlive g).1 hg).1
    · intro g hg
      simp only at hg ⊢
      split
      · rfl
      · rename_i e
        rw [if_neg e] at hg
        exact I.dead g hg
  · cases e

theorem ok_endLoop : ∀ (hs : List Nat) (S S' : Sets), Ok S → endLoop hs S = some S' →
    Ok S' ∧ (∀ g, S'.live g = true ↔ S.live g = true ∧ ¬ (S.hidden g = true ∧ g ∈ hs)) ∧
      S'.name = S.name ∧ S'.hide = S.hide
  | [], S, S', I, e => by cases e; exact ⟨I, by simp, rfl, rfl⟩
  | h :: hs, S, S', I, e => by
    rw [endLoop] at e
    split at e
    · rename_i hc
      simp only [Bool.and_eq_true] at hc
      cases hd : S.destroy h with
      | none => rw [hd] at e; cases e
      | some S1 =>
        rw [hd] at e
        obtain ⟨I1, _, g1, g2, g3, _, g5⟩ := ok_destroy I hd
        obtain ⟨I2, k1, k2, k3⟩ := ok_endLoop hs S1 S' I1 e
        refine ⟨I2, fun g => ?_, k2.trans g2, k3.trans g3⟩
        rw [k1, g1, g5]
        by_cases e : g = h
        · subst e; simp [hc]
        · simp [e]
    · rename_i hc
      obtain ⟨I2, k1, k2, k3⟩ := ok_endLoop hs S S' I e
      refine ⟨I2, fun g => ?_, k2, k3⟩
      rw [k1]
      by_cases e : g = h
      · subst e
        simp only [Bool.and_eq_true, not_and] at hc
        constructor
        · rintro ⟨h1, h2⟩; exact ⟨h1, fun h3 => hc h1 h3.1⟩
        · rintro ⟨h1, h2⟩; exact ⟨h1, fun h3 => hc h1 h3.1⟩
      · simp [e]

theorem endLoop_some : ∀ (hs : List Nat) (S : Sets), ∃ S', endLoop hs S = some S'
  | [], S => ⟨S, rfl⟩
  | h :: hs, S => by
    rw [endLoop]
    split
    · rename_i hc
      simp only [Bool.and_eq_true] at hc
      rw [Sets.destroy, if_pos hc.1]
      exact endLoop_some hs _
    · exact endLoop_some hs S

theorem hist_ok {S : Sets} (h : Hist S) : Ok S := by
  induction h with
  | init => exact ⟨List.Pairwise.nil, by simp [Sets.init], by simp [Sets.init], fun _ _ => rfl⟩
  | @create S n h _ hl ih =>
    rw [Sets.create]
    cases e : S.getSet n with
    | some g => exact ih
    | none =>
      refine ok_unique ih hl fun k hk e2 => ?_
      have := (find_some ih.sorted).2 ((ih.mem n k).2 ⟨hk, e2⟩)
      rw [Sets.getSet, this] at e; cases e
  | unique n h _ hl hn ih => exact ok_unique ih hl hn
  | @delete S S' h _ e ih =>
    rw [Sets.delete] at e
    split at e
    · split at e
      · rename_i hl
        cases e
        refine ⟨ih.sorted, ih.mem, ih.bound, fun g hg => ?_⟩
        simp only
        rw [if_neg]
        · exact ih.dead g hg
        · rintro rfl; change S.live g = false at hg; rw [hl] at hg; cases hg
      · cases e
    · exact (ok_destroy ih e).1
  | destroy h _ e ih => exact (ok_destroy ih e).1
  | beginMod _ e ih =>
    rw [Sets.beginMod] at e
    split at e
    · cases e
    · cases e; exact ⟨ih.sorted, ih.mem, ih.bound, fun _ _ => rfl⟩
  | @endMod S S' _ e ih =>
    rw [Sets.endMod] at e
    split at e
    · cases hl : endLoop (List.range S.last) S with
      | none => rw [hl] at e; cases e
      | some S1 =>
        rw [hl] at e
        cases e
        have I := (ok_endLoop _ _ _ ih hl).1
        exact ⟨I.sorted, I.mem, I.bound, I.dead⟩
    · cases e

end Verif.Names
