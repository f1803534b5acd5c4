import Verif.Resolve.Spec
import Verif.Topology.Queries

/-!
# Lemmas on lists of processors and on messages
-/

namespace Verif.Resolve

open Verif.Topology (El Topo)

theorem setInter_spec : ∀ {a b : List Nat}, a.Pairwise (· < ·) → b.Pairwise (· < ·) →
    (∀ x, x ∈ setInter a b ↔ x ∈ a ∧ x ∈ b) ∧ (setInter a b).Sublist a
  | [], b, _, _ => by
    rw [setInter]
    · simp
    · intro _ _ _ _ h; cases h
  | x :: a, [], _, _ => by
    rw [setInter]
    · simp
    · intro _ _ _ _ _ h; cases h
  | x :: a, y :: b, ha, hb => by
    obtain ⟨a1, a2⟩ := List.pairwise_cons.1 ha
    obtain ⟨b1, b2⟩ := List.pairwise_cons.1 hb
    rw [setInter]
    by_cases h : x < y
    · rw [if_pos h]
      obtain ⟨i1, i2⟩ := setInter_spec (a := a) (b := y :: b) a2 hb
      refine ⟨fun z => (i1 z).trans ⟨fun h' => ⟨List.mem_cons_of_mem _ h'.1, h'.2⟩, ?_⟩,
        i2.trans (List.sublist_cons_self _ _)⟩
      rintro ⟨h1, h2⟩
      rcases List.mem_cons.1 h1 with rfl | h1
      · exfalso
        rcases List.mem_cons.1 h2 with rfl | h2
        · omega
        · have := b1 _ h2; omega
      · exact ⟨h1, h2⟩
    · rw [if_neg h]
      by_cases h' : y < x
      · rw [if_pos h']
        obtain ⟨i1, i2⟩ := setInter_spec (a := x :: a) (b := b) ha b2
        refine ⟨fun z => (i1 z).trans ⟨fun h' => ⟨h'.1, List.mem_cons_of_mem _ h'.2⟩, ?_⟩, i2⟩
        rintro ⟨h1, h2⟩
        rcases List.mem_cons.1 h2 with rfl | h2
        · exfalso
          rcases List.mem_cons.1 h1 with rfl | h1
          · omega
          · have := a1 _ h1; omega
        · exact ⟨h1, h2⟩
      · rw [if_neg h']
        have hxy : x = y := by omega
        subst hxy
        obtain ⟨i1, i2⟩ := setInter_spec (a := a) (b := b) a2 b2
        refine ⟨fun z => ?_, i2.cons_cons x⟩
        rw [List.mem_cons, i1 z, List.mem_cons, List.mem_cons]
        constructor
        · rintro (h1 | h1)
          · exact ⟨Or.inl h1, Or.inl h1⟩
          · exact ⟨Or.inr h1.1, Or.inr h1.2⟩
        · rintro ⟨h1 | h1, h2 | h2⟩
          · exact Or.inl h1
          · exact Or.inl h1
          · exact Or.inl h2
          · exact Or.inr ⟨h1, h2⟩
termination_by a b => a.length + b.length

theorem foldInter_spec {pr : El → List Nat} : ∀ {xs : List El} {r : List Nat}, r.Pairwise (· < ·) →
    (∀ x, x ∈ xs → (pr x).Pairwise (· < ·)) →
    (∀ q, q ∈ xs.foldl (fun r y => setInter r (pr y)) r ↔ q ∈ r ∧ ∀ x, x ∈ xs → q ∈ pr x) ∧
      (xs.foldl (fun r y => setInter r (pr y)) r).Pairwise (· < ·)
  | [], r, hr, _ => by simpa using hr
  | x :: xs, r, hr, h => by
    obtain ⟨s1, s2⟩ := setInter_spec hr (h x List.mem_cons_self)
    obtain ⟨i1, i2⟩ := foldInter_spec (pr := pr) (xs := xs) (r := setInter r (pr x)) (hr.sublist s2)
      (fun y hy => h y (List.mem_cons_of_mem _ hy))
    refine ⟨fun q => ?_, i2⟩
    rw [List.foldl_cons, i1 q, s1 q]
    simp only [List.mem_cons, forall_eq_or_imp]
    exact and_assoc

theorem lowProcs_spec {pr : El → List Nat} {sub : List El} (hne : sub ≠ [])
    (h : ∀ x, x ∈ sub → (pr x).Pairwise (· < ·)) :
    (∀ q, q ∈ lowProcs pr sub ↔ ∀ x, x ∈ sub → q ∈ pr x) ∧ (lowProcs pr sub).Pairwise (· < ·) := by
  cases sub with
  | nil => exact absurd rfl hne
  | cons x xs =>
    obtain ⟨i1, i2⟩ := foldInter_spec (pr := pr) (xs := xs) (r := pr x) (h x List.mem_cons_self)
      (fun y hy => h y (List.mem_cons_of_mem _ hy))
    refine ⟨fun q => ?_, i2⟩
    rw [lowProcs, i1 q]
    simp only [List.mem_cons, forall_eq_or_imp]

/-! ## The map from global to local numbers -/

theorem lookup_sorted {g : Int} : ∀ {m : List (Int × El)}, m.Pairwise (fun a b => a.1 ≤ b.1) →
    (∀ x, lookup m g = some x → (g, x) ∈ m) ∧ ((∃ x, (g, x) ∈ m) → ∃ y, lookup m g = some y)
  | [], _ => by simp [lookup]
  | a :: l, h => by
    obtain ⟨h1, h2⟩ := List.pairwise_cons.1 h
    obtain ⟨i1, i2⟩ := lookup_sorted (g := g) h2
    by_cases hg : a.1 < g
    · have e : lookup (a :: l) g = lookup l g := by
        unfold lookup
        rw [List.dropWhile_cons, if_pos (by simpa using hg)]
      rw [e]
      refine ⟨fun x hx => List.mem_cons_of_mem _ (i1 x hx), fun ⟨x, hx⟩ => i2 ⟨x, ?_⟩⟩
      rcases List.mem_cons.1 hx with rfl | hx
      · simp at hg
      · exact hx
    · have e : lookup (a :: l) g = if a.1 = g then some a.2 else none := by
        unfold lookup
        rw [List.dropWhile_cons, if_neg (by simpa using hg)]
      rw [e]
      by_cases hag : a.1 = g
      · rw [if_pos hag]
        refine ⟨fun x hx => ?_, fun _ => ⟨_, rfl⟩⟩
        injection hx with hx
        rw [← hag, ← hx]; exact List.mem_cons_self
      · rw [if_neg hag]
        refine ⟨fun x hx => (by cases hx), fun ⟨x, hx⟩ => ?_⟩
        rcases List.mem_cons.1 hx with rfl | hx
        · exact absurd rfl hag
        · have := h1 _ hx
          simp only at this
          omega

theorem lookup_spec {gid : El → Int} {es : List El} (hinj : ∀ x y, x ∈ es → y ∈ es → gid x = gid y → x = y)
    (g : Int) (x : El) : lookup (mapping gid es) g = some x ↔ x ∈ es ∧ gid x = g := by
  have hs : (mapping gid es).Pairwise (fun a b => a.1 ≤ b.1) := by
    unfold mapping
    have : Std.Total (fun a b : Int × El => a.1 ≤ b.1) := ⟨fun a b => Int.le_total _ _⟩
    have : IsTrans (Int × El) (fun a b => a.1 ≤ b.1) := ⟨fun a b c h h' => Int.le_trans h h'⟩
    exact List.pairwise_insertionSort _ _
  have hm : ∀ y, (g, y) ∈ mapping gid es ↔ y ∈ es ∧ gid y = g := by
    intro y
    unfold mapping
    rw [(List.perm_insertionSort _ _).mem_iff, List.mem_map]
    constructor
    · rintro ⟨z, hz, h⟩
      injection h with h1 h2
      subst h2
      exact ⟨hz, h1⟩
    · rintro ⟨hy, rfl⟩; exact ⟨y, hy, rfl⟩
  obtain ⟨h1, h2⟩ := lookup_sorted (g := g) hs
  constructor
  · intro h; exact (hm x).1 (h1 x h)
  · intro h
    obtain ⟨y, hy⟩ := h2 ⟨x, (hm x).2 h⟩
    have := (hm y).1 (h1 y hy)
    rw [hy, hinj y x this.1 h.1 (this.2.trans h.2.symm)]

/-! ## Messages -/

/-- All elements with the given numbers, if there are such. -/
def allFound (find : Int → Option El) : List Int → Option (List El)
  | [] => some []
  | g :: l => match find g with
    | none => none
    | some x => match allFound find l with
      | none => none
      | some xs => some (x :: xs)

theorem readIds_spec {find : Int → Option El} : ∀ (ids rest : List Int),
    readIds find ids.length (ids ++ rest) = some (allFound find ids, rest)
  | [], _ => rfl
  | g :: ids, rest => by
    simp only [List.length_cons, List.cons_append, readIds, allFound]
    cases find g with
    | none => simp
    | some x =>
      simp only
      rw [readIds_spec ids rest]
      cases allFound find ids <;> rfl

theorem allFound_some {find : Int → Option El} : ∀ {ids : List Int} {sub : List El},
    allFound find ids = some sub → List.Forall₂ (fun g x => find g = some x) ids sub
  | [], sub, h => by
    injection h with h
    subst h
    exact .nil
  | g :: ids, sub, h => by
    simp only [allFound] at h
    cases hg : find g with
    | none => rw [hg] at h; cases h
    | some x =>
      rw [hg] at h
      simp only at h
      cases ha : allFound find ids with
      | none => rw [ha] at h; cases h
      | some xs =>
        rw [ha] at h
        injection h with h
        subst h
        exact .cons hg (allFound_some ha)

theorem allFound_ex {find : Int → Option El} : ∀ {ids : List Int}, (∀ g, g ∈ ids → ∃ x, find g = some x) →
    ∃ sub, allFound find ids = some sub
  | [], _ => ⟨[], rfl⟩
  | g :: ids, h => by
    obtain ⟨x, hx⟩ := h g List.mem_cons_self
    obtain ⟨xs, hxs⟩ := allFound_ex (find := find) (ids := ids) fun y hy => h y (List.mem_cons_of_mem _ hy)
    exact ⟨x :: xs, by simp only [allFound, hx, hxs]⟩

theorem readEls_spec {find : Int → Option El} {T : Topo} : ∀ {recs : List (List Int)},
    (∀ ids, ids ∈ recs → ∀ sub, allFound find ids = some sub → T.findShared sub ≠ none) →
    ∃ R, readEls find T recs.length (recs.flatMap fun ids => (ids.length : Int) :: ids) = some R ∧
      ∀ e, e ∈ R ↔ ∃ ids, ids ∈ recs ∧ ∃ sub, allFound find ids = some sub ∧ T.findShared sub = some (some e)
  | [], _ => ⟨[], rfl, by simp⟩
  | ids :: recs, h => by
    obtain ⟨R, h1, h2⟩ := readEls_spec (find := find) (T := T) (recs := recs)
      fun x hx => h x (List.mem_cons_of_mem _ hx)
    simp only [List.length_cons, List.flatMap_cons, List.cons_append, readEls, Int.toNat_natCast]
    rw [readIds_spec]
    cases ha : allFound find ids with
    | none =>
      simp only
      refine ⟨R, h1, fun e => (h2 e).trans ⟨?_, ?_⟩⟩
      · rintro ⟨i, hi, h'⟩; exact ⟨i, List.mem_cons_of_mem _ hi, h'⟩
      · rintro ⟨i, hi, sub, hs, h'⟩
        rcases List.mem_cons.1 hi with rfl | hi
        · rw [ha] at hs; cases hs
        · exact ⟨i, hi, sub, hs, h'⟩
    | some sub =>
      simp only
      cases hf : T.findShared sub with
      | none => exact absurd hf (h ids List.mem_cons_self sub ha)
      | some r =>
        cases r with
        | none =>
          simp only
          refine ⟨R, h1, fun e => (h2 e).trans ⟨?_, ?_⟩⟩
          · rintro ⟨i, hi, h'⟩; exact ⟨i, List.mem_cons_of_mem _ hi, h'⟩
          · rintro ⟨i, hi, sub', hs, h'⟩
            rcases List.mem_cons.1 hi with rfl | hi
            · rw [ha] at hs
              injection hs with hs
              subst hs
              rw [hf] at h'; cases h'
            · exact ⟨i, hi, sub', hs, h'⟩
        | some e0 =>
          simp only
          rw [h1]
          refine ⟨e0 :: R, rfl, fun e => ?_⟩
          rw [List.mem_cons, h2 e]
          constructor
          · rintro (rfl | ⟨i, hi, h'⟩)
            · exact ⟨ids, List.mem_cons_self, sub, ha, hf⟩
            · exact ⟨i, List.mem_cons_of_mem _ hi, h'⟩
          · rintro ⟨i, hi, sub', hs, h'⟩
            rcases List.mem_cons.1 hi with rfl | hi
            · rw [ha] at hs
              injection hs with hs
              subst hs
              rw [hf] at h'
              injection h' with h'
              injection h' with h'
              exact Or.inl h'.symm
            · exact Or.inr ⟨i, hi, sub', hs, h'⟩

/-! ## Removal of processors -/

theorem eraseFrom_sublist {q : Nat} : ∀ l : List Nat, (eraseFrom q l).Sublist l
  | [] => .slnil
  | x :: l => by
    simp only [eraseFrom]
    split
    · exact List.sublist_cons_self _ _
    · exact (eraseFrom_sublist l).cons_cons x

theorem eraseFrom_spec {q : Nat} : ∀ {l : List Nat}, l.Pairwise (· < ·) → q ∈ l →
    ∀ x, x ∈ eraseFrom q l ↔ x ∈ l ∧ x ≠ q
  | x :: l, h, hq, z => by
    obtain ⟨h1, h2⟩ := List.pairwise_cons.1 h
    simp only [eraseFrom]
    by_cases hx : q ≤ x
    · rw [if_pos hx]
      have hqx : q = x := by
        rcases List.mem_cons.1 hq with h' | h'
        · exact h'
        · have := h1 _ h'; omega
      subst hqx
      rw [List.mem_cons]
      constructor
      · intro h'; have := h1 _ h'; exact ⟨Or.inr h', by omega⟩
      · rintro ⟨h' | h', h''⟩
        · exact absurd h' h''
        · exact h'
    · rw [if_neg hx]
      have hql : q ∈ l := by
        rcases List.mem_cons.1 hq with h' | h'
        · omega
        · exact h'
      rw [List.mem_cons, eraseFrom_spec h2 hql z, List.mem_cons]
      constructor
      · rintro (h' | h')
        · exact ⟨Or.inl h', by omega⟩
        · exact ⟨Or.inr h'.1, h'.2⟩
      · rintro ⟨h' | h', h''⟩
        · exact Or.inl h'
        · exact Or.inr ⟨h', h''⟩

/-- The loop over processors removes from the list of `e` the processors that did not send it. -/
theorem replies_spec {find : Int → Option El} {T : Topo} {sent : Nat → List El} {msg : Nat → List Int}
    {R : Nat → List El} : ∀ {qs : List Nat} {pr : El → List Nat}, qs.Nodup →
    (∀ q, q ∈ qs → ∃ c l, msg q = c :: l ∧ readEls find T c.toNat l = some (R q)) →
    (∀ e, (pr e).Pairwise (· < ·) ∨ ∀ q, q ∈ qs → e ∉ sent q) → (∀ q, q ∈ qs → ∀ e, e ∈ sent q → q ∈ pr e) →
    ∃ pr', replies find T sent msg qs pr = some pr' ∧ ∀ e, (pr' e).Sublist (pr e) ∧
      ∀ x, ((pr e).Pairwise (· < ·)) → (x ∈ pr' e ↔ x ∈ pr e ∧ ¬ (x ∈ qs ∧ e ∈ sent x ∧ e ∉ R x))
  | [], pr, _, _, _, _ => ⟨pr, rfl, fun e => ⟨List.Sublist.refl _, fun x _ => by simp⟩⟩
  | q :: qs, pr, hn, hm, hs, hp => by
    rw [List.nodup_cons] at hn
    obtain ⟨c, l, hmsg, hr⟩ := hm q List.mem_cons_self
    simp only [replies, oneReply]
    rw [hmsg]
    simp only
    rw [hr]
    simp only
    let pr1 : El → List Nat := fun e => if e ∈ sent q ∧ e ∉ R q then eraseFrom q (pr e) else pr e
    have hsub : ∀ e, (pr1 e).Sublist (pr e) := by
      intro e
      simp only [pr1]
      split
      · exact eraseFrom_sublist _
      · exact List.Sublist.refl _
    have hsort : ∀ q', q' ∈ q :: qs → ∀ e, e ∈ sent q' → (pr e).Pairwise (· < ·) := by
      intro q' hq' e he
      rcases hs e with h | h
      · exact h
      · exact absurd he (h q' hq')
    have hmem : ∀ e x, (pr e).Pairwise (· < ·) → (x ∈ pr1 e ↔ x ∈ pr e ∧ ¬ (x = q ∧ e ∈ sent q ∧ e ∉ R q)) := by
      intro e x hpe
      simp only [pr1]
      split
      · rename_i h
        rw [eraseFrom_spec hpe (hp q List.mem_cons_self e h.1)]
        constructor
        · rintro ⟨h1, h2⟩; exact ⟨h1, fun h' => h2 h'.1⟩
        · rintro ⟨h1, h2⟩; exact ⟨h1, fun h' => h2 ⟨h', h⟩⟩
      · rename_i h
        constructor
        · intro h1; exact ⟨h1, fun h' => h h'.2⟩
        · exact fun h1 => h1.1
    obtain ⟨pr', i1, i2⟩ := replies_spec (find := find) (T := T) (sent := sent) (msg := msg) (R := R) (qs := qs)
      (pr := pr1) hn.2 (fun q' hq' => hm q' (List.mem_cons_of_mem _ hq'))
      (fun e => by
        rcases hs e with h | h
        · exact Or.inl (h.sublist (hsub e))
        · exact Or.inr fun q' hq' => h q' (List.mem_cons_of_mem _ hq'))
      (fun q' hq' e he => by
        refine (hmem e q' (hsort q' (List.mem_cons_of_mem _ hq') e he)).2
          ⟨hp q' (List.mem_cons_of_mem _ hq') e he, ?_⟩
        rintro ⟨rfl, -⟩
        exact hn.1 hq')
    refine ⟨pr', i1, fun e => ⟨(i2 e).1.trans (hsub e), fun x hpe => ?_⟩⟩
    rw [(i2 e).2 x (hpe.sublist (hsub e)), hmem e x hpe, List.mem_cons]
    constructor
    · rintro ⟨⟨h1, h2⟩, h3⟩
      refine ⟨h1, ?_⟩
      rintro ⟨rfl | h4, h5⟩
      · exact h2 ⟨rfl, h5⟩
      · exact h3 ⟨h4, h5⟩
    · rintro ⟨h1, h2⟩
      refine ⟨⟨h1, ?_⟩, fun h3 => h2 ⟨Or.inr h3.1, h3.2⟩⟩
      rintro ⟨rfl, h3⟩
      exact h2 ⟨Or.inl rfl, h3⟩

end Verif.Resolve
