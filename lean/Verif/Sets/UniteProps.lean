import Verif.Sets.UniteModel
import Verif.Sets.SortedProps

/-!
# Properties C111, C112, C113: unions of sorted sets and additions of arrays of elements
-/

namespace Verif.Sets

/-! ## Specification -/

/-- A strict weak order, what `std::sort` asks for. -/
structure Weak (lt : Nat → Nat → Bool) : Prop where
  asymm : ∀ x y, lt x y = true → lt y x = false
  negtrans : ∀ x y z, lt x z = true → lt x y = true ∨ lt y z = true

/-- In the order of the comparison. -/
def InOrder (lt : Nat → Nat → Bool) (l : List Nat) : Prop := l.Pairwise fun x y => lt y x = false

/-- A set without holes and without repetitions whose first `sorted` elements are in order. -/
structure Tidy (lt : Nat → Nat → Bool) (s : ESet) : Prop where
  bound : s.sorted ≤ s.lc.length
  holes : s.holes = []
  valid : ∀ x ∈ s.lc, x ≠ 0
  nodup : s.lc.Nodup
  order : InOrder lt (s.lc.take s.sorted)

/-! ## Lemmas -/

theorem attachMarked_all {l : List Nat} : ∀ {out : List Nat}, l.Nodup → (∀ x ∈ l, x ≠ 0) → (∀ x ∈ l, x ∉ out) →
    attachMarked out l = (out ++ l, []) := by
  induction l with
  | nil => intro out _ _ _; simp [attachMarked]
  | cons x l ih =>
    intro out hn hz hd
    rw [attachMarked, if_pos ⟨hz x (by simp), hd x (by simp)⟩, ih (List.nodup_cons.1 hn).2 (fun y hy => hz y (by simp [hy]))]
    · simp
    · intro y hy
      simp only [List.mem_append, List.mem_singleton, not_or]
      exact ⟨hd y (by simp [hy]), fun h => (List.nodup_cons.1 hn).1 (h ▸ hy)⟩

theorem attachMarked_nil (out : List Nat) : attachMarked out [] = (out, []) := rfl

theorem attachMarked_stop {x : Nat} {l out : List Nat} (h : x ∈ out) : attachMarked out (x :: l) = (out, x :: l) := by
  rw [attachMarked, if_neg (by simp [h])]

theorem or_shift {p q r t : Prop} : ((p ∨ q) ∨ r ∨ t) ↔ (p ∨ (q ∨ r) ∨ t) := by tauto

theorem or_shift' {p q r t : Prop} : ((p ∨ q) ∨ r ∨ t) ↔ (p ∨ r ∨ (q ∨ t)) := by tauto

set_option maxHeartbeats 1000000 in
/-- What the loop that merges does. -/
theorem mergeMarked_spec {lt : Nat → Nat → Bool} (hw : Weak lt) (B : List Nat) :
    ∀ (n : Nat) (out it jt : List Nat), it.length + jt.length = n → (∀ x ∈ it, x ≠ 0) → (∀ x ∈ jt, x ≠ 0) → it.Nodup → jt.Nodup →
      InOrder lt it → InOrder lt jt → out.Nodup → InOrder lt out → (∀ x ∈ jt, x ∉ out) → (∀ x ∈ jt, x ∈ B) →
      (∀ o ∈ out, ∀ x, x ∈ it ∨ x ∈ jt → x ∉ out → lt x o = false) → (∀ x ∈ it, x ∈ out → x ∈ B) →
      let r := mergeMarked lt out it jt
      (∀ x, (x ∈ r.1 ∨ x ∈ r.2.1 ∨ x ∈ r.2.2) ↔ (x ∈ out ∨ x ∈ it ∨ x ∈ jt)) ∧ r.1.Nodup ∧ InOrder lt r.1 ∧
      (∀ o ∈ r.1, ∀ x, x ∈ r.2.1 ∨ x ∈ r.2.2 → x ∉ r.1 → lt x o = false) ∧ (r.2.1 = [] ∨ r.2.2 = []) ∧
      (∀ x ∈ r.2.2, x ∉ r.1) ∧ (∀ x ∈ r.2.1, x ∈ r.1 → x ∈ B) ∧
      (∀ l, jt.getLast? = some l → r.2.2 = [] → ∀ x ∈ r.2.1, lt x l = false) ∧
      r.2.1.Sublist it ∧ r.2.2.Sublist jt := by
  intro n
  induction n using Nat.strongRecOn with
  | _ n ih =>
    intro out it jt hl hz1 hz2 hn1 hn2 ho1 ho2 hno hoo hd hB hge hm
    match it, jt with
    | [], jt =>
      rw [mergeMarked]
      refine ⟨by simp, hno, hoo, fun o h x hx => hge o h x hx, Or.inl rfl, hd, by simp, by simp, by simp, by simp⟩
    | x :: it, [] =>
      rw [mergeMarked]
      refine ⟨by simp, hno, hoo, fun o h x hx => hge o h x hx, Or.inr rfl, by simp, hm, by simp, by simp, by simp⟩
    | x :: it, y :: jt =>
      have hx0 := hz1 x (by simp)
      have hy0 := hz2 y (by simp)
      have hyo := hd y (by simp)
      have hn1' := List.nodup_cons.1 hn1
      have hn2' := List.nodup_cons.1 hn2
      have ho1' := List.pairwise_cons.1 ho1
      have ho2' := List.pairwise_cons.1 ho2
      rw [mergeMarked]
      by_cases hx : x ∈ out
      · rw [if_pos (Or.inr hx)]
        have := ih (it.length + (y :: jt).length) (by simp only [List.length_cons] at hl ⊢; omega) out it (y :: jt) rfl
          (fun z hz => hz1 z (by simp [hz])) hz2 hn1'.2 hn2 ho1'.2 ho2 hno hoo hd hB
          (fun o h z hz => hge o h z (by rcases hz with hz | hz <;> simp_all)) (fun z hz => hm z (by simp [hz]))
        obtain ⟨g1, g2, g3, g4, g5, g6, g7, g8, g9, g10⟩ := this
        refine ⟨fun z => ?_, g2, g3, g4, g5, g6, g7, g8, g9.trans (List.sublist_cons_self _ _), g10⟩
        rw [g1 z, List.mem_cons (a := z) (b := x)]
        refine ⟨fun h => h.imp id (Or.imp Or.inr id), fun h => ?_⟩
        rcases h with h | (rfl | h) | h
        · exact Or.inl h
        · exact Or.inl hx
        · exact Or.inr (Or.inl h)
        · exact Or.inr (Or.inr h)
      · rw [if_neg (by simp [hx, hx0]), if_neg (by simp [hyo, hy0])]
        by_cases hlt : lt x y = true
        · rw [if_pos hlt]
          -- x is before all of jt
          have hxj : ∀ z ∈ y :: jt, lt x z = true := by
            intro z hz
            rcases List.mem_cons.1 hz with rfl | hz
            · exact hlt
            · rcases hw.negtrans x z y hlt with h | h
              · exact h
              · rw [ho2'.1 z hz] at h; cases h
          have irr : ∀ z, lt z z = false := fun z => by
            cases h : lt z z with
            | false => rfl
            | true => have := hw.asymm z z h; rw [h] at this; exact this
          have hxn : x ∉ y :: jt := fun h => by have := hxj x h; rw [irr] at this; cases this
          have := ih (it.length + (y :: jt).length) (by simp only [List.length_cons] at hl ⊢; omega) (out ++ [x]) it (y :: jt) rfl
            (fun z hz => hz1 z (by simp [hz])) hz2 hn1'.2 hn2 ho1'.2 ho2
            (by
              rw [List.nodup_append]
              exact ⟨hno, by simp, fun a ha b hb => by simp only [List.mem_singleton] at hb; rintro rfl; exact hx (hb ▸ ha)⟩)
            (by
              unfold InOrder at hoo ⊢
              rw [List.pairwise_append]
              exact ⟨hoo, by simp, fun a ha b hb => by
                simp only [List.mem_singleton] at hb; subst hb; exact hge a ha b (by simp) hx⟩)
            (fun z hz h => by
              rcases List.mem_append.1 h with h | h
              · exact hd z hz h
              · simp only [List.mem_singleton] at h; exact hxn (h ▸ hz))
            hB
            (fun o h z hz hzo => by
              have hzo' : z ∉ out := fun hh => hzo (List.mem_append_left _ hh)
              rcases List.mem_append.1 h with h | h
              · exact hge o h z (by rcases hz with hz | hz <;> simp_all) hzo'
              · simp only [List.mem_singleton] at h
                subst h
                rcases hz with hz | hz
                · exact ho1'.1 z hz
                · exact hw.asymm _ _ (hxj z hz))
            (fun z hz h => by
              rcases List.mem_append.1 h with h | h
              · exact hm z (by simp [hz]) h
              · simp only [List.mem_singleton] at h; exact absurd (h ▸ hz) hn1'.1)
          obtain ⟨g1, g2, g3, g4, g5, g6, g7, g8, g9, g10⟩ := this
          refine ⟨fun z => ?_, g2, g3, g4, g5, g6, g7, g8, g9.trans (List.sublist_cons_self _ _), g10⟩
          rw [g1 z, List.mem_append, List.mem_singleton, List.mem_cons (a := z) (b := x)]
          exact or_shift
        · rw [if_neg hlt]
          have hlt' : lt x y = false := by simpa using hlt
          have hxi : ∀ z ∈ x :: it, lt z y = false := by
            intro z hz
            rcases List.mem_cons.1 hz with rfl | hz
            · exact hlt'
            · cases h : lt z y with
              | false => rfl
              | true =>
                rcases hw.negtrans z x y h with h' | h'
                · rw [ho1'.1 z hz] at h'; cases h'
                · exact absurd h' hlt
          have := ih ((x :: it).length + jt.length) (by simp only [List.length_cons] at hl ⊢; omega) (out ++ [y]) (x :: it) jt rfl
            hz1 (fun z hz => hz2 z (by simp [hz])) hn1 hn2'.2 ho1 ho2'.2
            (by
              rw [List.nodup_append]
              exact ⟨hno, by simp, fun a ha b hb => by simp only [List.mem_singleton] at hb; rintro rfl; exact hyo (hb ▸ ha)⟩)
            (by
              unfold InOrder at hoo ⊢
              rw [List.pairwise_append]
              exact ⟨hoo, by simp, fun a ha b hb => by
                simp only [List.mem_singleton] at hb; subst hb; exact hge a ha b (by simp) hyo⟩)
            (fun z hz h => by
              rcases List.mem_append.1 h with h | h
              · exact hd z (by simp [hz]) h
              · simp only [List.mem_singleton] at h; exact hn2'.1 (h ▸ hz))
            (fun z hz => hB z (by simp [hz]))
            (fun o h z hz hzo => by
              have hzo' : z ∉ out := fun hh => hzo (List.mem_append_left _ hh)
              rcases List.mem_append.1 h with h | h
              · exact hge o h z (by rcases hz with hz | hz <;> simp_all) hzo'
              · simp only [List.mem_singleton] at h
                subst h
                rcases hz with hz | hz
                · exact hxi z hz
                · exact ho2'.1 z hz)
            (fun z hz h => by
              rcases List.mem_append.1 h with h | h
              · exact hm z hz h
              · simp only [List.mem_singleton] at h; subst h; exact hB z (by simp))
          obtain ⟨g1, g2, g3, g4, g5, g6, g7, g8, g9, g10⟩ := this
          refine ⟨fun z => ?_, g2, g3, g4, g5, g6, g7, fun l hlast hJ => ?_, g9, g10.trans (List.sublist_cons_self _ _)⟩
          · rw [g1 z, List.mem_append, List.mem_singleton, List.mem_cons (a := z) (b := y)]
            exact or_shift'
          · cases jt with
            | nil =>
              simp only [List.getLast?_singleton, Option.some.injEq] at hlast
              subst hlast
              intro z hz
              exact hxi z (g9.subset hz)
            | cons y' jt => exact g8 l (by simpa using hlast) hJ

/-- The result of merging when nothing of the first range is left behind. -/
theorem merge_parts {lt : Nat → Nat → Bool} (hw : Weak lt) {it jt : List Nat} (hz1 : ∀ x ∈ it, x ≠ 0) (hz2 : ∀ x ∈ jt, x ≠ 0)
    (hn1 : it.Nodup) (hn2 : jt.Nodup) (ho1 : InOrder lt it) (ho2 : InOrder lt jt)
    (hlast : ∀ l, jt.getLast? = some l → ∀ x ∈ it, x ∈ jt → lt x l = true) :
    ∃ O I J, mergeMarked lt [] it jt = (O, I, J) ∧ attachMarked O I = (O ++ I, []) ∧ attachMarked (O ++ I) J = (O ++ I ++ J, []) ∧
      (O ++ I ++ J).Nodup ∧ InOrder lt (O ++ I ++ J) ∧ ∀ x, x ∈ O ++ I ++ J ↔ x ∈ it ∨ x ∈ jt := by
  obtain ⟨g1, g2, g3, g4, g5, g6, g7, g8, g9, g10⟩ := mergeMarked_spec hw jt _ [] it jt rfl hz1 hz2 hn1 hn2 ho1 ho2 List.nodup_nil
    List.Pairwise.nil (by simp) (fun _ h => h) (by simp) (by simp)
  generalize mergeMarked lt [] it jt = r at g1 g2 g3 g4 g5 g6 g7 g8 g9 g10
  obtain ⟨O, I, J⟩ := r
  simp only at g1 g2 g3 g4 g5 g6 g7 g8 g9 g10
  have hI : ∀ x ∈ I, x ∉ O := by
    intro x hx hxo
    have hxj := g7 x hx hxo
    obtain ⟨l, hl⟩ : ∃ l, jt.getLast? = some l := by
      cases h : jt.getLast? with
      | none => rw [List.getLast?_eq_none_iff] at h; subst h; simp at hxj
      | some l => exact ⟨l, rfl⟩
    have h1 := hlast l hl x (g9.subset hx) hxj
    have h2 := g8 l hl (by rcases g5 with h | h; · rw [h] at hx; simp at hx
                           · exact h) x hx
    rw [h1] at h2; cases h2
  have hIn : I.Nodup := hn1.sublist g9
  have hJn : J.Nodup := hn2.sublist g10
  have hIJ : ∀ x ∈ J, x ∉ O ++ I := by
    intro x hx h
    rcases List.mem_append.1 h with h | h
    · exact g6 x hx h
    · rcases g5 with h' | h'
      · rw [h'] at h; simp at h
      · rw [h'] at hx; simp at hx
  refine ⟨O, I, J, rfl, attachMarked_all hIn (fun x hx => hz1 x (g9.subset hx)) hI,
    attachMarked_all hJn (fun x hx => hz2 x (g10.subset hx)) hIJ, ?_, ?_, fun x => ?_⟩
  · rw [List.nodup_append]
    refine ⟨?_, hJn, fun a ha b hb h => hIJ b hb (h ▸ ha)⟩
    rw [List.nodup_append]
    exact ⟨g2, hIn, fun a ha b hb h => hI b hb (h ▸ ha)⟩
  · unfold InOrder at ho1 ho2 g3 ⊢
    rw [List.pairwise_append, List.pairwise_append]
    refine ⟨⟨g3, ho1.sublist g9, fun a ha b hb => g4 a ha b (Or.inl hb) (hI b hb)⟩, ho2.sublist g10, fun a ha b hb => ?_⟩
    rcases List.mem_append.1 ha with ha | ha
    · exact g4 a ha b (Or.inr hb) (g6 b hb)
    · rcases g5 with h | h
      · rw [h] at ha; simp at ha
      · rw [h] at hb; simp at hb
  · have := g1 x
    simp only [List.mem_append] at this ⊢
    simp only [List.not_mem_nil, false_or] at this
    rw [← this]
    tauto

/-! ## C111 -/

/-- `Unite` of two sets sorted by the same comparator: the result has exactly the elements of both, each once, its sorted part is
in order and consists of the elements of the two sorted parts.  Conditions: there are no holes; an element that was
put into one of the sets behind its sorted part is not in the other set; an element of both sorted parts is before the last element of the
second set.  Missing: see `C111_last_fails`, `C111_holes_fails`, `C111_tail_fails`. -/
theorem C111_unite_partial (lt : Nat → Nat → Bool) (hw : Weak lt) (s o : ESet) (hs : Tidy lt s) (ho : Tidy lt o)
    (ht : ∀ x ∈ s.lc.drop s.sorted, x ∉ o.lc) (ht' : ∀ x ∈ o.lc.drop o.sorted, x ∉ s.lc)
    (hlast : ∀ l, (o.lc.take o.sorted).getLast? = some l → ∀ x ∈ s.lc.take s.sorted, x ∈ o.lc.take o.sorted → lt x l = true) :
    ∃ r, uniteSorted lt s o = some r ∧ Tidy lt r ∧ r.cmp = s.cmp ∧ (∀ x, x ∈ elements r ↔ x ∈ elements s ∨ x ∈ elements o) ∧
      (∀ x, x ∈ r.lc.take r.sorted ↔ x ∈ s.lc.take s.sorted ∨ x ∈ o.lc.take o.sorted) := by
  have ms : ∀ x, x ∈ s.lc ↔ x ∈ s.lc.take s.sorted ∨ x ∈ s.lc.drop s.sorted := fun x => by
    rw [← List.mem_append, List.take_append_drop]
  have mo : ∀ x, x ∈ o.lc ↔ x ∈ o.lc.take o.sorted ∨ x ∈ o.lc.drop o.sorted := fun x => by
    rw [← List.mem_append, List.take_append_drop]
  have ds := hs.nodup; rw [← List.take_append_drop s.sorted s.lc, List.nodup_append] at ds
  have dob := ho.nodup; rw [← List.take_append_drop o.sorted o.lc, List.nodup_append] at dob
  obtain ⟨O, I, J, e1, e2, e3, n1, n2, n3⟩ := merge_parts hw (fun x hx => hs.valid x ((ms x).2 (Or.inl hx)))
    (fun x hx => ho.valid x ((mo x).2 (Or.inl hx))) ds.1 dob.1 hs.order ho.order hlast
  have d1 : ∀ x ∈ s.lc.drop s.sorted, x ∉ O ++ I ++ J := fun x hx h => by
    rcases (n3 x).1 h with h | h
    · exact ds.2.2 x h x hx rfl
    · exact ht x hx ((mo x).2 (Or.inl h))
  have d2 : ∀ x ∈ o.lc.drop o.sorted, x ∉ O ++ I ++ J ++ s.lc.drop s.sorted := fun x hx h => by
    rcases List.mem_append.1 h with h | h
    · rcases (n3 x).1 h with h | h
      · exact ht' x hx ((ms x).2 (Or.inl h))
      · exact dob.2.2 x h x hx rfl
    · exact ht' x hx ((ms x).2 (Or.inr h))
  refine ⟨{ s with lc := O ++ I ++ J ++ s.lc.drop s.sorted ++ o.lc.drop o.sorted, holes := [], sorted := (O ++ I ++ J).length }, ?_, ?_, rfl, ?_, ?_⟩
  · rw [uniteSorted, if_neg (by have := hs.bound; have := ho.bound; omega)]
    simp only [e1, e2, e3, List.nil_append]
    rw [attachMarked_all ds.2.1 (fun x hx => hs.valid x ((ms x).2 (Or.inr hx))) d1]
    simp only
    rw [attachMarked_all dob.2.1 (fun x hx => ho.valid x ((mo x).2 (Or.inr hx))) d2]
  · have hv : ∀ x ∈ O ++ I ++ J ++ s.lc.drop s.sorted ++ o.lc.drop o.sorted, x ≠ 0 := by
      intro x hx
      rw [List.mem_append, List.mem_append] at hx
      rcases hx with (hx | hx) | hx
      · rcases (n3 x).1 hx with h | h
        · exact hs.valid x ((ms x).2 (Or.inl h))
        · exact ho.valid x ((mo x).2 (Or.inl h))
      · exact hs.valid x ((ms x).2 (Or.inr hx))
      · exact ho.valid x ((mo x).2 (Or.inr hx))
    refine ⟨by simp, rfl, hv, ?_, ?_⟩
    · simp only
      rw [List.nodup_append]
      refine ⟨?_, dob.2.1, fun a ha b hb h => d2 b hb (h ▸ ha)⟩
      rw [List.nodup_append]
      exact ⟨n1, ds.2.1, fun a ha b hb h => d1 b hb (h ▸ ha)⟩
    · simp only [List.append_assoc (O ++ I ++ J), List.take_left']
      exact n2
  · intro x
    rw [elements_eq, elements_eq, elements_eq, mem_valid, mem_valid, mem_valid]
    simp only
    rw [List.mem_append, List.mem_append, n3 x, ms x, mo x]
    tauto
  · intro x
    simp only [List.append_assoc (O ++ I ++ J), List.take_left']
    exact n3 x

theorem Weak.irr {lt : Nat → Nat → Bool} (hw : Weak lt) (z : Nat) : lt z z = false := by
  cases h : lt z z with
  | false => rfl
  | true => have := hw.asymm z z h; rw [h] at this; exact this

/-- The comparison of handles. -/
def byHandle (x y : Nat) : Bool := decide (x < y)

theorem weak_byHandle : Weak byHandle := by
  refine ⟨fun x y h => ?_, fun x y z h => ?_⟩ <;> simp only [byHandle, decide_eq_true_eq, decide_eq_false_iff_not] at h ⊢ <;> omega

/-- The comparison of global numbers. -/
def byGlobalID (gid : Nat → Int) (x y : Nat) : Bool := decide (gid x < gid y)

theorem weak_byGlobalID (gid : Nat → Int) : Weak (byGlobalID gid) := by
  refine ⟨fun x y h => ?_, fun x y z h => ?_⟩ <;> simp only [byGlobalID, decide_eq_true_eq, decide_eq_false_iff_not] at h ⊢ <;> omega

-- elements 10, 11, 12, 13 with global numbers 5, 3, 3, 1; 20 and 21 were put behind the sorted parts
example : let gid : Nat → Int := fun h => if h = 10 then 5 else if h = 11 then 3 else if h = 12 then 3 else 1
    Tidy (byGlobalID gid) ⟨[13, 11, 20], [], 2, .globalID⟩ ∧ Tidy (byGlobalID gid) ⟨[12, 11, 10, 21], [], 3, .globalID⟩ ∧
    uniteSorted (byGlobalID gid) ⟨[13, 11, 20], [], 2, .globalID⟩ ⟨[12, 11, 10, 21], [], 3, .globalID⟩ =
      some ⟨[13, 12, 11, 10, 20, 21], [], 4, .globalID⟩ := by
  refine ⟨⟨by decide, rfl, by decide, by decide, ?_⟩, ⟨by decide, rfl, by decide, by decide, ?_⟩, ?_⟩
  · simp [InOrder, byGlobalID]
  · simp [InOrder, byGlobalID]
  · simp [uniteSorted, mergeMarked, attachMarked, byGlobalID]

/-- The loop that merges leaves the last element of the second range in the first one. -/
theorem mergeMarked_last {lt : Nat → Nat → Bool} (hw : Weak lt) (l : Nat) :
    ∀ (n : Nat) (out it jt : List Nat), it.length + jt.length = n → (∀ x ∈ it, x ≠ 0) → (∀ x ∈ jt, x ≠ 0) →
      it.Pairwise (fun x y => lt x y = true) → jt.Pairwise (fun x y => lt x y = true) → (∀ x ∈ jt, x ∉ out) →
      (∀ x ∈ out, lt l x = false) → jt.getLast? = some l → l ∈ it →
      ∃ O I, mergeMarked lt out it jt = (O, l :: I, []) ∧ l ∈ O ∧ ∀ x ∈ O, lt l x = false := by
  intro n
  induction n using Nat.strongRecOn with
  | _ n ih =>
    intro out it jt hl hz1 hz2 ho1 ho2 hd hb hlast hmem
    match it, jt with
    | [], jt => simp at hmem
    | x :: it, [] => simp at hlast
    | x :: it, y :: jt =>
      have hx0 := hz1 x (by simp)
      have hy0 := hz2 y (by simp)
      have hyo := hd y (by simp)
      have ho1' := List.pairwise_cons.1 ho1
      have ho2' := List.pairwise_cons.1 ho2
      have hlj : l ∈ y :: jt := List.mem_of_getLast? hlast
      -- y is not after l
      have hyl : lt l y = false := by
        rcases List.mem_cons.1 hlj with h | h
        · rw [h]; exact hw.irr y
        · exact hw.asymm _ _ (ho2'.1 l h)
      rw [mergeMarked]
      by_cases hx : x ∈ out
      · rw [if_pos (Or.inr hx)]
        refine ih (it.length + (y :: jt).length) (by simp only [List.length_cons] at hl ⊢; omega) out it (y :: jt) rfl
          (fun z hz => hz1 z (by simp [hz])) hz2 ho1'.2 ho2 hd hb hlast ?_
        rcases List.mem_cons.1 hmem with h | h
        · exact absurd (h ▸ hx) (hd l hlj)
        · exact h
      · rw [if_neg (by simp [hx, hx0]), if_neg (by simp [hyo, hy0])]
        by_cases hlt : lt x y = true
        · rw [if_pos hlt]
          have hxj : ∀ z ∈ y :: jt, lt x z = true := by
            intro z hz
            rcases List.mem_cons.1 hz with rfl | hz
            · exact hlt
            · rcases hw.negtrans x z y hlt with h | h
              · exact h
              · rw [hw.asymm _ _ (ho2'.1 z hz)] at h; cases h
          refine ih (it.length + (y :: jt).length) (by simp only [List.length_cons] at hl ⊢; omega) (out ++ [x]) it (y :: jt) rfl
            (fun z hz => hz1 z (by simp [hz])) hz2 ho1'.2 ho2 ?_ ?_ hlast ?_
          · intro z hz h
            rcases List.mem_append.1 h with h | h
            · exact hd z hz h
            · simp only [List.mem_singleton] at h
              subst h
              have := hxj z hz
              rw [hw.irr] at this; cases this
          · intro z hz
            rcases List.mem_append.1 hz with h | h
            · exact hb z h
            · simp only [List.mem_singleton] at h
              subst h
              exact hw.asymm _ _ (hxj l hlj)
          · rcases List.mem_cons.1 hmem with h | h
            · subst h
              rw [hyl] at hlt; cases hlt
            · exact h
        · rw [if_neg hlt]
          cases jt with
          | nil =>
            simp only [List.getLast?_singleton, Option.some.injEq] at hlast
            subst hlast
            have hxy : x = y := by
              rcases List.mem_cons.1 hmem with h | h
              · exact h.symm
              · exact absurd (ho1'.1 _ h) hlt
            subst hxy
            rw [mergeMarked]
            refine ⟨_, _, rfl, by simp, fun z hz => ?_⟩
            rcases List.mem_append.1 hz with h | h
            · exact hb z h
            · simp only [List.mem_singleton] at h
              subst h; exact hw.irr _
          | cons y' jt =>
            refine ih ((x :: it).length + (y' :: jt).length) (by simp only [List.length_cons] at hl ⊢; omega) (out ++ [y]) (x :: it)
              (y' :: jt) rfl hz1 (fun z hz => hz2 z (by simp [hz])) ho1 ho2'.2 ?_ ?_ (by simpa using hlast) hmem
            · intro z hz h
              rcases List.mem_append.1 h with h | h
              · exact hd z (by simp [hz]) h
              · simp only [List.mem_singleton] at h
                subst h
                have := ho2'.1 z hz
                rw [hw.irr] at this; cases this
            · intro z hz
              rcases List.mem_append.1 hz with h | h
              · exact hb z h
              · simp only [List.mem_singleton] at h
                subst h; exact hyl

/-- If the last element of the second set is in the first one, all elements of the first set that are behind it are lost. -/
theorem C111_last_fails (lt : Nat → Nat → Bool) (hw : Weak lt) (s o : ESet) (hs : s.sorted = s.lc.length) (ho : o.sorted = o.lc.length)
    (hz : ∀ x ∈ s.lc, x ≠ 0) (hz' : ∀ x ∈ o.lc, x ≠ 0) (h1 : s.lc.Pairwise fun x y => lt x y = true)
    (h2 : o.lc.Pairwise fun x y => lt x y = true) (l : Nat) (hl : o.lc.getLast? = some l) (hm : l ∈ s.lc) :
    ∃ r, uniteSorted lt s o = some r ∧ ∀ x ∈ elements s, lt l x = true → x ∉ elements r := by
  obtain ⟨O, I, e, hO, hb⟩ := mergeMarked_last hw l _ [] s.lc o.lc rfl hz hz' h1 h2 (by simp) (by simp) hl hm
  refine ⟨{ s with lc := O, holes := [], sorted := O.length }, ?_, fun x _ hx hxr => ?_⟩
  · rw [uniteSorted, if_neg (by omega), hs, ho, List.take_length, List.take_length, List.drop_length, List.drop_length, e]
    simp only [List.append_nil, attachMarked_stop hO, attachMarked_nil]
  · rw [elements_eq, mem_valid] at hxr
    rw [hb x hxr.1] at hx; cases hx

-- the union of {1,3,5} and {1} is {1}
example : uniteSorted byHandle ⟨[1, 3, 5], [], 3, .handle⟩ ⟨[1], [], 1, .handle⟩ = some ⟨[1], [], 1, .handle⟩ := by
  simp [uniteSorted, mergeMarked, attachMarked, byHandle]

/-- A hole in a sorted set ends the copy: the elements behind it are lost. -/
theorem C111_holes_fails :
    let s := removeSorted ⟨[1, 3, 5], [], 3, .handle⟩ 3
    elements s = [1, 5] ∧ (uniteSorted byHandle s ⟨[2], [], 1, .handle⟩).map elements = some [1, 2, 5] ∧
      (uniteSorted byHandle s ⟨[], [], 0, .handle⟩).map elements = some [1] := by
  simp [removeSorted, findPos, lowerBound, elements_eq, valid, uniteSorted, mergeMarked, attachMarked, byHandle]

/-- An element put into both sets: those behind it in the second one are lost. -/
theorem C111_tail_fails : uniteSorted byHandle ⟨[1, 3, 5], [], 2, .handle⟩ ⟨[2, 5, 6], [], 1, .handle⟩ =
    some ⟨[1, 2, 3, 5], [], 3, .handle⟩ := by
  simp [uniteSorted, mergeMarked, attachMarked, byHandle]

/-! ## C112 -/

/-- `AddElements` of a set sorted by global numbers or by hierarchy, the elements being sorted before: the result has exactly the
old elements and the new ones, each once, and its sorted part is in order.  Conditions as for `C111_unite_partial`; the
comparison is a strict weak order (for coordinates this is so if the tolerance is zero or no two are within it). -/
theorem C112_add_partial (lt : Nat → Nat → Bool) (hw : Weak lt) (s : ESet) (hs : Tidy lt s) (hs' input : List Nat)
    (hp : input.Perm hs') (hi : InOrder lt input) (hz : ∀ x ∈ hs', x ≠ 0) (hn : hs'.Nodup) (ht : ∀ x ∈ s.lc.drop s.sorted, x ∉ hs')
    (hlast : ∀ l ∈ hs', (∀ y ∈ hs', lt l y = false) → ∀ x ∈ s.lc, x ∈ hs' → lt x l = true) :
    ∃ r, addMerge lt s input = some r ∧ Tidy lt r ∧ r.cmp = s.cmp ∧ (∀ x, x ∈ elements r ↔ x ∈ elements s ∨ x ∈ hs') ∧
      (∀ x, x ∈ r.lc.take r.sorted ↔ x ∈ s.lc.take s.sorted ∨ x ∈ hs') := by
  have ms : ∀ x, x ∈ s.lc ↔ x ∈ s.lc.take s.sorted ∨ x ∈ s.lc.drop s.sorted := fun x => by
    rw [← List.mem_append, List.take_append_drop]
  have ds := hs.nodup; rw [← List.take_append_drop s.sorted s.lc, List.nodup_append] at ds
  have hzi : ∀ x ∈ input, x ≠ 0 := fun x hx => hz x (hp.subset hx)
  have hlast' : ∀ l, input.getLast? = some l → ∀ x ∈ s.lc.take s.sorted, x ∈ input → lt x l = true := by
    intro l hl x hx hxi
    refine hlast l (hp.subset (List.mem_of_getLast? hl)) (fun y hy => ?_) x ((ms x).2 (Or.inl hx)) (hp.subset hxi)
    obtain ⟨p, rfl⟩ : ∃ p, input = p ++ [l] := by
      rw [List.getLast?_eq_some_iff] at hl; exact hl
    rcases List.mem_append.1 (hp.symm.subset hy) with h | h
    · unfold InOrder at hi
      rw [List.pairwise_append] at hi
      exact hi.2.2 y h l (by simp)
    · simp only [List.mem_singleton] at h
      rw [h]; exact hw.irr l
  obtain ⟨O, I, J, e1, e2, e3, n1, n2, n3⟩ := merge_parts hw (fun x hx => hs.valid x ((ms x).2 (Or.inl hx))) hzi ds.1 (hp.nodup_iff.2 hn)
    hs.order hi hlast'
  have d1 : ∀ x ∈ s.lc.drop s.sorted, x ∉ O ++ I ++ J := fun x hx h => by
    rcases (n3 x).1 h with h | h
    · exact ds.2.2 x h x hx rfl
    · exact ht x hx (hp.subset h)
  refine ⟨{ s with lc := O ++ I ++ J ++ s.lc.drop s.sorted, holes := [], sorted := (O ++ I ++ J).length }, ?_, ?_, rfl, ?_, ?_⟩
  · rw [addMerge, if_neg (by have := hs.bound; omega)]
    simp only [finishAdd, e1, e2, e3, List.nil_append]
    rw [attachMarked_all ds.2.1 (fun x hx => hs.valid x ((ms x).2 (Or.inr hx))) d1]
  · refine ⟨by simp, rfl, fun x hx => ?_, ?_, ?_⟩
    · rcases List.mem_append.1 hx with hx | hx
      · rcases (n3 x).1 hx with h | h
        · exact hs.valid x ((ms x).2 (Or.inl h))
        · exact hzi x h
      · exact hs.valid x ((ms x).2 (Or.inr hx))
    · simp only
      rw [List.nodup_append]
      exact ⟨n1, ds.2.1, fun a ha b hb h => d1 b hb (h ▸ ha)⟩
    · simp only [List.take_left']
      exact n2
  · intro x
    rw [elements_eq, elements_eq, mem_valid, mem_valid]
    simp only
    rw [List.mem_append, n3 x, ms x, hp.mem_iff]
    have := hz x
    tauto
  · intro x
    simp only [List.take_left']
    rw [n3 x, hp.mem_iff]

example : addMerge (byGlobalID fun h => 100 - h) ⟨[30, 20, 10, 99], [], 3, .globalID⟩ [40, 20, 5] = some ⟨[40, 30, 20, 10, 5, 99], [], 5, .globalID⟩ := by
  simp [addMerge, finishAdd, mergeMarked, attachMarked, byGlobalID]

/-- If the last of the new elements is in the set, all elements behind it are lost. -/
theorem C112_last_fails (lt : Nat → Nat → Bool) (hw : Weak lt) (s : ESet) (hs : s.sorted = s.lc.length) (hz : ∀ x ∈ s.lc, x ≠ 0)
    (h1 : s.lc.Pairwise fun x y => lt x y = true) (input : List Nat) (hz' : ∀ x ∈ input, x ≠ 0)
    (h2 : input.Pairwise fun x y => lt x y = true) (l : Nat) (hl : input.getLast? = some l) (hm : l ∈ s.lc) :
    ∃ r, addMerge lt s input = some r ∧ ∀ x ∈ elements s, lt l x = true → x ∉ elements r := by
  obtain ⟨O, I, e, hO, hb⟩ := mergeMarked_last hw l _ [] s.lc input rfl hz hz' h1 h2 (by simp) (by simp) hl hm
  refine ⟨{ s with lc := O, holes := [], sorted := O.length }, ?_, fun x _ hx hxr => ?_⟩
  · rw [addMerge, if_neg (by omega), hs, List.take_length, e]
    simp only [finishAdd, hs, List.drop_length, List.append_nil, attachMarked_stop hO, attachMarked_nil]
  · rw [elements_eq, mem_valid] at hxr
    rw [hb x hxr.1] at hx; cases hx

example : addMerge byHandle ⟨[1, 3, 5], [], 3, .hierarchy⟩ [1] = some ⟨[1], [], 1, .hierarchy⟩ := by
  simp [addMerge, finishAdd, mergeMarked, attachMarked, byHandle]

theorem mergeSlip_before {lt : Nat → Nat → Bool} (y : Nat) (hy : y ≠ 0) (rest : List Nat) : ∀ (p q out : List Nat), (∀ x ∈ p, x ≠ 0) →
    (p ++ out).Nodup → y ∉ out → y ∉ p → (∀ x ∈ p, lt x y = true) →
    mergeSlip lt out (p ++ q) (y :: rest) = mergeSlip lt (out ++ p) q (y :: rest) := by
  intro p
  induction p with
  | nil => intro q out _ _ _ _ _; simp
  | cons x p ih =>
    intro q out hz hn ho hp hlt
    have hn' := List.nodup_cons.1 (by simpa using hn : (x :: (p ++ out)).Nodup)
    have hxo : x ∉ out := fun h => hn'.1 (List.mem_append_right _ h)
    rw [List.cons_append, mergeSlip, if_neg (by simp [hz x (by simp), hxo]), if_neg (by simp [hy, ho]), if_pos (hlt x (by simp)),
      ih q (out ++ [x]) (fun z h => hz z (by simp [h])) ?_ ?_ (fun h => hp (by simp [h])) (fun z h => hlt z (by simp [h]))]
    · simp
    · have : (x :: (p ++ out)).Perm (p ++ (out ++ [x])) := by
        rw [← List.append_assoc]; exact (List.perm_append_singleton x _).symm
      exact this.nodup_iff.1 (by simpa using hn)
    · simp only [List.mem_append, List.mem_singleton, not_or]
      exact ⟨ho, fun h => hp (by simp [h])⟩

/-- A new element of a set sorted by centroids takes the place of the element it should be inserted before: that one is lost. -/
theorem C112_centroid_fails (lt : Nat → Nat → Bool) (p q : List Nat) (x y : Nat) (hz : ∀ z ∈ p ++ x :: q, z ≠ 0)
    (hn : (p ++ x :: q).Nodup) (hy : y ≠ 0) (hyn : y ∉ p ++ x :: q) (hp : ∀ z ∈ p, lt z y = true) (hx : lt x y = false) :
    ∃ r, addCentroid lt ⟨p ++ x :: q, [], (p ++ x :: q).length, .centroid⟩ [y] = some r ∧ elements r = p ++ y :: q ∧ x ∉ elements r := by
  have hn' : p.Nodup ∧ (x :: q).Nodup ∧ ∀ a ∈ p, ∀ b ∈ x :: q, a ≠ b := List.nodup_append.1 hn
  have hq := List.nodup_cons.1 hn'.2.1
  have hyp : y ∉ p := fun h => hyn (List.mem_append_left _ h)
  have hxy : x ≠ y := fun h => hyn (by simp [h])
  have hyq : y ∉ q := fun h => hyn (by simp [h])
  have hxp : x ∉ p := fun h => hn'.2.2 x h x (by simp) rfl
  have hqd : ∀ z ∈ q, z ∉ p ++ [y] := fun z hz h => by
    rcases List.mem_append.1 h with h | h
    · exact hn'.2.2 z h z (by simp [hz]) rfl
    · simp only [List.mem_singleton] at h; exact hyq (h ▸ hz)
  have hq0 : ∀ z ∈ q, z ≠ 0 := fun z h => hz z (by simp [h])
  have e1 : mergeSlip lt [] (p ++ x :: q) [y] = mergeSlip lt (p ++ [y]) q [y] := by
    rw [mergeSlip_before y hy [] p (x :: q) [] (fun z h => hz z (by simp [h])) (by simpa using hn'.1) (by simp) hyp hp, List.nil_append,
      mergeSlip, if_neg (by simp [hxp, hz x (by simp)]), if_neg (by simp [hyp, hy]), if_neg (by simp [hx])]
  have hv : ∀ z ∈ p ++ y :: q, z ≠ 0 := by
    intro z hh
    rcases List.mem_append.1 hh with h | h
    · exact hz z (by simp [h])
    · rcases List.mem_cons.1 h with rfl | h
      · exact hy
      · exact hq0 z h
  refine ⟨⟨p ++ y :: q, [], (p ++ y :: q).length, .centroid⟩, ?_, ?_, ?_⟩
  · rw [addCentroid, if_neg (by simp), List.take_length, e1]
    cases q with
    | nil =>
      rw [mergeSlip]
      simp [finishAdd, attachMarked]
    | cons q0 q =>
      rw [mergeSlip, if_neg (by
        have := hqd q0 (by simp)
        have := hq0 q0 (by simp)
        tauto), if_pos (by simp), mergeSlip]
      simp only [finishAdd]
      rw [attachMarked_all hq.2 hq0 hqd]
      simp [attachMarked]
  · rw [elements_eq, valid_eq_self hv]
  · rw [elements_eq, valid_eq_self hv]
    simp [hxp, hxy, hq.1]

-- adding 2 to {1,3,5} gives {1,2,5}
example : (addCentroid byHandle ⟨[1, 3, 5], [], 3, .centroid⟩ [2]).map elements = some [1, 2, 5] := by
  simp [addCentroid, finishAdd, mergeSlip, attachMarked, byHandle, elements_eq, valid]

/-- `AddElements` of a set sorted by centroids is right if all new elements belong behind the old ones. -/
theorem C112_centroid_partial (lt : Nat → Nat → Bool) (s : ESet) (hs : s.sorted = s.lc.length) (hz : ∀ x ∈ s.lc, x ≠ 0)
    (hn : s.lc.Nodup) (ho : InOrder lt s.lc) (input : List Nat) (hz' : ∀ x ∈ input, x ≠ 0) (hn' : input.Nodup) (ho' : InOrder lt input)
    (hb : ∀ x ∈ s.lc, ∀ y ∈ input, lt x y = true ∧ lt y x = false ∧ x ≠ y) :
    ∃ r, addCentroid lt s input = some r ∧ Tidy lt r ∧ elements r = elements s ++ input ∧ r.sorted = r.lc.length := by
  have hnn : (s.lc ++ input).Nodup := by
    rw [List.nodup_append]
    exact ⟨hn, hn', fun a ha b hb' => (hb a ha b hb').2.2⟩
  have hd : ∀ x ∈ input, x ∉ s.lc := fun x hx h => (hb x h x hx).2.2 rfl
  have e1 : ∃ I, mergeSlip lt [] s.lc input = ((attachMarked [] s.lc).1, I, input) ∧ I = [] ∨
      mergeSlip lt [] s.lc input = ([], s.lc, []) ∧ input = [] := by
    cases input with
    | nil => cases s.lc <;> simp [mergeSlip, attachMarked]
    | cons y rest =>
      refine ⟨[], Or.inl ⟨?_, rfl⟩⟩
      have := mergeSlip_before (lt := lt) y (hz' y (by simp)) rest s.lc [] [] hz (by simpa using hn) (by simp) (hd y (by simp))
        (fun x hx => (hb x hx y (by simp)).1)
      rw [List.append_nil, List.nil_append] at this
      rw [this, mergeSlip, attachMarked_all hn hz (by simp)]
      simp
  have hv : ∀ z ∈ s.lc ++ input, z ≠ 0 := fun z h => (List.mem_append.1 h).elim (hz z) (hz' z)
  refine ⟨{ s with lc := s.lc ++ input, holes := [], sorted := (s.lc ++ input).length }, ?_, ⟨by simp, rfl, hv, hnn, ?_⟩, ?_, rfl⟩
  · rw [addCentroid, if_neg (by omega), hs, List.take_length]
    obtain ⟨I, ⟨e, rfl⟩ | ⟨e, rfl⟩⟩ := e1
    · rw [e]
      simp only [finishAdd, hs, List.drop_length, List.append_nil]
      rw [attachMarked_all hn hz (by simp)]
      simp only [attachMarked, List.nil_append]
      rw [attachMarked_all hn' hz' hd]
    · rw [e]
      simp only [finishAdd, hs, List.drop_length, List.append_nil]
      rw [attachMarked_all hn hz (by simp)]
      simp only [attachMarked, List.nil_append]
  · simp only [List.take_length]
    unfold InOrder at ho ho' ⊢
    rw [List.pairwise_append]
    exact ⟨ho, ho', fun a ha b hb' => (hb a ha b hb').2.1⟩
  · rw [elements_eq, elements_eq, valid_eq_self hv, valid_eq_self hz]

example : (addCentroid byHandle ⟨[1, 3], [], 2, .centroid⟩ [4, 6]).map elements = some [1, 3, 4, 6] := by
  simp [addCentroid, finishAdd, mergeSlip, attachMarked, byHandle, elements_eq, valid]

/-! ## C113 -/

/-- The holes of a set are the positions of invalid handles, each listed once. -/
def HolesListed (s : ESet) : Prop := s.holes.Nodup ∧ ∀ p, p ∈ s.holes ↔ s.lc[p]? = some 0

theorem valid_set_hole : ∀ (l : List Nat) (p e : Nat), l[p]? = some 0 → e ≠ 0 → (valid (l.set p e)).Perm (e :: valid l) := by
  intro l
  induction l with
  | nil => intro p e h; simp at h
  | cons x l ih =>
    intro p e h he
    cases p with
    | zero =>
      simp only [List.getElem?_cons_zero, Option.some.injEq] at h
      subst h
      simp [valid, he]
    | succ p =>
      have := ih p e (by simpa using h) he
      by_cases hx : x = 0
      · simpa [valid, hx] using this
      · simp only [valid, List.set_cons_succ, List.filter_cons, ne_eq, hx, not_false_eq_true, decide_true, if_true] at this ⊢
        exact (this.cons x).trans (List.Perm.swap e x _)

/-- `PutElements` of a set without comparator adds each of the elements as many times as it is given, and the holes that are left are
listed, if there are at least as many elements as holes.  Missing: see `C113_few_fails`. -/
theorem C113_put_partial (s : ESet) (hs : HolesListed s) (es : List Nat) (he : ∀ e ∈ es, e ≠ 0) (hl : s.holes.length ≤ es.length) :
    ∃ r, putElements s es = some r ∧ HolesListed r ∧ (elements r).Perm (elements s ++ es) ∧ size r = (elements r).length := by
  induction es generalizing s with
  | nil =>
    have hh : s.holes = [] := List.length_eq_zero_iff.1 (by simpa using hl)
    refine ⟨s, by rw [putElements, hh], hs, by simp, ?_⟩
    have : ∀ x ∈ s.lc, x ≠ 0 := fun x hx h0 => by
      obtain ⟨i, hi⟩ := List.mem_iff_getElem?.1 hx
      have := (hs.2 i).2 (h0 ▸ hi)
      rw [hh] at this; simp at this
    rw [elements_eq, valid_eq_self this, size, hh]; rfl
  | cons e es ih =>
    have he0 := he e (by simp)
    cases hh : s.holes with
    | nil =>
      have hz : ∀ x ∈ s.lc, x ≠ 0 := fun x hx h0 => by
        obtain ⟨i, hi⟩ := List.mem_iff_getElem?.1 hx
        have := (hs.2 i).2 (h0 ▸ hi)
        rw [hh] at this; simp at this
      have hz' : ∀ x ∈ s.lc ++ e :: es, x ≠ 0 := fun x hx => (List.mem_append.1 hx).elim (hz x) (he x)
      refine ⟨_, by rw [putElements, hh], ⟨by simp [hh], fun p => ?_⟩, ?_, ?_⟩
      · simp only [hh, List.not_mem_nil, false_iff]
        intro h
        exact hz' 0 (List.mem_iff_getElem?.2 ⟨p, h⟩) rfl
      · rw [elements_eq, elements_eq, valid_eq_self hz', valid_eq_self hz]
      · rw [elements_eq, valid_eq_self hz', size]; rfl
    | cons p ps =>
      have hp0 : s.lc[p]? = some 0 := (hs.2 p).1 (by simp [hh])
      have hpl : p < s.lc.length := by
        by_contra h
        rw [List.getElem?_eq_none (by omega)] at hp0; cases hp0
      have hn := hs.1
      rw [hh, List.nodup_cons] at hn
      have hs' : HolesListed { s with lc := s.lc.set p e, holes := ps } := by
        refine ⟨hn.2, fun q => ?_⟩
        simp only [List.getElem?_set]
        by_cases hq : p = q
        · subst hq
          simp [hn.1, hpl, he0]
        · simp only [hq, if_false]
          rw [← hs.2 q, hh, List.mem_cons]
          exact ⟨Or.inr, fun h => h.resolve_left fun h => hq h.symm⟩
      obtain ⟨r, h1, h2, h3, h4⟩ := ih _ hs' (fun x hx => he x (by simp [hx])) (by simp only [hh, List.length_cons] at hl ⊢; omega)
      refine ⟨r, by rw [putElements, hh]; simp only [if_pos hpl]; exact h1, h2, h3.trans ?_, h4⟩
      rw [elements_eq, elements_eq]
      have := (valid_set_hole s.lc p e hp0 he0).append_right es
      exact this.trans (by simpa using (List.perm_middle (a := e) (l₁ := valid s.lc) (l₂ := es)).symm)

example : HolesListed ⟨[5, 0, 7, 0], [3, 1], 0, .unsorted⟩ ∧
    putElements ⟨[5, 0, 7, 0], [3, 1], 0, .unsorted⟩ [8, 9, 8] = some ⟨[5, 9, 7, 8, 8], [], 0, .unsorted⟩ := by
  refine ⟨⟨by decide, fun p => ?_⟩, by simp [putElements]⟩
  rcases p with _ | _ | _ | _ | p <;> simp

/-- With fewer elements than holes `PutElements` reads behind the elements given. -/
theorem C113_few_fails (s : ESet) (es : List Nat) (hl : es.length < s.holes.length) : putElements s es = none := by
  have key : ∀ (es : List Nat) (s : ESet), es.length < s.holes.length → putElements s es = none := by
    intro es
    induction es with
    | nil =>
      intro s h
      cases hh : s.holes with
      | nil => rw [hh] at h; simp at h
      | cons p ps => rw [putElements, hh]
    | cons e es ih =>
      intro s h
      cases hh : s.holes with
      | nil => rw [hh] at h; simp at h
      | cons p ps =>
        rw [putElements, hh]
        simp only
        split
        · exact ih _ (by simp only [hh, List.length_cons] at h ⊢; omega)
        · rfl
  exact key es s hl

example : let s := removeElement (removeElement ⟨[5, 6, 7], [], 0, .unsorted⟩ 5) 7
    HolesListed s ∧ putElements s [8] = none := by
  refine ⟨⟨by decide, fun p => ?_⟩, by decide⟩
  rcases p with _ | _ | _ | p <;> simp [removeElement, removeAt]

/-- `PutElements` of a set with comparator appends the elements. -/
theorem C113_put_sorted (s : ESet) (es : List Nat) (he : ∀ e ∈ es, e ≠ 0) :
    elements (putElementsSorted s es) = elements s ++ es ∧ (putElementsSorted s es).sorted = s.sorted := by
  refine ⟨?_, rfl⟩
  rw [elements_eq, elements_eq, putElementsSorted]
  simp only [valid, List.filter_append]
  rw [show es.filter (fun x => decide (x ≠ 0)) = es from valid_eq_self he]

example : elements (putElementsSorted ⟨[1, 0, 5], [1], 3, .handle⟩ [4, 2]) = [1, 5, 4, 2] := by
  simp [putElementsSorted, elements_eq, valid]

end Verif.Sets
