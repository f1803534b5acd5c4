import Verif.Sets.SortedModel
import Verif.Sets.Compaction
import Verif.Sort.Props

/-! # Lemmas about sets with a comparator -/

namespace Verif.Sets

theorem lowerBound_spec (less : Nat → Bool) : ∀ (len first : Nat),
    (∀ i j, first ≤ i → i ≤ j → j < first + len → less j = true → less i = true) →
    first ≤ lowerBound less first len ∧ lowerBound less first len ≤ first + len ∧
    (∀ i, first ≤ i → i < lowerBound less first len → less i = true) ∧
    (∀ i, lowerBound less first len ≤ i → i < first + len → less i = false) := by
  intro len
  induction len using Nat.strongRecOn with
  | _ len ih =>
    intro first hm
    rw [lowerBound]
    by_cases h0 : len = 0
    · rw [if_pos h0]
      exact ⟨Nat.le_refl _, by omega, fun i h1 h2 => by omega, fun i h1 h2 => by omega⟩
    · rw [if_neg h0]
      by_cases hl : less (first + len / 2) = true
      · rw [if_pos hl]
        obtain ⟨g1, g2, g3, g4⟩ := ih (len - len / 2 - 1) (by omega) (first + len / 2 + 1)
          (fun i j h1 h2 h3 => hm i j (by omega) h2 (by omega))
        refine ⟨by omega, by omega, fun i h1 h2 => ?_, fun i h1 h2 => g4 i h1 (by omega)⟩
        by_cases hi : i ≤ first + len / 2
        · exact hm i _ h1 hi (by omega) hl
        · exact g3 i (by omega) h2
      · rw [if_neg hl]
        obtain ⟨g1, g2, g3, g4⟩ := ih (len / 2) (by omega) first
          (fun i j h1 h2 h3 => hm i j h1 h2 (by omega))
        refine ⟨g1, by omega, g3, fun i h1 h2 => ?_⟩
        by_cases hi : i < first + len / 2
        · exact g4 i h1 hi
        · cases hx : less i with
          | false => rfl
          | true => exact absurd (hm (first + len / 2) i (by omega) (by omega) h2 hx) hl

/-- A set sorted by handles without holes and without an unsorted part. -/
structure FullySorted (s : ESet) : Prop where
  cmp : s.cmp = .handle
  sorted : s.sorted = s.lc.length
  holes : s.holes = []
  asc : s.lc.Pairwise (· < ·)
  valid : ∀ x ∈ s.lc, x ≠ 0

theorem asc_getD {l : List Nat} (h : l.Pairwise (· < ·)) {i j : Nat} (hij : i ≤ j)
    (hj : j < l.length) : l.getD i 0 ≤ l.getD j 0 := by
  rw [List.getD_eq_getElem?_getD, List.getElem?_eq_getElem (by omega), Option.getD_some, List.getD_eq_getElem?_getD, List.getElem?_eq_getElem hj, Option.getD_some]
  rcases Nat.lt_or_eq_of_le hij with h1 | h1
  · exact Nat.le_of_lt (List.pairwise_iff_getElem.1 h i j (by omega) hj h1)
  · subst h1; exact Nat.le_refl _

theorem findPos_spec {s : ESet} (h : FullySorted s) (e : Nat) :
    findPos s e ≤ s.lc.length ∧ (∀ x ∈ s.lc.take (findPos s e), x < e) ∧
    (∀ x ∈ s.lc.drop (findPos s e), e ≤ x) := by
  obtain ⟨g1, g2, g3, g4⟩ := lowerBound_spec (fun i => decide (s.lc.getD i 0 < e)) s.sorted 0
    (by
      intro i j _ hij hj hlt
      have := asc_getD h.asc hij (by rw [← h.sorted]; omega)
      have := of_decide_eq_true hlt
      exact decide_eq_true (by omega))
  rw [← findPos] at g1 g2 g3 g4
  rw [h.sorted] at g2
  refine ⟨by omega, fun x hx => ?_, fun x hx => ?_⟩
  · obtain ⟨i, hi, rfl⟩ := List.getElem_of_mem hx
    rw [List.length_take] at hi
    have := of_decide_eq_true (g3 i (by omega) (by omega))
    rw [List.getD_eq_getElem?_getD, List.getElem?_eq_getElem (by omega), Option.getD_some] at this
    rw [List.getElem_take]; exact this
  · obtain ⟨i, hi, rfl⟩ := List.getElem_of_mem hx
    rw [List.length_drop] at hi
    have := of_decide_eq_false (g4 (findPos s e + i) (by omega) (by rw [h.sorted]; omega))
    rw [List.getD_eq_getElem?_getD, List.getElem?_eq_getElem (by omega), Option.getD_some] at this
    rw [List.getElem_drop]; omega

theorem found_iff {s : ESet} (h : FullySorted s) (e : Nat) :
    s.lc[findPos s e]? = some e ↔ e ∈ s.lc := by
  obtain ⟨h1, h2, h3⟩ := findPos_spec h e
  constructor
  · exact List.mem_of_getElem?
  · intro hm
    rw [← List.take_append_drop (findPos s e) s.lc, List.mem_append] at hm
    rcases hm with hm | hm
    · exact absurd (h2 e hm) (Nat.lt_irrefl _)
    · have hasc := h.asc
      rw [← List.take_append_drop (findPos s e) s.lc, List.pairwise_append] at hasc
      cases hd : s.lc.drop (findPos s e) with
      | nil => rw [hd] at hm; simp at hm
      | cons y l =>
        have hl : findPos s e < s.lc.length := by
          have := congrArg List.length hd
          rw [List.length_drop, List.length_cons] at this; omega
        have hy : s.lc[findPos s e]? = some y := by
          rw [List.drop_eq_getElem_cons hl] at hd
          rw [List.getElem?_eq_getElem hl]
          exact congrArg some (List.cons.inj hd).1
        rw [hy]
        rw [hd] at hm h3
        have a1 := hasc.2.1
        rw [hd, List.pairwise_cons] at a1
        rcases List.mem_cons.1 hm with rfl | hm
        · rfl
        · have := a1.1 e hm
          have := h3 y (by simp)
          omega

theorem pos_ne_sorted {s : ESet} (h : FullySorted s) {e : Nat}
    (hf : s.lc[findPos s e]? = some e) : findPos s e ≠ s.sorted := by
  intro he
  rw [he, h.sorted, List.getElem?_eq_none (Nat.le_refl _)] at hf
  cases hf

theorem addSorted_spec {s : ESet} (h : FullySorted s) {e : Nat} (he : e ≠ 0) :
    FullySorted (addSorted s e) ∧ ∀ x, x ∈ (addSorted s e).lc ↔ x ∈ s.lc ∨ x = e := by
  obtain ⟨h1, h2, h3⟩ := findPos_spec h e
  rw [addSorted]
  by_cases hf : s.lc[findPos s e]? = some e
  · simp only [if_pos (And.intro (pos_ne_sorted h hf) hf)]
    refine ⟨h, fun x => ⟨.inl, ?_⟩⟩
    rintro (hx | rfl)
    · exact hx
    · exact (found_iff h _).1 hf
  · simp only [hf, and_false, if_false]
    have hne : e ∉ s.lc := fun hm => hf ((found_iff h e).2 hm)
    have hasc := h.asc
    rw [← List.take_append_drop (findPos s e) s.lc, List.pairwise_append] at hasc
    refine ⟨⟨h.cmp, ?_, h.holes, ?_, ?_⟩, fun x => ?_⟩
    · simp only [List.length_append, List.length_cons, List.length_take, List.length_drop, h.sorted]
      omega
    · rw [List.pairwise_append]
      refine ⟨hasc.1, List.pairwise_cons.2 ⟨fun x hx => ?_, hasc.2.1⟩, fun a ha b hb => ?_⟩
      · have := h3 x hx
        have : x ≠ e := fun hh => hne (hh ▸ List.mem_of_mem_drop hx)
        omega
      · rcases List.mem_cons.1 hb with rfl | hb
        · exact h2 a ha
        · exact hasc.2.2 a ha b hb
    · intro x hx
      rw [List.mem_append, List.mem_cons] at hx
      rcases hx with hx | rfl | hx
      · exact h.valid x (List.mem_of_mem_take hx)
      · exact he
      · exact h.valid x (List.mem_of_mem_drop hx)
    · conv => rhs; rw [← List.take_append_drop (findPos s e) s.lc]
      simp only [List.mem_append, List.mem_cons]
      exact ⟨by rintro (a | b | c) <;> simp [*], by rintro ((a | b) | c) <;> simp [*]⟩

theorem findHandle_spec {s : ESet} (h : FullySorted s) (e : Nat) :
    findHandle s e = true ↔ e ∈ s.lc := by
  rw [findHandle]
  by_cases hp : findPos s e ≠ s.sorted
  · simp only [if_pos hp, beq_iff_eq]; exact found_iff h e
  · simp only [if_neg hp]
    rw [h.sorted, List.drop_length, ← found_iff h e]
    constructor
    · simp
    · intro hf; exact absurd (pos_ne_sorted h hf) hp

theorem removeSorted_absent {s : ESet} (h : FullySorted s) {e : Nat} (hm : e ∉ s.lc) :
    removeSorted s e = s := by
  have hf : ¬ s.lc[findPos s e]? = some e := fun hh => hm ((found_iff h e).1 hh)
  rw [removeSorted]
  by_cases hp : findPos s e ≠ s.sorted
  · simp only [if_pos hp, if_neg hf]
  · simp only [if_neg hp, h.sorted, List.drop_length, removeTail, List.take_length,
      List.append_nil]
    rw [← h.sorted, if_neg hp]

theorem removeSorted_spec {s : ESet} (h : FullySorted s) (e : Nat) (he : e ≠ 0) :
    (∀ x, x ∈ elements (removeSorted s e) ↔ x ∈ elements s ∧ x ≠ e) ∧
    (elements (removeSorted s e)).Pairwise (· < ·) ∧
    size (removeSorted s e) = (elements (removeSorted s e)).length := by
  obtain ⟨h1, h2, h3⟩ := findPos_spec h e
  have hv : valid s.lc = s.lc := valid_eq_self h.valid
  by_cases hm : e ∉ s.lc
  · rw [removeSorted_absent h hm, elements_eq, hv]
    refine ⟨fun x => ⟨fun hx => ⟨hx, fun hh => hm (hh ▸ hx)⟩, fun hx => hx.1⟩, h.asc, ?_⟩
    simp [size, h.holes]
  have hm : s.lc[findPos s e]? = some e := (found_iff h e).2 (Classical.not_not.1 hm)
  rw [elements_eq, elements_eq, hv, removeSorted]
  by_cases hf : s.lc[findPos s e]? = some e
  · simp only [if_pos (pos_ne_sorted h hf), if_pos hf]
    have hl : findPos s e < s.lc.length := by
      rcases Nat.lt_or_ge (findPos s e) s.lc.length with hh | hh
      · exact hh
      · rw [List.getElem?_eq_none hh] at hf; cases hf
    have hget : s.lc[findPos s e] = e := by
      rw [List.getElem?_eq_getElem hl] at hf; exact Option.some.inj hf
    have hd : s.lc.drop (findPos s e) = e :: s.lc.drop (findPos s e + 1) := by
      rw [List.drop_eq_getElem_cons hl, hget]
    have ev : valid (s.lc.set (findPos s e) 0) =
        s.lc.take (findPos s e) ++ s.lc.drop (findPos s e + 1) := by
      rw [List.set_eq_take_append_cons_drop, if_pos hl, valid, List.filter_append,
        List.filter_cons_of_neg (by simp)]
      congr 1
      · exact valid_eq_self fun x hx => h.valid x (List.mem_of_mem_take hx)
      · exact valid_eq_self fun x hx => h.valid x (List.mem_of_mem_drop hx)
    have hasc := h.asc
    rw [← List.take_append_drop (findPos s e) s.lc, hd, List.pairwise_append,
      List.pairwise_cons] at hasc
    rw [ev]
    refine ⟨fun x => ?_, ?_, ?_⟩
    · conv => rhs; rw [← List.take_append_drop (findPos s e) s.lc, hd]
      simp only [List.mem_append, List.mem_cons]
      constructor
      · rintro (hx | hx)
        · exact ⟨.inl hx, by have := h2 x hx; omega⟩
        · exact ⟨.inr (.inr hx), by have := hasc.2.1.1 x hx; omega⟩
      · rintro ⟨hx | hx | hx, hne⟩
        · exact .inl hx
        · exact absurd hx hne
        · exact .inr hx
    · rw [List.pairwise_append]
      exact ⟨hasc.1, hasc.2.1.2, fun a ha b hb => hasc.2.2 a ha b (by simp [hb])⟩
    · simp only [size, List.length_set, List.length_cons, h.holes, List.length_nil,
        List.length_append, List.length_take, List.length_drop]
      omega
  · exact absurd hm hf

/-! ## Merging -/

/-- The largest input is an element of the set: what lies above it is cut. -/
def Cut (it jt : List Nat) (x : Nat) : Prop := ∀ m, jt.getLast? = some m → m ∈ it → x ≤ m

theorem attach_all : ∀ (l : List Nat) (prev : Nat), (∀ x ∈ l, x ≠ 0) →
    (prev :: l).Pairwise (· < ·) → (attach prev l).1 = l ∧ (attach prev l).2.1 = []
  | [], prev, _, _ => ⟨rfl, rfl⟩
  | x :: l, prev, hz, hp => by
    rw [List.pairwise_cons] at hp
    have h1 := hp.1 x (by simp)
    have h2 : x ≠ 0 ∧ x ≠ prev := ⟨hz x (by simp), by omega⟩
    obtain ⟨g1, g2⟩ := attach_all l x (fun y hy => hz y (by simp [hy])) hp.2
    simp only [attach, if_pos h2]
    exact ⟨by rw [g1], g2⟩

theorem mergeAll_nil_left (prev : Nat) (jt : List Nat) (hz : ∀ x ∈ jt, x ≠ 0)
    (hp : (prev :: jt).Pairwise (· < ·)) : mergeAll prev [] jt = (jt, []) := by
  obtain ⟨g1, -⟩ := attach_all jt prev hz hp
  simp [mergeAll, mergeRest, attach, g1]

theorem mergeAll_nil_right (prev : Nat) (it : List Nat) (hz : ∀ x ∈ it, x ≠ 0)
    (hp : (prev :: it).Pairwise (· < ·)) : mergeAll prev it [] = (it, []) := by
  obtain ⟨g1, g2⟩ := attach_all it prev hz hp
  cases it with
  | nil => simp [mergeAll, mergeRest, attach]
  | cons x it =>
    simp only [mergeAll, mergeRest, List.nil_append, g1, g2]
    simp [attach]

theorem mergeAll_stop (prev : Nat) (it : List Nat) : mergeAll prev (prev :: it) [] = ([], prev :: it) := by
  simp [mergeAll, mergeRest, attach]

theorem mergeAll_spec (n : Nat) : ∀ (prev : Nat) (it jt : List Nat), it.length + jt.length = n →
    jt ≠ [] → (∀ x ∈ it, x ≠ 0) → (∀ x ∈ jt, x ≠ 0) → it.Pairwise (· < ·) →
    (∀ x ∈ it, prev ≤ x) → (prev :: jt).Pairwise (· < ·) →
    (prev :: (mergeAll prev it jt).1).Pairwise (· < ·) ∧
    (∀ x, x ∈ (mergeAll prev it jt).1 ↔ (x ∈ it ∨ x ∈ jt) ∧ prev < x ∧ Cut it jt x) ∧
    ((mergeAll prev it jt).2 = [] ∨
      ∃ m l, jt.getLast? = some m ∧ m ∈ it ∧ (mergeAll prev it jt).2 = m :: l ∧
        m ∈ (mergeAll prev it jt).1) ∧
    ((∀ m, jt.getLast? = some m → m ∉ it) → (mergeAll prev it jt).2 = []) := by
  induction n using Nat.strongRecOn with
  | _ n ih =>
    intro prev it jt hn hj hz1 hz2 ha hb hc
    cases it with
    | nil =>
      rw [mergeAll_nil_left prev jt hz2 hc]
      refine ⟨hc, fun x => ?_, .inl rfl, fun _ => rfl⟩
      rw [List.pairwise_cons] at hc
      simp only [List.not_mem_nil, false_or, Cut, false_imp_iff, implies_true, and_true]
      exact ⟨fun h => ⟨h, hc.1 x h⟩, fun h => h.1⟩
    | cons x it =>
      cases jt with
      | nil => exact absurd rfl hj
      | cons y jt =>
        have hx0 := hz1 x (by simp)
        have hy0 := hz2 y (by simp)
        rw [List.pairwise_cons] at ha
        have hc' := hc
        rw [List.pairwise_cons] at hc
        have hyp := hc.1 y (by simp)
        have hxp := hb x (by simp)
        have hlast : ∀ m, (y :: jt).getLast? = some m → m ∈ y :: jt :=
          fun m hm => List.mem_of_getLast? hm
        by_cases e1 : x = prev
        · -- skip an element equal to the last one
          have eq : mergeAll prev (x :: it) (y :: jt) = mergeAll prev it (y :: jt) := by
            rw [mergeAll, mergeAll, mergeRest, if_pos (.inr e1)]
          rw [eq]
          obtain ⟨g1, g2, g3, g4⟩ := ih (it.length + (y :: jt).length)
            (by simp only [List.length_cons] at hn ⊢; omega) prev it (y :: jt) rfl hj
            (fun z hz => hz1 z (by simp [hz])) hz2 ha.2
            (fun z hz => hb z (by simp [hz])) hc'
          have hmx : ∀ m, (y :: jt).getLast? = some m → (m ∈ x :: it ↔ m ∈ it) := by
            intro m hm
            have := hc.1 m (hlast m hm)
            rw [List.mem_cons]
            exact ⟨fun h => h.resolve_left (by omega), .inr⟩
          refine ⟨g1, fun z => ?_, ?_, fun h => g4 fun m hm => ?_⟩
          · rw [g2]
            constructor
            · rintro ⟨h1, h2, h3⟩
              refine ⟨?_, h2, fun m hm hmi => h3 m hm ((hmx m hm).1 hmi)⟩
              rcases h1 with h1 | h1
              · exact .inl (by simp [h1])
              · exact .inr h1
            · rintro ⟨h1, h2, h3⟩
              refine ⟨?_, h2, fun m hm hmi => h3 m hm ((hmx m hm).2 hmi)⟩
              rcases h1 with h1 | h1
              · rcases List.mem_cons.1 h1 with rfl | h1
                · omega
                · exact .inl h1
              · exact .inr h1
          · rcases g3 with g3 | ⟨m, l, h1, h2, h3⟩
            · exact .inl g3
            · exact .inr ⟨m, l, h1, (hmx m h1).2 h2, h3⟩
          · exact fun hmi => h m hm ((hmx m hm).2 hmi)
        · have e2 : ¬ (x = 0 ∨ x = prev) := by omega
          have e3 : ¬ (y = 0 ∨ y = prev) := by omega
          by_cases e4 : x < y
          · have eq : mergeAll prev (x :: it) (y :: jt) =
                (x :: (mergeAll x it (y :: jt)).1, (mergeAll x it (y :: jt)).2) := by
              rw [mergeAll, mergeAll, mergeRest, if_neg e2, if_neg e3, if_pos e4]
              rfl
            rw [eq]
            have hcx : (x :: y :: jt).Pairwise (· < ·) := by
              rw [List.pairwise_cons]
              refine ⟨fun z hz => ?_, hc.2⟩
              rcases List.mem_cons.1 hz with rfl | hz
              · exact e4
              · have := (List.pairwise_cons.1 hc.2).1 z hz; omega
            obtain ⟨g1, g2, g3, g4⟩ := ih (it.length + (y :: jt).length)
              (by simp only [List.length_cons] at hn ⊢; omega) x it (y :: jt) rfl hj
              (fun z hz => hz1 z (by simp [hz])) hz2 ha.2
              (fun z hz => Nat.le_of_lt (ha.1 z hz)) hcx
            have hgt : ∀ m, (y :: jt).getLast? = some m → x < m := fun m hm =>
              (List.pairwise_cons.1 hcx).1 m (hlast m hm)
            have hmx : ∀ m, (y :: jt).getLast? = some m → (m ∈ x :: it ↔ m ∈ it) := by
              intro m hm
              have := hgt m hm
              rw [List.mem_cons]
              exact ⟨fun h => h.resolve_left (by omega), .inr⟩
            refine ⟨?_, fun z => ?_, ?_, fun h => g4 fun m hm => ?_⟩
            · rw [List.pairwise_cons]
              refine ⟨fun z hz => ?_, g1⟩
              rcases List.mem_cons.1 hz with rfl | hz
              · omega
              · have := (List.pairwise_cons.1 g1).1 z hz; omega
            · rw [List.mem_cons, g2]
              constructor
              · rintro (rfl | ⟨h1, h2, h3⟩)
                · exact ⟨.inl (by simp), by omega, fun m hm _ => Nat.le_of_lt (hgt m hm)⟩
                · refine ⟨?_, by omega, fun m hm hmi => h3 m hm ((hmx m hm).1 hmi)⟩
                  rcases h1 with h1 | h1
                  · exact .inl (by simp [h1])
                  · exact .inr h1
              · rintro ⟨h1, h2, h3⟩
                by_cases hzx : z = x
                · exact .inl hzx
                · refine .inr ⟨?_, ?_, fun m hm hmi => h3 m hm ((hmx m hm).2 hmi)⟩
                  · rcases h1 with h1 | h1
                    · exact .inl ((List.mem_cons.1 h1).resolve_left hzx)
                    · exact .inr h1
                  · rcases h1 with h1 | h1
                    · exact ha.1 z ((List.mem_cons.1 h1).resolve_left hzx)
                    · exact (List.pairwise_cons.1 hcx).1 z h1
            · rcases g3 with g3 | ⟨m, l, h1, h2, h3, h4⟩
              · exact .inl g3
              · exact .inr ⟨m, l, h1, (hmx m h1).2 h2, h3, by simp [h4]⟩
            · exact fun hmi => h m hm ((hmx m hm).2 hmi)
          · have eq : mergeAll prev (x :: it) (y :: jt) =
                (y :: (mergeAll y (x :: it) jt).1, (mergeAll y (x :: it) jt).2) := by
              rw [mergeAll, mergeAll, mergeRest, if_neg e2, if_neg e3, if_neg e4]
              rfl
            rw [eq]
            have hay : ∀ z ∈ x :: it, y ≤ z := by
              intro z hz
              rcases List.mem_cons.1 hz with rfl | hz
              · omega
              · have := ha.1 z hz; omega
            have hjy := List.pairwise_cons.1 hc.2
            by_cases hjn : jt = []
            · subst hjn
              by_cases e5 : x = y
              · -- the last input equals the head of the rest: the loop stops
                subst e5
                rw [mergeAll_stop]
                refine ⟨by simpa using hyp, fun z => ?_, .inr ⟨x, it, rfl, by simp, rfl, by simp⟩,
                  fun h => absurd (by simp) (h x rfl)⟩
                simp only [List.mem_singleton]
                constructor
                · rintro rfl
                  refine ⟨.inr rfl, hyp, fun m hm _ => ?_⟩
                  simp only [List.getLast?_singleton, Option.some.injEq] at hm; omega
                · rintro ⟨h1, h2, h3⟩
                  have h4 := h3 x rfl (by simp)
                  rcases h1 with h1 | h1
                  · have := hay z h1; omega
                  · exact h1
              · have hp' : (y :: x :: it).Pairwise (· < ·) := by
                  rw [List.pairwise_cons]
                  refine ⟨fun z hz => ?_, List.pairwise_cons.2 ha⟩
                  rcases List.mem_cons.1 hz with rfl | hz
                  · omega
                  · have := ha.1 z hz; omega
                rw [mergeAll_nil_right y (x :: it) hz1 hp']
                refine ⟨?_, fun z => ?_, .inl rfl, fun _ => rfl⟩
                · rw [List.pairwise_cons]
                  refine ⟨fun z hz => ?_, hp'⟩
                  rcases List.mem_cons.1 hz with rfl | hz
                  · exact hyp
                  · have := (List.pairwise_cons.1 hp').1 z hz; omega
                · simp only [List.mem_cons (a := z) (b := y)]
                  constructor
                  · intro h
                    refine ⟨?_, ?_, fun m hm hmi => ?_⟩
                    · rcases h with h | h
                      · exact .inr (.inl h)
                      · exact .inl h
                    · rcases h with h | h
                      · omega
                      · have := hay z h; omega
                    · simp only [List.getLast?_singleton, Option.some.injEq] at hm
                      subst hm
                      have := (List.pairwise_cons.1 hp').1 y hmi; omega
                  · rintro ⟨h1, _⟩
                    rcases h1 with h1 | h1
                    · exact .inr h1
                    · simp only [List.not_mem_nil, or_false] at h1; exact .inl h1
            · obtain ⟨g1, g2, g3, g4⟩ := ih ((x :: it).length + jt.length)
                (by simp only [List.length_cons] at hn ⊢; omega) y (x :: it) jt rfl hjn
                hz1 (fun z hz => hz2 z (by simp [hz])) (List.pairwise_cons.2 ha) hay hc.2
              have hl : (y :: jt).getLast? = jt.getLast? := by
                cases jt with
                | nil => exact absurd rfl hjn
                | cons z jt => rw [List.getLast?_cons_cons]
              have hcut : ∀ z, Cut (x :: it) (y :: jt) z ↔ Cut (x :: it) jt z := by
                intro z; simp only [Cut, hl]
              rw [hl]
              refine ⟨?_, fun z => ?_, ?_, g4⟩
              · rw [List.pairwise_cons]
                refine ⟨fun z hz => ?_, g1⟩
                rcases List.mem_cons.1 hz with rfl | hz
                · exact hyp
                · have := (List.pairwise_cons.1 g1).1 z hz; omega
              · rw [List.mem_cons, g2, hcut]
                constructor
                · rintro (rfl | ⟨h1, h2, h3⟩)
                  · refine ⟨.inr (by simp), hyp, fun m hm _ => ?_⟩
                    exact Nat.le_of_lt (hjy.1 m (List.mem_of_getLast? hm))
                  · refine ⟨?_, by omega, h3⟩
                    rcases h1 with h1 | h1
                    · exact .inl h1
                    · exact .inr (by simp [h1])
                · rintro ⟨h1, h2, h3⟩
                  by_cases hzy : z = y
                  · exact .inl hzy
                  · refine .inr ⟨?_, ?_, h3⟩
                    · rcases h1 with h1 | h1
                      · exact .inl h1
                      · exact .inr ((List.mem_cons.1 h1).resolve_left hzy)
                    · rcases h1 with h1 | h1
                      · have := hay z h1; omega
                      · exact hjy.1 z ((List.mem_cons.1 h1).resolve_left hzy)
              · rcases g3 with g3 | ⟨m, l, h1, h2, h3, h4⟩
                · exact .inl g3
                · exact .inr ⟨m, l, h1, h2, h3, by simp [h4]⟩

theorem merge_first_rest {it jt : List Nat} (hz1 : ∀ x ∈ it, x ≠ 0) (hz2 : ∀ x ∈ jt, x ≠ 0) :
    (mergeFirst it jt).1 ++ (mergeAll ((mergeFirst it jt).1.headD 0) (mergeFirst it jt).2.1
      (mergeFirst it jt).2.2).1 = (mergeAll 0 it jt).1 ∧
    (mergeAll ((mergeFirst it jt).1.headD 0) (mergeFirst it jt).2.1
      (mergeFirst it jt).2.2).2 = (mergeAll 0 it jt).2 := by
  cases it with
  | nil => simp [mergeFirst]
  | cons x it =>
    cases jt with
    | nil => simp [mergeFirst]
    | cons y jt =>
      have hx := hz1 x (by simp)
      have hy := hz2 y (by simp)
      rw [mergeFirst, if_neg hx, if_neg hy]
      by_cases h : x < y
      · rw [if_pos h]
        have : mergeAll 0 (x :: it) (y :: jt) =
            (x :: (mergeAll x it (y :: jt)).1, (mergeAll x it (y :: jt)).2) := by
          rw [mergeAll, mergeAll, mergeRest, if_neg (by omega), if_neg (by omega), if_pos h]; rfl
        rw [this]; exact ⟨rfl, rfl⟩
      · rw [if_neg h]
        have : mergeAll 0 (x :: it) (y :: jt) =
            (y :: (mergeAll y (x :: it) jt).1, (mergeAll y (x :: it) jt).2) := by
          rw [mergeAll, mergeAll, mergeRest, if_neg (by omega), if_neg (by omega), if_neg h]; rfl
        rw [this]; exact ⟨rfl, rfl⟩

/-- Adding sorted different elements to a set sorted by handles. -/
theorem mergeInto_spec {s : ESet} (h : FullySorted s) {input : List Nat} (hn : input ≠ [])
    (hz : ∀ x ∈ input, x ≠ 0) (ha : input.Pairwise (· < ·)) :
    FullySorted (mergeInto s input) ∧
    ∀ x, x ∈ (mergeInto s input).lc ↔ (x ∈ s.lc ∨ x ∈ input) ∧ Cut s.lc input x := by
  have e := merge_first_rest (it := s.lc.take s.sorted) (jt := input)
    (fun x hx => h.valid x (List.mem_of_mem_take hx)) hz
  rw [h.sorted, List.take_length] at e
  obtain ⟨g1, g2, g3, g4⟩ := mergeAll_spec _ 0 s.lc input rfl hn h.valid hz h.asc
    (fun x _ => Nat.zero_le x)
    (List.pairwise_cons.2 ⟨fun x hx => Nat.pos_of_ne_zero (hz x hx), ha⟩)
  rw [List.pairwise_cons] at g1
  have hlc : (mergeInto s input).lc = (mergeAll 0 s.lc input).1 := by
    simp only [mergeInto, h.sorted, List.take_length, List.drop_length, List.append_nil, e.1, e.2]
    rcases g3 with g3 | ⟨m, l, h1, h2, h3, h4⟩
    · rw [g3, attachTail]
    · rw [h3, attachTail, if_neg (by simp [h4])]
  refine ⟨⟨h.cmp, ?_, rfl, by rw [hlc]; exact g1.2, fun x hx => ?_⟩, fun x => ?_⟩
  · rw [hlc]
    simp only [mergeInto, h.sorted, List.take_length, e.1]
  · rw [hlc] at hx
    have := g1.1 x hx; omega
  · rw [hlc, g2]
    constructor
    · exact fun h => ⟨h.1, h.2.2⟩
    · rintro ⟨h1, h2⟩
      refine ⟨h1, ?_, h2⟩
      rcases h1 with h1 | h1
      · exact Nat.pos_of_ne_zero (h.valid x h1)
      · exact Nat.pos_of_ne_zero (hz x h1)

/-- Adding no elements. -/
theorem mergeInto_nil {s : ESet} (h : FullySorted s) : mergeInto s [] = s := by
  have e := merge_first_rest (it := s.lc.take s.sorted) (jt := [])
    (fun x hx => h.valid x (List.mem_of_mem_take hx)) (by simp)
  rw [h.sorted, List.take_length] at e
  have g := mergeAll_nil_right 0 s.lc h.valid
    (List.pairwise_cons.2 ⟨fun x hx => Nat.pos_of_ne_zero (h.valid x hx), h.asc⟩)
  rw [g] at e
  simp only [mergeInto, h.sorted, List.take_length, List.drop_length, List.append_nil, e.1, e.2,
    attachTail]
  rw [← h.sorted, ← h.holes]

end Verif.Sets
