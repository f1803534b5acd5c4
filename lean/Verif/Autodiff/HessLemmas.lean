import Verif.Autodiff.HessSpec
import Verif.Autodiff.RowLemmas
import Verif.Sparse.RowProps

/-!
# Lemmas: merging of Hessian rows
-/

namespace Verif.Autodiff

open Verif.Sparse

/-- A row as a linear functional. -/
noncomputable def lin {ι : Type} (w : ι → ℝ) (r : RowI ι ℝ) : ℝ := (r.map fun e => e.2 * w e.1).sum

variable {ι : Type}

@[simp] theorem lin_nil (w : ι → ℝ) : lin w [] = 0 := rfl

theorem lin_cons (w : ι → ℝ) (e : ι × ℝ) (r : RowI ι ℝ) : lin w (e :: r) = e.2 * w e.1 + lin w r := by
  simp [lin]

theorem lin_append (w : ι → ℝ) (r s : RowI ι ℝ) : lin w (r ++ s) = lin w r + lin w s := by simp [lin]

theorem lin_reverse (w : ι → ℝ) (r : RowI ι ℝ) : lin w r.reverse = lin w r := by
  unfold lin; rw [List.map_reverse, List.sum_reverse]

theorem lin_scale (w : ι → ℝ) (r : RowI ι ℝ) (c : ℝ) : lin w (scale r c) = c * lin w r := by
  induction r with
  | nil => simp [scale]
  | cons e r ih =>
    unfold scale at ih ⊢
    rw [List.map_cons, lin_cons, lin_cons, ih]; ring

theorem dot_lin (r : Row ℝ) (v : Nat → ℝ) : dot r v = lin v r := rfl

theorem quad_lin (H : HRow) (v : Nat → ℝ) :
    quad H v = lin (fun p : HIdx => v (ofLex p).1 * v (ofLex p).2) H := rfl

theorem lin_emit [LinearOrder ι] (w : ι → ℝ) (out : RowI ι ℝ) (c : ι) (a : ℝ) :
    lin w (emit out c a) = lin w out + a * w c := by
  unfold emit
  cases out with
  | nil => simp [lin]
  | cons e out =>
    obtain ⟨d, b⟩ := e
    by_cases h : d = c
    · subst h
      simp only [↓reduceIte, lin_cons]; ring
    · simp only [h, ↓reduceIte, lin_cons]; ring

theorem lin_drain [LinearOrder ι] (w : ι → ℝ) (k : ℝ) (out r : RowI ι ℝ) :
    lin w (drain k out r) = lin w out + k * lin w r := by
  induction r generalizing out with
  | nil => simp [drain]
  | cons e r ih => obtain ⟨c, a⟩ := e; rw [drain, ih, lin_emit, lin_cons]; ring

theorem lin_mergeLoop [LinearOrder ι] (w : ι → ℝ) (a b : ℝ) (out l r : RowI ι ℝ) :
    lin w (mergeLoop a b out l r) = lin w out + a * lin w l + b * lin w r := by
  induction out, l, r using mergeLoop.induct (K := ℝ) (ι := ι) a b with
  | case1 out r => rw [mergeLoop]; simp [lin_drain, drain]
  | case2 out l h => rw [mergeLoop]; simp [lin_drain, drain]; exact h
  | case3 out i v l j w' r hlt ih => rw [mergeLoop, if_pos hlt, ih]; simp only [lin_cons]; ring
  | case4 out i v l w' r hlt ih =>
    rw [mergeLoop, if_neg hlt, if_pos rfl, ih]; simp only [lin_cons]; ring
  | case5 out i v l j w' r hlt hne ih =>
    rw [mergeLoop, if_neg hlt, if_neg hne, ih]; simp only [lin_cons]; ring

theorem merge_lin [LinearOrder ι] (w : ι → ℝ) (a b : ℝ) (l r : RowI ι ℝ) (hl : StrictlySorted l)
    (hr : StrictlySorted r) :
    ∃ out, mergeSortedRows a l b r = some out ∧ StrictlySorted out ∧ (out = [] ↔ l = [] ∧ r = []) ∧
      ∀ w, lin w out = a * lin w l + b * lin w r := by
  obtain ⟨out, h1, h2, _, h4⟩ := C25_merge a b l r hl hr
  refine ⟨out, h1, h2, ?_, fun w => ?_⟩
  · constructor
    · rintro rfl
      constructor
      · cases l with
        | nil => rfl
        | cons e l => have := (h4 e.1).2 (Or.inl (by simp [HasColumn])); simp [HasColumn] at this
      · cases r with
        | nil => rfl
        | cons e l => have := (h4 e.1).2 (Or.inr (by simp [HasColumn])); simp [HasColumn] at this
    · rintro ⟨rfl, rfl⟩
      cases out with
      | nil => rfl
      | cons e l => have := (h4 e.1).1 (by simp [HasColumn]); simp [HasColumn] at this
  · rw [mergeSortedRows, strict_isSorted l hl, strict_isSorted r hr] at h1
    simp only [Bool.and_self, ↓reduceIte, Option.some.injEq] at h1
    rw [← h1, lin_reverse, lin_mergeLoop]; simp

/-! ## The merge of several streams -/

/-- The sum of a functional over all streams. -/
noncomputable def linAll (w : HIdx → ℝ) (ss : List HRow) : ℝ := (ss.map (lin w)).sum

theorem best_none (ss : List HRow) (h : best ss = none) : total ss = 0 := by
  induction ss with
  | nil => rfl
  | cons s ss ih =>
    rw [best.eq_def] at h
    simp only at h
    cases s with
    | nil =>
      cases hb : best ss with
      | none => simpa [total] using ih hb
      | some q => rw [hb] at h; cases h
    | cons e s =>
      cases hb : best ss with
      | none => rw [hb] at h; cases h
      | some q =>
        rw [hb] at h
        simp only at h
        split at h <;> cases h

theorem best_some (ss : List HRow) (e : HIdx × ℝ) (ss' : List HRow) (h : best ss = some (e, ss')) :
    total ss = total ss' + 1 ∧ (∀ w, linAll w ss = e.2 * w e.1 + linAll w ss') ∧
    ((∀ s ∈ ss, StrictlySorted s) → (∀ s ∈ ss', StrictlySorted s) ∧ (∀ s ∈ ss, ∀ f ∈ s, e.1 ≤ f.1)) ∧
    (∀ s ∈ ss', ∀ f ∈ s, ∃ t ∈ ss, f ∈ t) ∧ (∃ t ∈ ss, e ∈ t) := by
  induction ss generalizing e ss' with
  | nil => cases h
  | cons s ss ih =>
    rw [best.eq_def] at h
    simp only at h
    have hmin : ∀ (a : HIdx × ℝ) (s : HRow), StrictlySorted (a :: s) → StrictlySorted s ∧ ∀ f ∈ a :: s, a.1 ≤ f.1 := by
      intro a s hs
      have hs' : (a.1 :: s.map (·.1)).Pairwise (· < ·) := hs
      rw [List.pairwise_cons] at hs'
      refine ⟨hs'.2, fun f hf => ?_⟩
      rcases List.mem_cons.1 hf with rfl | hf
      · exact le_refl _
      · exact le_of_lt (hs'.1 _ (List.mem_map_of_mem hf))
    cases s with
    | nil =>
      cases hb : best ss with
      | none => rw [hb] at h; cases h
      | some q =>
        obtain ⟨f, ss1⟩ := q
        rw [hb] at h
        simp only [Option.some.injEq, Prod.mk.injEq] at h
        obtain ⟨rfl, rfl⟩ := h
        obtain ⟨h1, h2, h3, h4, h5⟩ := ih f ss1 hb
        refine ⟨by simpa [total] using h1, fun w => by simpa [linAll] using h2 w, fun hs => ?_, ?_, ?_⟩
        · obtain ⟨g1, g2⟩ := h3 (fun s hm => hs s (List.mem_cons_of_mem _ hm))
          refine ⟨fun s hm => ?_, fun s hm => ?_⟩
          · rcases List.mem_cons.1 hm with rfl | hm
            · simp [StrictlySorted]
            · exact g1 s hm
          · rcases List.mem_cons.1 hm with rfl | hm
            · simp
            · exact g2 s hm
        · intro s hm a ha
          rcases List.mem_cons.1 hm with rfl | hm
          · cases ha
          · obtain ⟨t, ht, hat⟩ := h4 s hm a ha
            exact ⟨t, List.mem_cons_of_mem _ ht, hat⟩
        · obtain ⟨t, ht, hat⟩ := h5
          exact ⟨t, List.mem_cons_of_mem _ ht, hat⟩
    | cons a s =>
      have own : some (a, s :: ss) = some (e, ss') → (∀ t ∈ ss, (∀ s ∈ ss, StrictlySorted s) → ∀ f ∈ t, a.1 ≤ f.1) →
          total ((a :: s) :: ss) = total ss' + 1 ∧ (∀ w, linAll w ((a :: s) :: ss) = e.2 * w e.1 + linAll w ss') ∧
          ((∀ t ∈ (a :: s) :: ss, StrictlySorted t) → (∀ t ∈ ss', StrictlySorted t) ∧
            (∀ t ∈ (a :: s) :: ss, ∀ f ∈ t, e.1 ≤ f.1)) ∧
          (∀ t ∈ ss', ∀ f ∈ t, ∃ u ∈ (a :: s) :: ss, f ∈ u) ∧ (∃ t ∈ (a :: s) :: ss, e ∈ t) := by
        intro heq hle
        simp only [Option.some.injEq, Prod.mk.injEq] at heq
        obtain ⟨rfl, rfl⟩ := heq
        refine ⟨by simp [total]; omega, fun w => by simp [linAll, lin_cons]; ring, fun hs => ⟨fun t ht => ?_, fun t ht => ?_⟩,
          fun t ht f hf => ?_, ⟨a :: s, by simp, by simp⟩⟩
        · rcases List.mem_cons.1 ht with rfl | ht
          · exact (hmin a t (hs _ (by simp))).1
          · exact hs t (List.mem_cons_of_mem _ ht)
        · rcases List.mem_cons.1 ht with rfl | ht
          · exact (hmin a s (hs _ (by simp))).2
          · exact hle t ht (fun s hm => hs s (List.mem_cons_of_mem _ hm))
        · rcases List.mem_cons.1 ht with rfl | ht
          · exact ⟨a :: t, by simp, List.mem_cons_of_mem _ hf⟩
          · exact ⟨t, List.mem_cons_of_mem _ ht, hf⟩
      cases hb : best ss with
      | none =>
        rw [hb] at h
        refine own h (fun t ht _ f hf => ?_)
        have h0 := best_none ss hb
        have : t.length = 0 := by
          have : t.length ≤ total ss := List.single_le_sum (by simp) _ (List.mem_map_of_mem ht)
          omega
        rw [List.length_eq_zero_iff] at this
        rw [this] at hf; cases hf
      | some q =>
        obtain ⟨f, ss1⟩ := q
        rw [hb] at h
        obtain ⟨h1, h2, h3, h4, h5⟩ := ih f ss1 hb
        simp only at h
        split at h
        · rename_i hlt
          simp only [Option.some.injEq, Prod.mk.injEq] at h
          obtain ⟨rfl, rfl⟩ := h
          refine ⟨by simp [total] at h1 ⊢; omega, fun w => by
            have := h2 w; simp [linAll] at this ⊢; rw [this]; ring, fun hs => ?_, ?_, ?_⟩
          · obtain ⟨g1, g2⟩ := h3 (fun s hm => hs s (List.mem_cons_of_mem _ hm))
            refine ⟨fun t hm => ?_, fun t hm => ?_⟩
            · rcases List.mem_cons.1 hm with rfl | hm
              · exact hs _ (by simp)
              · exact g1 t hm
            · rcases List.mem_cons.1 hm with rfl | hm
              · intro b hbm
                exact le_trans (le_of_lt hlt) ((hmin a s (hs _ (by simp))).2 b hbm)
              · exact g2 t hm
          · intro t hm b hbm
            rcases List.mem_cons.1 hm with rfl | hm
            · exact ⟨_, by simp, hbm⟩
            · obtain ⟨u, hu, hbu⟩ := h4 t hm b hbm
              exact ⟨u, List.mem_cons_of_mem _ hu, hbu⟩
          · obtain ⟨t, ht, hat⟩ := h5
            exact ⟨t, List.mem_cons_of_mem _ ht, hat⟩
        · rename_i hlt
          refine own h (fun t ht hs b hbm => ?_)
          exact le_trans (not_lt.1 hlt) ((h3 hs).2 t ht b hbm)

theorem kmerge_lin (n : Nat) (out : HRow) (ss : List HRow) (hn : n = total ss) (w : HIdx → ℝ) :
    lin w (kmerge n out ss) = lin w out + linAll w ss := by
  have hzero : ∀ ss : List HRow, total ss = 0 → linAll w ss = 0 := by
    intro ss
    induction ss with
    | nil => intro _; rfl
    | cons s ss ih =>
      intro h
      simp only [total, List.map_cons, List.sum_cons] at h
      have hs : s = [] := List.length_eq_zero_iff.1 (by omega)
      subst hs
      have := ih (by unfold total; omega)
      simpa [linAll] using this
  induction n generalizing out ss with
  | zero => rw [kmerge, hzero ss hn.symm]; ring
  | succ n ih =>
    rw [kmerge]
    cases hb : best ss with
    | none => have := best_none ss hb; omega
    | some q =>
      obtain ⟨e, ss'⟩ := q
      obtain ⟨h1, h2, _⟩ := best_some ss e ss' hb
      simp only
      rw [ih _ _ (by omega), lin_emit, h2]; ring

theorem kmerge_dec (n : Nat) (out : HRow) (ss : List HRow) (ho : Dec out) (hs : ∀ s ∈ ss, StrictlySorted s)
    (hb : ∀ a ∈ out, ∀ s ∈ ss, ∀ f ∈ s, a.1 ≤ f.1) : Dec (kmerge n out ss) := by
  induction n generalizing out ss with
  | zero => exact ho
  | succ n ih =>
    rw [kmerge]
    cases hbest : best ss with
    | none => exact ho
    | some q =>
      obtain ⟨e, ss'⟩ := q
      obtain ⟨_, _, h3, h4, ⟨t, ht, het⟩⟩ := best_some ss e ss' hbest
      obtain ⟨g1, g2⟩ := h3 hs
      simp only
      have hcols : ∀ a ∈ emit out e.1 e.2, a.1 = e.1 ∨ ∃ b ∈ out, a.1 = b.1 := by
        intro a ha
        unfold emit at ha
        cases out with
        | nil => simp at ha; exact .inl (by rw [ha])
        | cons c out =>
          obtain ⟨d, b⟩ := c
          simp only at ha
          split at ha
          · rename_i hd
            rcases List.mem_cons.1 ha with rfl | ha
            · exact .inl hd
            · exact .inr ⟨a, List.mem_cons_of_mem _ ha, rfl⟩
          · rcases List.mem_cons.1 ha with rfl | ha
            · exact .inl rfl
            · exact .inr ⟨a, ha, rfl⟩
      refine ih _ _ ?_ g1 ?_
      · unfold emit
        cases out with
        | nil => simp [Dec]
        | cons c out =>
          obtain ⟨d, b⟩ := c
          simp only
          split
          · exact ho
          · rename_i hd
            have hlt : d < e.1 := lt_of_le_of_ne (hb (d, b) (by simp) t ht e het) hd
            have ho' : (d :: out.map (·.1)).Pairwise (fun a b => b < a) := ho
            show (e.1 :: d :: out.map (·.1)).Pairwise (fun a b => b < a)
            rw [List.pairwise_cons]
            refine ⟨fun a ha => ?_, ho'⟩
            rcases List.mem_cons.1 ha with rfl | ha
            · exact hlt
            · exact lt_trans ((List.pairwise_cons.1 ho').1 a ha) hlt
      · intro a ha s hsm f hf
        obtain ⟨u, hu, hfu⟩ := h4 s hsm f hf
        rcases hcols a ha with h | ⟨b, hbm, h⟩
        · rw [h]; exact g2 u hu f hfu
        · rw [h]; exact hb b hbm u hu f hfu

/-! ## Products of first derivatives -/

theorem dropWhile_filter (J : Row ℝ) (h : StrictlySorted J) (c : Nat) :
    J.dropWhile (fun k => decide (k.1 < c)) = J.filter fun k => decide (c ≤ k.1) := by
  induction J with
  | nil => rfl
  | cons e J ih =>
    have hs : (e.1 :: J.map (·.1)).Pairwise (· < ·) := h
    rw [List.pairwise_cons] at hs
    by_cases hc : e.1 < c
    · rw [List.dropWhile_cons_of_pos (by simpa using hc), List.filter_cons_of_neg (by simpa using hc), ih hs.2]
    · rw [List.dropWhile_cons_of_neg (by simpa using hc), List.filter_cons_of_pos (by simpa using hc)]
      congr 1
      symm
      rw [List.filter_eq_self]
      intro a ha
      have := hs.1 a.1 (List.mem_map_of_mem ha)
      simp; omega

theorem sorted_filter (J : Row ℝ) (h : StrictlySorted J) (p : Nat × ℝ → Bool) : StrictlySorted (J.filter p) := by
  unfold StrictlySorted at h ⊢
  exact h.sublist (List.filter_sublist.map _)

theorem stream1_eq (a : ℝ) (JL JR : Row ℝ) (hl : StrictlySorted JL) (hr : StrictlySorted JR) :
    stream1 a JL JR = JR.flatMap fun l => (JL.filter fun k => decide (l.1 ≤ k.1)).map fun k => product a k l := by
  induction JR generalizing JL with
  | nil => rfl
  | cons l JR ih =>
    have hs : (l.1 :: JR.map (·.1)).Pairwise (· < ·) := hr
    rw [List.pairwise_cons] at hs
    rw [stream1]
    simp only [dropWhile_filter JL hl]
    rw [ih _ (sorted_filter JL hl _) hs.2, List.flatMap_cons]
    congr 1
    rw [List.flatMap_congr]
    intro m hm
    congr 1
    rw [List.filter_filter]
    apply List.filter_congr
    intro k _
    have := hs.1 m.1 (List.mem_map_of_mem hm)
    simp; omega

theorem stream2_eq (a : ℝ) (JL JR : Row ℝ) (hl : StrictlySorted JL) (hr : StrictlySorted JR) :
    stream2 a JL JR = JL.flatMap fun k => (JR.filter fun l => decide (k.1 ≤ l.1)).map fun l => product a k l := by
  induction JL generalizing JR with
  | nil => rfl
  | cons k JL ih =>
    have hs : (k.1 :: JL.map (·.1)).Pairwise (· < ·) := hl
    rw [List.pairwise_cons] at hs
    rw [stream2]
    simp only [gt_iff_lt, dropWhile_filter JR hr]
    rw [ih _ hs.2 (sorted_filter JR hr _), List.flatMap_cons]
    congr 1
    rw [List.flatMap_congr]
    intro m hm
    congr 1
    rw [List.filter_filter]
    apply List.filter_congr
    intro q _
    have := hs.1 m.1 (List.mem_map_of_mem hm)
    simp; omega

theorem product_idx (a : ℝ) (k l : Nat × ℝ) :
    (product a k l).1 = toLex (min k.1 l.1, max k.1 l.1) := by
  unfold product mkIdx
  simp only
  congr 1
  rcases lt_trichotomy k.1 l.1 with h | h | h
  · simp [h, not_lt.2 (le_of_lt h), le_of_lt h]
  · simp [h]
  · simp [h, not_lt.2 (le_of_lt h), le_of_lt h]

theorem flat_sorted (A B : Row ℝ) (hA : StrictlySorted A) (hB : StrictlySorted B) (p : Nat × ℝ → Nat × ℝ → HIdx × ℝ)
    (hp : ∀ l k, l.1 ≤ k.1 → (p l k).1 = toLex (l.1, k.1)) :
    StrictlySorted (A.flatMap fun l => (B.filter fun k => decide (l.1 ≤ k.1)).map fun k => p l k) := by
  induction A with
  | nil => simp [StrictlySorted]
  | cons l A ih =>
    have hs : (l.1 :: A.map (·.1)).Pairwise (· < ·) := hA
    rw [List.pairwise_cons] at hs
    unfold StrictlySorted at ih ⊢
    rw [List.flatMap_cons, List.map_append, List.pairwise_append]
    refine ⟨?_, ih hs.2, ?_⟩
    · have hf := sorted_filter B hB fun k => decide (l.1 ≤ k.1)
      unfold StrictlySorted at hf
      rw [List.map_map, List.pairwise_map]
      rw [List.pairwise_map] at hf
      refine List.Pairwise.imp_of_mem ?_ hf
      intro x y hx hy hxy
      simp only [Function.comp]
      rw [hp l x (by simpa using (List.mem_filter.1 hx).2), hp l y (by simpa using (List.mem_filter.1 hy).2)]
      exact Prod.Lex.right _ hxy
    · intro x hx y hy
      rw [List.map_map, List.mem_map] at hx
      obtain ⟨k, hk, rfl⟩ := hx
      rw [List.mem_map] at hy
      obtain ⟨y', hy', rfl⟩ := hy
      rw [List.mem_flatMap] at hy'
      obtain ⟨m, hm, hy'⟩ := hy'
      rw [List.mem_map] at hy'
      obtain ⟨q, hq, rfl⟩ := hy'
      simp only [Function.comp]
      rw [hp l k (by simpa using (List.mem_filter.1 hk).2), hp m q (by simpa using (List.mem_filter.1 hq).2)]
      exact Prod.Lex.left _ _ (hs.1 m.1 (List.mem_map_of_mem hm))

theorem stream1_sorted (a : ℝ) (JL JR : Row ℝ) (hl : StrictlySorted JL) (hr : StrictlySorted JR) :
    StrictlySorted (stream1 a JL JR) := by
  rw [stream1_eq a JL JR hl hr]
  refine flat_sorted JR JL hr hl (fun l k => product a k l) fun l k h => ?_
  rw [product_idx, min_eq_right h, max_eq_left h]

theorem stream2_sorted (a : ℝ) (JL JR : Row ℝ) (hl : StrictlySorted JL) (hr : StrictlySorted JR) :
    StrictlySorted (stream2 a JL JR) := by
  rw [stream2_eq a JL JR hl hr]
  refine flat_sorted JL JR hl hr (fun k l => product a k l) fun k l h => ?_
  rw [product_idx, min_eq_left h, max_eq_right h]

theorem lin_flatMap {α : Type} (w : ι → ℝ) (A : List α) (f : α → RowI ι ℝ) :
    lin w (A.flatMap f) = (A.map fun x => lin w (f x)).sum := by
  induction A with
  | nil => rfl
  | cons x A ih => rw [List.flatMap_cons, lin_append, ih]; simp

theorem sum_swap {α β : Type} (A : List α) (B : List β) (f : α → β → ℝ) :
    (A.map fun x => (B.map fun y => f x y).sum).sum = (B.map fun y => (A.map fun x => f x y).sum).sum := by
  induction A with
  | nil => simp
  | cons x A ih => simp only [List.map_cons, List.sum_cons, ih, List.sum_map_add]

theorem lin_filter_map {α : Type} (w : ι → ℝ) (B : List α) (q : α → Bool) (f : α → ι × ℝ) :
    lin w ((B.filter q).map f) = (B.map fun x => if q x then (f x).2 * w (f x).1 else 0).sum := by
  induction B with
  | nil => rfl
  | cons x B ih =>
    by_cases h : q x = true
    · rw [List.filter_cons_of_pos h, List.map_cons, lin_cons, ih]; simp [h]
    · rw [List.filter_cons_of_neg h, ih]; simp [h]

theorem streams_lin (a : ℝ) (JL JR : Row ℝ) (hl : StrictlySorted JL) (hr : StrictlySorted JR) (v : Nat → ℝ) :
    quad (stream1 a JL JR) v + quad (stream2 a JL JR) v = a * dot JL v * dot JR v := by
  rw [stream1_eq a JL JR hl hr, stream2_eq a JL JR hl hr, quad_lin, quad_lin, lin_flatMap, lin_flatMap]
  simp only [lin_filter_map]
  rw [sum_swap JR JL, ← List.sum_map_add]
  have : ∀ k : Nat × ℝ, k ∈ JL → ((JR.map fun y => if decide (y.1 ≤ k.1) = true then (product a k y).2 *
      (v (ofLex (product a k y).1).1 * v (ofLex (product a k y).1).2) else 0).sum +
      (JR.map fun y => if decide (k.1 ≤ y.1) = true then (product a k y).2 *
      (v (ofLex (product a k y).1).1 * v (ofLex (product a k y).1).2) else 0).sum) =
      k.2 * v k.1 * (a * dot JR v) := by
    intro k _
    rw [← List.sum_map_add]
    have : ∀ y : Nat × ℝ, ((if decide (y.1 ≤ k.1) = true then (product a k y).2 *
      (v (ofLex (product a k y).1).1 * v (ofLex (product a k y).1).2) else 0) +
      (if decide (k.1 ≤ y.1) = true then (product a k y).2 *
      (v (ofLex (product a k y).1).1 * v (ofLex (product a k y).1).2) else 0)) =
      (k.2 * v k.1 * a) * (y.2 * v y.1) := by
      intro y
      rw [product_idx]
      simp only [ofLex_toLex, product, decide_eq_true_eq]
      rcases lt_trichotomy k.1 y.1 with h | h | h
      · rw [if_neg (not_le.2 h), if_pos (le_of_lt h), if_neg (ne_of_lt h), min_eq_left (le_of_lt h), max_eq_right (le_of_lt h)]
        ring
      · rw [h]; simp only [le_refl, ↓reduceIte, min_self, max_self]; ring
      · rw [if_neg (not_le.2 h), if_pos (le_of_lt h), if_neg (ne_of_gt h), min_eq_right (le_of_lt h), max_eq_left (le_of_lt h)]
        ring
    rw [List.map_congr_left (fun y _ => this y), List.sum_map_mul_left]
    unfold dot; ring
  rw [List.map_congr_left this, List.sum_map_mul_right]
  unfold dot; ring

theorem sorted_scale {ι : Type} [LinearOrder ι] (r : RowI ι ℝ) (f : ι × ℝ → ℝ) (h : StrictlySorted r) :
    StrictlySorted (r.map fun e => (e.1, f e)) := by
  unfold StrictlySorted at h ⊢
  rw [List.map_map]; exact h

/-- `MergeJacobianHessian`. -/
theorem mergeJH_spec (a : ℝ) (JL JR : Row ℝ) (Hs : List (ℝ × HRow)) (hl : StrictlySorted JL) (hr : StrictlySorted JR)
    (hH : ∀ h ∈ Hs, StrictlySorted h.2) (he : JL = [] ↔ JR = []) :
    ∃ H, mergeJH a JL JR Hs = some H ∧ StrictlySorted H ∧
      ∀ v, quad H v = a * dot JL v * dot JR v + (Hs.map fun h => h.1 * quad h.2 v).sum := by
  have hall : Hs.all (fun h => isSorted h.2) = true := by
    rw [List.all_eq_true]; exact fun h hm => strict_isSorted _ (hH h hm)
  have hemp : JL.isEmpty = JR.isEmpty := by
    rw [Bool.eq_iff_iff, List.isEmpty_iff, List.isEmpty_iff]; exact he
  set ss := Hs.map (fun h => h.2.map fun e => (e.1, h.1 * e.2)) ++ [stream1 a JL JR, stream2 a JL JR] with hss
  have hsorted : ∀ s ∈ ss, StrictlySorted s := by
    intro s hs
    rcases List.mem_append.1 hs with hs | hs
    · obtain ⟨h, hm, rfl⟩ := List.mem_map.1 hs
      exact sorted_scale h.2 _ (hH h hm)
    · simp only [List.mem_cons, List.not_mem_nil, or_false] at hs
      rcases hs with rfl | rfl
      · exact stream1_sorted a JL JR hl hr
      · exact stream2_sorted a JL JR hl hr
  refine ⟨(kmerge (total ss) [] ss).reverse, ?_, ?_, fun v => ?_⟩
  · unfold mergeJH
    rw [strict_isSorted JL hl, strict_isSorted JR hr, hall, if_pos (by rfl), if_pos hemp]
  · have := kmerge_dec (total ss) [] ss (by simp [Dec]) hsorted (by simp)
    unfold StrictlySorted
    rw [List.map_reverse, List.pairwise_reverse]
    exact this
  · rw [quad_lin, lin_reverse, kmerge_lin _ _ _ rfl, lin_nil, zero_add]
    unfold linAll
    rw [hss, List.map_append, List.sum_append, List.map_map]
    simp only [List.map_cons, List.map_nil, List.sum_cons, List.sum_nil, add_zero]
    rw [← quad_lin, ← quad_lin, streams_lin a JL JR hl hr v, add_comm]
    congr 1
    congr 1
    apply List.map_congr_left
    intro h _
    simp only [Function.comp]
    have := lin_scale (fun p : HIdx => v (ofLex p).1 * v (ofLex p).2) h.2 h.1
    unfold scale at this
    simp only [mul_comm _ h.1] at this
    rw [this]; rfl

end Verif.Autodiff
