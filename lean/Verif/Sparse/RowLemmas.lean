import Verif.Sparse.RowSpec
import Mathlib.Tactic.SplitIfs

/-!
# Lemmas on sparse rows
-/

namespace Verif.Sparse

variable {ι : Type} [LinearOrder ι] {K : Type} [CommRing K] [DecidableEq K]

omit [DecidableEq K] in
@[simp] theorem colVal_nil (c : ι) : colVal ([] : RowI ι K) c = 0 := rfl

omit [DecidableEq K] in
theorem colVal_cons (i : ι) (v : K) (r : RowI ι K) (c : ι) :
    colVal ((i, v) :: r) c = (if i = c then v else 0) + colVal r c := by
  unfold colVal
  by_cases h : i = c
  · rw [List.filter_cons_of_pos (by simpa using h)]; simp [h]
  · rw [List.filter_cons_of_neg (by simpa using h)]; simp [h]

omit [DecidableEq K] in
theorem colVal_append (r s : RowI ι K) (c : ι) : colVal (r ++ s) c = colVal r c + colVal s c := by
  unfold colVal; simp

omit [DecidableEq K] in
theorem colVal_reverse (r : RowI ι K) (c : ι) : colVal r.reverse c = colVal r c := by
  unfold colVal
  rw [List.filter_reverse, List.map_reverse, List.sum_reverse]

omit [DecidableEq K] in
theorem colVal_absent (r : RowI ι K) (c : ι) (h : ¬ HasColumn r c) : colVal r c = 0 := by
  induction r with
  | nil => rfl
  | cons e r ih =>
    obtain ⟨i, v⟩ := e
    unfold HasColumn at h ih
    simp only [List.map_cons, List.mem_cons, not_or] at h
    rw [colVal_cons, if_neg (fun e => h.1 e.symm), ih h.2]; simp

omit [DecidableEq K] in
theorem getSafe_absent (r : RowI ι K) (c : ι) (h : ¬ HasColumn r c) : getSafe r c = 0 := by
  induction r with
  | nil => rfl
  | cons e r ih =>
    obtain ⟨i, v⟩ := e
    unfold HasColumn at h ih
    simp only [List.map_cons, List.mem_cons, not_or] at h
    rw [getSafe, if_neg (fun e => h.1 e.symm), ih h.2]

omit [DecidableEq K] in
theorem getSafe_colVal (r : RowI ι K) (hd : Distinct r) (c : ι) : getSafe r c = colVal r c := by
  induction r with
  | nil => rfl
  | cons e r ih =>
    obtain ⟨i, v⟩ := e
    unfold Distinct at hd ih
    rw [List.map_cons, List.nodup_cons] at hd
    rw [getSafe, colVal_cons]
    by_cases h : i = c
    · subst h
      rw [if_pos rfl, if_pos rfl, colVal_absent r i hd.1]; simp
    · rw [if_neg h, if_neg h, ih hd.2]; simp

open Classical in
omit [DecidableEq K] in
theorem access_cols (r : RowI ι K) (c : ι) (f : K → K) :
    (access r c f).map (·.1) = if HasColumn r c then r.map (·.1) else r.map (·.1) ++ [c] := by
  induction r with
  | nil => simp [access, HasColumn]
  | cons e r ih =>
    obtain ⟨i, v⟩ := e
    rw [access]
    by_cases h : i = c
    · subst h; simp [HasColumn]
    · rw [if_neg h, List.map_cons, ih]
      have : HasColumn ((i, v) :: r) c ↔ HasColumn r c := by
        unfold HasColumn; simp [Ne.symm h]
      by_cases h2 : HasColumn r c
      · rw [if_pos h2, if_pos (this.2 h2)]; simp
      · rw [if_neg h2, if_neg (fun x => h2 (this.1 x))]; simp

omit [DecidableEq K] in
theorem access_get (r : RowI ι K) (c : ι) (f : K → K) (d : ι) :
    getSafe (access r c f) d = if d = c then f (getSafe r c) else getSafe r d := by
  induction r with
  | nil =>
    simp only [access, getSafe]
    by_cases h : d = c
    · subst h; simp
    · simp [h, Ne.symm h]
  | cons e r ih =>
    obtain ⟨i, v⟩ := e
    rw [access]
    by_cases h : i = c
    · subst h
      rw [if_pos rfl]
      simp only [getSafe, if_pos rfl]
      by_cases h2 : i = d
      · subst h2; simp
      · simp [h2, Ne.symm h2]
    · rw [if_neg h]
      simp only [getSafe]
      by_cases h2 : i = d
      · subst h2; simp [h]
      · rw [if_neg h2, ih]
        simp [h, h2]

/-! ## Merging -/

omit [DecidableEq K] in
theorem emit_colVal (out : RowI ι K) (c : ι) (v : K) (d : ι) :
    colVal (emit out c v) d = colVal out d + (if c = d then v else 0) := by
  unfold emit
  split
  · rw [colVal_cons]; simp
  · rename_i e w rest
    split
    · rename_i h; subst h
      rw [colVal_cons, colVal_cons]; split_ifs <;> ring
    · rw [colVal_cons]; ring

omit [DecidableEq K] in
theorem drain_colVal (k : K) (out r : RowI ι K) (d : ι) :
    colVal (drain k out r) d = colVal out d + k * colVal r d := by
  induction r generalizing out with
  | nil => simp [drain]
  | cons e r ih =>
    obtain ⟨i, v⟩ := e
    rw [drain, ih, emit_colVal, colVal_cons]
    split_ifs <;> ring

omit [DecidableEq K] in
theorem mergeLoop_colVal (a b : K) (out l r : RowI ι K) (d : ι) :
    colVal (mergeLoop a b out l r) d = colVal out d + a * colVal l d + b * colVal r d := by
  induction out, l, r using (mergeLoop.induct (ι := ι) (K := K) a b) with
  | case1 out r => rw [mergeLoop, drain_colVal, drain_colVal]
  | case2 out l h =>
    rw [mergeLoop, drain_colVal, drain_colVal]
    exact h
  | case3 out i v l j w r hij ih =>
    rw [mergeLoop]; simp only [hij, ↓reduceIte]; rw [ih, colVal_cons, colVal_cons i v l]
    split_ifs <;> ring
  | case4 out v l j w r h1 ih =>
    rw [mergeLoop]; simp only [h1, ↓reduceIte]; rw [ih, colVal_cons, colVal_cons j v l, colVal_cons j w r]
    split_ifs <;> ring
  | case5 out i v l j w r h1 h2 ih =>
    rw [mergeLoop]; simp only [h1, h2, ↓reduceIte]; rw [ih, colVal_cons, colVal_cons j w r]
    split_ifs <;> ring

/-- Reversed output: strictly decreasing columns. -/
def Dec (out : RowI ι K) : Prop := (out.map (·.1)).Pairwise (fun a b => b < a)

/-- Every column of the output so far precedes every column of the row. -/
def Below (out r : RowI ι K) : Prop := ∀ a ∈ out.map (·.1), ∀ b ∈ r.map (·.1), a < b

omit [DecidableEq K] [CommRing K] in
theorem below_cons (e : ι × K) (out r : RowI ι K) :
    Below (e :: out) r ↔ (∀ b ∈ r.map (·.1), e.1 < b) ∧ Below out r := by
  unfold Below; simp

omit [DecidableEq K] in
theorem emit_above (out : RowI ι K) (c : ι) (v : K) (h : ∀ a ∈ out.map (·.1), a < c) :
    emit out c v = (c, v) :: out := by
  unfold emit
  split
  · rfl
  · rename_i d w rest
    have := h d (by simp)
    rw [if_neg (ne_of_lt this)]

omit [DecidableEq K] in
theorem drain_dec (k : K) (out r : RowI ι K) (ho : Dec out) (hr : StrictlySorted r)
    (hb : Below out r) : Dec (drain k out r) ∧
      ∀ c, HasColumn (drain k out r) c ↔ HasColumn out c ∨ HasColumn r c := by
  induction r generalizing out with
  | nil => simp [drain, ho, HasColumn]
  | cons e r ih =>
    obtain ⟨i, v⟩ := e
    unfold StrictlySorted at hr ih
    rw [List.map_cons, List.pairwise_cons] at hr
    have hlt : ∀ a ∈ out.map (·.1), a < i := fun a ha => hb a ha i (by simp)
    rw [drain, emit_above out i _ hlt]
    have h := ih ((i, k * v) :: out) ?_ hr.2 ?_
    · refine ⟨h.1, fun c => ?_⟩
      rw [h.2]; unfold HasColumn; simp only [List.map_cons, List.mem_cons]; tauto
    · unfold Dec; rw [List.map_cons, List.pairwise_cons]; exact ⟨hlt, ho⟩
    · rw [below_cons]
      exact ⟨hr.1, fun a ha b hb' => hb a ha b (by simp only [List.map_cons, List.mem_cons]; exact Or.inr hb')⟩

omit [DecidableEq K] in
theorem mergeLoop_dec (a b : K) (out l r : RowI ι K) (ho : Dec out) (hl : StrictlySorted l)
    (hr : StrictlySorted r) (h1 : Below out l) (h2 : Below out r) :
    Dec (mergeLoop a b out l r) ∧
      ∀ c, HasColumn (mergeLoop a b out l r) c ↔ HasColumn out c ∨ HasColumn l c ∨ HasColumn r c := by
  induction out, l, r using (mergeLoop.induct (ι := ι) (K := K) a b) with
  | case1 out r =>
    rw [mergeLoop, drain]
    have := drain_dec b out r ho hr h2
    refine ⟨this.1, fun c => ?_⟩
    rw [this.2]; simp [HasColumn]
  | case2 out l h =>
    rw [mergeLoop]
    · show Dec (drain a out l) ∧ _
      have := drain_dec a out l ho hl h1
      refine ⟨this.1, fun c => ?_⟩
      show HasColumn (drain a out l) c ↔ _
      rw [this.2]; simp [HasColumn]
    · exact h
  | case3 out i v l j w r hij ih =>
    rw [mergeLoop]; simp only [hij, ↓reduceIte]
    unfold StrictlySorted at hl hr ih
    have hl' := hl; have hr' := hr
    rw [List.map_cons, List.pairwise_cons] at hl' hr'
    have h := ih ?_ hl'.2 hr ?_ ?_
    · refine ⟨h.1, fun c => ?_⟩
      rw [h.2]; unfold HasColumn; simp only [List.map_cons, List.mem_cons]; tauto
    · unfold Dec; rw [List.map_cons, List.pairwise_cons]
      exact ⟨fun x hx => h1 x hx i (by simp), ho⟩
    · rw [below_cons]
      exact ⟨hl'.1, fun x hx y hy => h1 x hx y (by simp only [List.map_cons, List.mem_cons]; exact Or.inr hy)⟩
    · rw [below_cons]
      refine ⟨?_, h2⟩
      intro y hy
      simp only [List.map_cons, List.mem_cons] at hy
      rcases hy with rfl | hy
      · exact hij
      · exact lt_trans hij (hr'.1 y hy)
  | case4 out v l j w r hij ih =>
    rw [mergeLoop]; simp only [hij, ↓reduceIte]
    unfold StrictlySorted at hl hr ih
    have hl' := hl; have hr' := hr
    rw [List.map_cons, List.pairwise_cons] at hl' hr'
    have h := ih ?_ hl'.2 hr'.2 ?_ ?_
    · refine ⟨h.1, fun c => ?_⟩
      rw [h.2]; unfold HasColumn; simp only [List.map_cons, List.mem_cons]; tauto
    · unfold Dec; rw [List.map_cons, List.pairwise_cons]
      exact ⟨fun x hx => h1 x hx j (by simp), ho⟩
    · rw [below_cons]
      exact ⟨hl'.1, fun x hx y hy => h1 x hx y (by simp only [List.map_cons, List.mem_cons]; exact Or.inr hy)⟩
    · rw [below_cons]
      exact ⟨hr'.1, fun x hx y hy => h2 x hx y (by simp only [List.map_cons, List.mem_cons]; exact Or.inr hy)⟩
  | case5 out i v l j w r hij hne ih =>
    rw [mergeLoop]; simp only [hij, hne, ↓reduceIte]
    have hji : j < i := lt_of_le_of_ne (not_lt.1 hij) (Ne.symm hne)
    unfold StrictlySorted at hl hr ih
    have hl' := hl; have hr' := hr
    rw [List.map_cons, List.pairwise_cons] at hl' hr'
    have h := ih ?_ hl hr'.2 ?_ ?_
    · refine ⟨h.1, fun c => ?_⟩
      rw [h.2]; unfold HasColumn; simp only [List.map_cons, List.mem_cons]; tauto
    · unfold Dec; rw [List.map_cons, List.pairwise_cons]
      exact ⟨fun x hx => h2 x hx j (by simp), ho⟩
    · rw [below_cons]
      refine ⟨?_, h1⟩
      intro y hy
      simp only [List.map_cons, List.mem_cons] at hy
      rcases hy with rfl | hy
      · exact hji
      · exact lt_trans hji (hl'.1 y hy)
    · rw [below_cons]
      exact ⟨hr'.1, fun x hx y hy => h2 x hx y (by simp only [List.map_cons, List.mem_cons]; exact Or.inr hy)⟩

omit [DecidableEq K] [CommRing K] in
theorem strict_isSorted (r : RowI ι K) (h : StrictlySorted r) : isSorted r = true := by
  unfold StrictlySorted at h
  induction r with
  | nil => rfl
  | cons e r ih =>
    cases r with
    | nil => rfl
    | cons e2 r =>
      obtain ⟨i, v⟩ := e
      obtain ⟨j, w⟩ := e2
      rw [List.map_cons, List.pairwise_cons] at h
      have hij : i < j := h.1 j (by simp)
      rw [isSorted, ih h.2]
      simp [le_of_lt hij]

/-! ## Products -/

/-- The value of a vector at an index, zero outside of the interval. -/
def Vec.at' (x : Vec K) (i : Nat) : K := (x.get? i).getD 0

/-- The index belongs to the interval of the vector. -/
def Vec.Has (x : Vec K) (i : Nat) : Prop := x.beg ≤ i ∧ i < x.beg + x.data.length

omit [DecidableEq K] [CommRing K] in
theorem get?_eq_some (x : Vec K) (i : Nat) (v : K) (h : x.get? i = some v) : x.Has i := by
  unfold Vec.get? at h
  split at h
  · cases h
  · rw [List.getElem?_eq_some_iff] at h
    obtain ⟨h1, _⟩ := h
    unfold Vec.Has; omega

omit [DecidableEq K] in
theorem get?_has (x : Vec K) (i : Nat) (h : x.Has i) : x.get? i = some (x.at' i) := by
  unfold Vec.at' Vec.get?
  unfold Vec.Has at h
  rw [if_neg (by omega), List.getElem?_eq_getElem (show i - x.beg < x.data.length by omega)]
  rfl

omit [DecidableEq K] [CommRing K] in
theorem put_has (x : Vec K) (i : Nat) (v : K) (j : Nat) : (x.put i v).Has j ↔ x.Has j := by
  unfold Vec.put Vec.Has; simp

omit [DecidableEq K] in
theorem put_at (x : Vec K) (i : Nat) (v : K) (hi : x.Has i) (j : Nat) (hj : x.Has j) :
    (x.put i v).at' j = if j = i then v else x.at' j := by
  unfold Vec.at' Vec.get? Vec.put
  unfold Vec.Has at hi hj
  have hb : ¬ j < x.beg := by omega
  by_cases h : j = i
  · subst h
    simp only [hb, if_false, if_true]
    rw [List.getElem?_set_self (by omega)]; simp
  · simp only [hb, h, if_false]
    rw [List.getElem?_set_ne (by omega)]

omit [DecidableEq K] in
theorem sum_entries (g : Nat → K) (r : Row K) (S : Finset Nat) (hS : ∀ e ∈ r, e.1 ∈ S) :
    (r.map fun e => g e.1 * e.2).sum = ∑ c ∈ S, colVal r c * g c := by
  induction r with
  | nil => simp
  | cons e r ih =>
    obtain ⟨i, v⟩ := e
    have hi : i ∈ S := hS (i, v) (by simp)
    rw [List.map_cons, List.sum_cons, ih (fun e he => hS e (by simp [he]))]
    have : ∀ c ∈ S, colVal ((i, v) :: r) c * g c = (if i = c then v * g c else 0) + colVal r c * g c := by
      intro c _
      rw [colVal_cons]; split_ifs <;> ring
    rw [Finset.sum_congr rfl this, Finset.sum_add_distrib, Finset.sum_ite_eq, if_pos hi]
    ring

omit [DecidableEq K] in
theorem rowVecFrom_eq (x : Vec K) (r : Row K) (ret : K) (h : ∀ e ∈ r, x.Has e.1) :
    rowVecFrom x ret r = some (ret + (r.map fun e => x.at' e.1 * e.2).sum) := by
  induction r generalizing ret with
  | nil => simp [rowVecFrom]
  | cons e r ih =>
    obtain ⟨i, v⟩ := e
    rw [rowVecFrom, get?_has x i (h (i, v) (by simp))]
    simp only
    rw [ih _ (fun e he => h e (by simp [he]))]
    simp [add_assoc]

omit [DecidableEq K] in
theorem rowVec_eq (x : Vec K) (r : Row K) (S : Finset Nat) (hS : ∀ e ∈ r, e.1 ∈ S)
    (h : ∀ e ∈ r, x.Has e.1) : rowVec x r = some (∑ c ∈ S, colVal r c * x.at' c) := by
  rw [rowVec, rowVecFrom_eq x r 0 h, sum_entries x.at' r S hS]; simp

omit [DecidableEq K] in
theorem matVecLoop_spec (a : K) (x : Vec K) (b : K) (rows : List (Row K)) (ind : Nat) (out : Vec K)
    (hx : ∀ r ∈ rows, ∀ e ∈ r, x.Has e.1)
    (S : Finset Nat) (hS : ∀ r ∈ rows, ∀ e ∈ r, e.1 ∈ S)
    (ho : ∀ k, k < rows.length → out.Has (ind + k)) :
    ∃ out', matVecLoop a x b ind rows out = some out' ∧ out'.beg = out.beg ∧
      out'.data.length = out.data.length ∧
      ∀ i, out.Has i → out'.at' i = if ind ≤ i ∧ i < ind + rows.length then
        b * out.at' i + a * ∑ c ∈ S, colVal (rows.getD (i - ind) []) c * x.at' c else out.at' i := by
  induction rows generalizing ind out with
  | nil =>
    refine ⟨out, rfl, rfl, rfl, ?_⟩
    intro i _
    rw [if_neg (by rw [List.length_nil]; omega)]
  | cons r rows ih =>
    have hind : out.Has ind := by simpa using ho 0 (by simp)
    rw [matVecLoop, get?_has out ind hind,
      rowVec_eq x r S (hS r (by simp)) (hx r (by simp))]
    simp only
    obtain ⟨out', h1, h2, h3, h4⟩ := ih (ind + 1)
      (out.put ind (b * out.at' ind + a * ∑ c ∈ S, colVal r c * x.at' c))
      (fun r hr => hx r (by simp [hr])) (fun r hr => hS r (by simp [hr]))
      (fun k hk => (put_has _ _ _ _).2 (by
        have := ho (k + 1) (by simpa using hk)
        rw [show ind + 1 + k = ind + (k + 1) by omega]; exact this))
    refine ⟨out', h1, h2, by rw [h3]; simp [Vec.put], ?_⟩
    intro i hi
    rw [h4 i ((put_has _ _ _ _).2 hi), put_at out ind _ hind i hi]
    rw [List.length_cons]
    by_cases e : i = ind
    · subst e
      rw [if_neg (by omega), if_pos rfl, if_pos (by omega)]
      simp
    · rw [if_neg e]
      by_cases h : ind + 1 ≤ i ∧ i < ind + 1 + rows.length
      · rw [if_pos h, if_pos (by omega)]
        obtain ⟨k, rfl⟩ : ∃ k, i = ind + 1 + k := ⟨i - (ind + 1), by omega⟩
        rw [show ind + 1 + k - (ind + 1) = k by omega, show ind + 1 + k - ind = k + 1 by omega]
        simp
      · rw [if_neg h, if_neg (by omega)]

omit [DecidableEq K] in
theorem scatterRow_spec (s : K) (r : Row K) (out : Vec K) (h : ∀ e ∈ r, out.Has e.1) :
    ∃ out', scatterRow s r out = some out' ∧ out'.beg = out.beg ∧
      out'.data.length = out.data.length ∧
      ∀ j, out.Has j → out'.at' j = out.at' j + s * colVal r j := by
  induction r generalizing out with
  | nil => exact ⟨out, rfl, rfl, rfl, by simp⟩
  | cons e r ih =>
    obtain ⟨c, v⟩ := e
    have hc : out.Has c := h (c, v) (by simp)
    rw [scatterRow, get?_has out c hc]
    simp only
    obtain ⟨out', h1, h2, h3, h4⟩ := ih (out.put c (out.at' c + s * v))
      (fun e he => (put_has _ _ _ _).2 (h e (by simp [he])))
    refine ⟨out', h1, h2, by rw [h3]; simp [Vec.put], ?_⟩
    intro j hj
    rw [h4 j ((put_has _ _ _ _).2 hj), put_at out c _ hc j hj, colVal_cons]
    by_cases e : j = c
    · subst e; simp; ring
    · rw [if_neg e, if_neg (Ne.symm e)]; ring

omit [DecidableEq K] in
theorem has_congr (x y : Vec K) (h1 : x.beg = y.beg) (h2 : x.data.length = y.data.length) (i : Nat) :
    x.Has i ↔ y.Has i := by unfold Vec.Has; rw [h1, h2]

omit [DecidableEq K] in
theorem matVecTLoop_spec (a : K) (x : Vec K) (rows : List (Row K)) (ind : Nat) (out : Vec K)
    (hx : ∀ k, k < rows.length → x.Has (ind + k))
    (ho : ∀ r ∈ rows, ∀ e ∈ r, out.Has e.1) :
    ∃ out', matVecTLoop a x ind rows out = some out' ∧ out'.beg = out.beg ∧
      out'.data.length = out.data.length ∧
      ∀ j, out.Has j → out'.at' j = out.at' j +
        a * ∑ k ∈ Finset.range rows.length, colVal (rows.getD k []) j * x.at' (ind + k) := by
  induction rows generalizing ind out with
  | nil => exact ⟨out, rfl, rfl, rfl, by simp⟩
  | cons r rows ih =>
    have hx' : ∀ k, k < rows.length → x.Has (ind + 1 + k) := fun k hk => by
      have := hx (k + 1) (by simpa using hk)
      rw [show ind + 1 + k = ind + (k + 1) by omega]; exact this
    have hsum : ∀ j, ∑ k ∈ Finset.range (r :: rows).length,
        colVal ((r :: rows).getD k []) j * x.at' (ind + k) =
        colVal r j * x.at' ind +
          ∑ k ∈ Finset.range rows.length, colVal (rows.getD k []) j * x.at' (ind + 1 + k) := by
      intro j
      rw [List.length_cons, Finset.sum_range_succ']
      simp only [List.getD_cons_succ, List.getD_cons_zero, Nat.add_zero]
      rw [add_comm]
      congr 1
      apply Finset.sum_congr rfl
      intro k _
      rw [show ind + (k + 1) = ind + 1 + k by omega]
    cases r with
    | nil =>
      rw [matVecTLoop]
      obtain ⟨out', h1, h2, h3, h4⟩ := ih (ind + 1) out hx' (fun r hr => ho r (by simp [hr]))
      refine ⟨out', h1, h2, h3, ?_⟩
      intro j hj
      rw [h4 j hj, hsum]; simp
    | cons e r =>
      have hind : x.Has ind := by simpa using hx 0 (by simp)
      rw [matVecTLoop]
      · rw [get?_has x ind hind]
        simp only
        obtain ⟨o1, g1, g2, g3, g4⟩ := scatterRow_spec (a * x.at' ind) (e :: r) out (ho _ (by simp))
        rw [g1]
        simp only
        obtain ⟨out', h1, h2, h3, h4⟩ := ih (ind + 1) o1 hx'
          (fun r hr e he => (has_congr o1 out g2 g3 _).2 (ho r (by simp [hr]) e he))
        refine ⟨out', h1, h2.trans g2, h3.trans g3, ?_⟩
        intro j hj
        rw [h4 j ((has_congr o1 out g2 g3 _).2 hj), g4 j hj, hsum]
        ring
      · simp

end Verif.Sparse
