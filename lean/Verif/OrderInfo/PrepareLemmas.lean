import Verif.OrderInfo.Spec
import Mathlib.Data.List.Nodup
import Mathlib.Data.List.Basic
import Mathlib.Data.List.TakeWhile

/-!
# Lemmas about `PrepareMatrix`
-/

namespace Verif.OrderInfo

variable {K : Type}

theorem Intervals.le {size : Nat} {gtp : Nat → Nat} (h : Intervals size gtp) {i j : Nat} (hij : i ≤ j) (hj : j ≤ size) : gtp i ≤ gtp j := by
  induction j with
  | zero => have : i = 0 := by omega
            subst this; exact le_refl _
  | succ j ih =>
    rcases Nat.lt_or_ge i (j + 1) with h' | h'
    · exact le_trans (ih (by omega) (by omega)) (h.mono j (by omega))
    · have : i = j + 1 := by omega
      subst this; exact le_refl _

theorem Owns.unique {size : Nat} {gtp : Nat → Nat} (h : Intervals size gtp) {q q' g : Nat} (h1 : Owns size gtp q g) (h2 : Owns size gtp q' g) : q = q' := by
  obtain ⟨a1, b1, c1⟩ := h1
  obtain ⟨a2, b2, c2⟩ := h2
  rcases Nat.lt_trichotomy q q' with hlt | heq | hlt
  · have := h.le (show q + 1 ≤ q' by omega) (by omega); omega
  · exact heq
  · have := h.le (show q' + 1 ≤ q by omega) (by omega); omega

theorem gtpList_get (size : Nat) (gtp : Nat → Nat) (i : Nat) : (gtpList size gtp)[i]? = if i ≤ size then some (gtp i) else none := by
  unfold gtpList
  rw [List.getElem?_map]
  split
  · rw [List.getElem?_range (by omega)]; rfl
  · rw [List.getElem?_eq_none (by simp; omega)]; rfl

/-- `std::lower_bound`. -/
theorem lowerBound_gtp (size : Nat) (gtp : Nat → Nat) (r : Nat) (h : r ≤ gtp size) :
    ∃ f, lowerBound (gtpList size gtp) r = f ∧ f ≤ size ∧ r ≤ gtp f ∧ ∀ k, k < f → gtp k < r := by
  refine ⟨_, rfl, ?_, ?_, ?_⟩
  · by_contra hlt
    have hlt : size < lowerBound (gtpList size gtp) r := by omega
    have := List.not_of_lt_findIdx (p := fun a => decide (r ≤ a)) hlt
    simp [gtpList] at this
    omega
  · have hlt : lowerBound (gtpList size gtp) r < (gtpList size gtp).length := by
      apply List.findIdx_lt_length_of_exists
      exact ⟨gtp size, by unfold gtpList; exact List.mem_map.2 ⟨size, by simp, rfl⟩, by simpa using h⟩
    have := List.findIdx_getElem (p := fun a => decide (r ≤ a)) (w := hlt)
    simpa [gtpList, lowerBound] using this
  · intro k hk
    have := List.not_of_lt_findIdx (p := fun a => decide (r ≤ a)) hk
    simp [gtpList] at this
    omega

/-- The value of `GetProcessor`. -/
theorem getProcessor_eq (size : Nat) (gtp : Nat → Nat) (r : Nat) (hr : r < gtp size) (h0 : gtp 0 = 0) :
    ∃ f, lowerBound (gtpList size gtp) r = f ∧ f ≤ size ∧ r ≤ gtp f ∧ (∀ k, k < f → gtp k < r) ∧ (f = 0 → gtp f = r) ∧
      getProcessor size gtp r = some (if gtp f = r then f else f - 1) := by
  obtain ⟨f, hf, h1, h2, h3⟩ := lowerBound_gtp size gtp r hr.le
  refine ⟨f, hf, h1, h2, h3, fun h => by subst h; omega, ?_⟩
  unfold getProcessor
  simp only [hf, gtpList_get, if_pos h1]
  by_cases he : gtp f = r
  · have : f + 1 ≠ (gtpList size gtp).length := by
      intro hl
      have hfs : f = size := by simpa [gtpList] using hl
      subst hfs; omega
    rw [if_pos ⟨he, this⟩, if_pos he]
  · rw [if_neg (by tauto), if_neg he]

theorem getProcessor_owner (size : Nat) (gtp : Nat → Nat) (h : Intervals size gtp) (r : Nat) (hr : r < gtp size) :
    ∃ q, getProcessor size gtp r = some q ∧ Owns size gtp q r := by
  obtain ⟨f, _, h1, h2, h3, h4, h5⟩ := getProcessor_eq size gtp r hr h.zero
  refine ⟨_, h5, ?_⟩
  by_cases he : gtp f = r
  · rw [if_pos he]
    have hfs : f ≠ size := by rintro rfl; omega
    refine ⟨by omega, he.le, ?_⟩
    have hm := h.mono f (by omega)
    rcases Nat.lt_or_ge r (gtp (f + 1)) with h' | h'
    · exact h'
    · have := h.trail f (by omega) (by omega); omega
  · rw [if_neg he]
    have hf0 : f ≠ 0 := fun h => he (h4 h)
    refine ⟨by omega, (h3 (f - 1) (by omega)).le, ?_⟩
    rw [show f - 1 + 1 = f by omega]; omega

theorem recvLoop_spec (size : Nat) (gtp : Nat → Nat) (n a : Nat) (cur : List Nat) (hs : cur.Pairwise (· < ·)) (hlo : ∀ g ∈ cur, gtp a ≤ g)
    (hhi : ∀ g ∈ cur, g < gtp (a + n)) (hsize : a + n ≤ size) :
    (recvLoop gtp (List.range' a n) cur).flatMap (·.2) = cur ∧
    (∀ e ∈ recvLoop gtp (List.range' a n) cur, a ≤ e.1 ∧ e.1 < a + n ∧ e.2 ≠ [] ∧ ∀ g ∈ e.2, Owns size gtp e.1 g) ∧
    ((recvLoop gtp (List.range' a n) cur).map (·.1)).Pairwise (· < ·) := by
  induction n generalizing a cur with
  | zero =>
    cases cur with
    | nil => simp [recvLoop]
    | cons g cur =>
      have h1 := hlo g (by simp)
      have h2 := hhi g (by simp)
      simp only [Nat.add_zero] at h2
      omega
  | succ n ih =>
    simp only [List.range'_succ, recvLoop]
    generalize hm : cur.takeWhile (fun i => decide (i < gtp (a + 1))) = mine
    generalize hr : cur.dropWhile (fun i => decide (i < gtp (a + 1))) = rest
    have happ : mine ++ rest = cur := by rw [← hm, ← hr]; exact List.takeWhile_append_dropWhile
    have hmine : ∀ g ∈ mine, g < gtp (a + 1) := by
      intro g hg
      rw [← hm] at hg
      simpa using List.mem_takeWhile_imp hg
    have hrs : rest.Pairwise (· < ·) := by rw [← happ] at hs; exact (List.pairwise_append.1 hs).2.1
    have hrest : ∀ g ∈ rest, gtp (a + 1) ≤ g := by
      cases hrr : rest with
      | nil => intro g hg; cases hg
      | cons b rest' =>
        have hb : ¬ (b < gtp (a + 1)) := by
          have := List.head?_dropWhile_not (fun i => decide (i < gtp (a + 1))) cur
          rw [hr, hrr] at this
          simpa using this
        intro g hg
        rw [hrr] at hrs
        rcases List.mem_cons.1 hg with h | h
        · omega
        · have := (List.pairwise_cons.1 hrs).1 g h; omega
    obtain ⟨i1, i2, i3⟩ := ih (a + 1) rest hrs hrest (fun g hg => by
      have := hhi g (by rw [← happ]; simp [hg]); rwa [show a + 1 + n = a + (n + 1) by omega]) (by omega)
    by_cases hme : mine = []
    · rw [if_pos hme]
      rw [hme, List.nil_append] at happ
      refine ⟨by rw [i1, happ], fun e he => ?_, i3⟩
      obtain ⟨j1, j2, j3⟩ := i2 e he
      exact ⟨by omega, by omega, j3⟩
    · rw [if_neg hme]
      refine ⟨by simp [i1, happ], fun e he => ?_, ?_⟩
      · rcases List.mem_cons.1 he with h | h
        · subst h
          refine ⟨le_refl _, by simp, hme, fun g hg => ⟨by simp; omega, hlo g (by rw [← happ]; simp [hg]), hmine g hg⟩⟩
        · obtain ⟨j1, j2, j3⟩ := i2 e h
          exact ⟨by omega, by omega, j3⟩
      · simp only [List.map_cons, List.pairwise_cons]
        refine ⟨fun b hb => ?_, i3⟩
        obtain ⟨e, he, rfl⟩ := List.mem_map.1 hb
        have := (i2 e he).1
        omega

/-- The array `vector_exchange_recv` lists each requested index under its owner. -/
structure RecvOK (size : Nat) (gtp : Nat → Nat) (cur : List Nat) (R : List (Nat × List Nat)) : Prop where
  all : R.flatMap (·.2) = cur
  own : ∀ e ∈ R, e.2 ≠ [] ∧ e.1 < size ∧ ∀ g ∈ e.2, Owns size gtp e.1 g
  nodup : (R.map (·.1)).Nodup

theorem buildRecv_spec (size : Nat) (gtp : Nat → Nat) (h : Intervals size gtp) (cur : List Nat) (hs : cur.Pairwise (· < ·)) (hhi : ∀ g ∈ cur, g < gtp size) :
    ∃ R, buildRecv size gtp cur = some R ∧ RecvOK size gtp cur R := by
  unfold buildRecv
  cases hc : cur with
  | nil => exact ⟨[], rfl, ⟨rfl, fun e he => (by cases he), List.nodup_nil⟩⟩
  | cons a cs =>
    have hne : a :: cs ≠ [] := by simp
    have hb : (a :: cs).getLast? = some ((a :: cs).getLast hne) := List.getLast?_eq_getLast_of_ne_nil hne
    generalize hbb : (a :: cs).getLast hne = b at hb
    have hbmem : b ∈ a :: cs := by rw [← hbb]; exact List.getLast_mem hne
    have hmin : ∀ g ∈ a :: cs, a ≤ g := by
      intro g hg
      rcases List.mem_cons.1 hg with h' | h'
      · omega
      · rw [hc] at hs; exact ((List.pairwise_cons.1 hs).1 g h').le
    have hmax : ∀ g ∈ a :: cs, g ≤ b := by
      intro g hg
      rw [hc] at hs
      have happ : (a :: cs).dropLast ++ [b] = a :: cs := by rw [← hbb]; exact List.dropLast_append_getLast hne
      rw [← happ] at hg hs
      rcases List.mem_append.1 hg with h' | h'
      · exact ((List.pairwise_append.1 hs).2.2 g h' b (by simp)).le
      · simp at h'; omega
    obtain ⟨pb, hpb, ob⟩ := getProcessor_owner size gtp h a (hhi a (by rw [hc]; simp))
    obtain ⟨pe, hpe, oe⟩ := getProcessor_owner size gtp h b (hhi b (by rw [hc]; exact hbmem))
    have hle : pb ≤ pe := by
      by_contra hlt
      have h1 := h.le (show pe + 1 ≤ pb by omega) (by have := ob.1; omega)
      have h2 := hmin b hbmem
      have h3 := ob.2.1
      have h4 := oe.2.2
      omega
    have hspec := recvLoop_spec size gtp (pe + 1 - pb) pb (a :: cs) (hc ▸ hs) (fun g hg => le_trans ob.2.1 (hmin g hg))
      (fun g hg => by rw [show pb + (pe + 1 - pb) = pe + 1 by omega]; exact lt_of_le_of_lt (hmax g hg) oe.2.2) (by have := oe.1; omega)
    refine ⟨recvLoop gtp (List.range' pb (pe + 1 - pb)) (a :: cs), ?_, ⟨hspec.1, fun e he => ?_, ?_⟩⟩
    · simp only [List.head?_cons, hb, hpb, hpe]
    · obtain ⟨j1, j2, j3, j4⟩ := hspec.2.1 e he
      have := oe.1
      exact ⟨j3, by omega, j4⟩
    · exact hspec.2.2.imp (fun h => Nat.ne_of_lt h)

/-! ### The map of external indices -/

/-- The map gives consecutive local numbers to distinct external indices. -/
structure MapOK (N lb le : Nat) (m : List (Nat × Nat)) : Prop where
  vals : m.map (·.2) = List.range' le m.length
  nodup : (m.map (·.1)).Nodup
  ext : ∀ g ∈ m.map (·.1), (g < lb ∨ g ≥ le) ∧ g < N

theorem lookup_none (m : List (Nat × Nat)) (g : Nat) : lookup m g = none ↔ g ∉ m.map (·.1) := by
  unfold lookup
  simp only [Option.map_eq_none_iff, List.find?_eq_none, beq_iff_eq, List.mem_map, not_exists, not_and]

theorem lookup_some (m : List (Nat × Nat)) (h : (m.map (·.1)).Nodup) (g v : Nat) : lookup m g = some v ↔ (g, v) ∈ m := by
  unfold lookup
  constructor
  · intro hl
    rw [Option.map_eq_some_iff] at hl
    obtain ⟨e, he, hv⟩ := hl
    have h1 := List.find?_some he
    have h2 := List.mem_of_find?_eq_some he
    obtain ⟨a, b⟩ := e
    simp only [beq_iff_eq] at h1 hv
    subst h1 hv
    exact h2
  · intro hmem
    cases hf : m.find? (fun e => e.1 == g) with
    | none =>
      rw [List.find?_eq_none] at hf
      exact absurd (by simp) (hf _ hmem)
    | some e =>
      have h1 := List.find?_some hf
      have h2 := List.mem_of_find?_eq_some hf
      obtain ⟨a, b⟩ := e
      simp only [beq_iff_eq] at h1
      subst h1
      have := List.inj_on_of_nodup_map h h2 hmem rfl
      rw [this]; rfl

theorem lookup_idx (N lb le : Nat) (m : List (Nat × Nat)) (h : MapOK N lb le m) (i g : Nat) (hi : (m.map (·.1))[i]? = some g) :
    lookup m g = some (le + i) := by
  rw [lookup_some m h.nodup]
  have hlt : i < m.length := by
    rcases Nat.lt_or_ge i m.length with h' | h'
    · exact h'
    · rw [List.getElem?_eq_none (by simpa using h')] at hi; cases hi
  have h2 : (m.map (·.2))[i]? = some (le + i) := by
    rw [h.vals, List.getElem?_range' hlt]; simp
  rw [List.getElem?_map] at hi h2
  cases hm : m[i]? with
  | none => rw [hm] at hi; cases hi
  | some e =>
    rw [hm] at hi h2
    simp only [Option.map_some, Option.some.injEq] at hi h2
    have := List.mem_of_getElem? hm
    rw [← hi, ← h2]
    exact this

theorem lookup_mem (N lb le : Nat) (m : List (Nat × Nat)) (h : MapOK N lb le m) (g : Nat) (hg : g ∈ m.map (·.1)) :
    ∃ i, i < m.length ∧ lookup m g = some (le + i) ∧ (m.map (·.1))[i]? = some g := by
  obtain ⟨i, hi⟩ := List.getElem?_of_mem hg
  refine ⟨i, ?_, lookup_idx N lb le m h i g hi, hi⟩
  rcases Nat.lt_or_ge i m.length with h' | h'
  · exact h'
  · rw [List.getElem?_eq_none (by simpa using h')] at hi; cases hi

/-- The result of scanning the columns of rows. -/
theorem scan_fold (N lb le : Nat) (last : Bool) (hle : 0 < le ∨ N = 0) (inds : List Nat) (hN : ∀ i ∈ inds, i < N) (m cur : List (Nat × Nat)) (hm : MapOK N lb le m) :
    ∃ new, MapOK N lb le (m ++ new) ∧ (∀ i ∈ inds, (lb ≤ i ∧ i < le) ∨ i ∈ (m ++ new).map (·.1)) ∧
      inds.foldl (scanIndex lb le last) (m, le + m.length, cur) = (m ++ new, le + (m ++ new).length, if last then cur else cur ++ new) := by
  induction inds generalizing m cur with
  | nil => exact ⟨[], by simpa using hm, fun i hi => (by cases hi), by cases last <;> simp⟩
  | cons i inds ih =>
    have hi : i < N := hN i (by simp)
    have hN' : ∀ j ∈ inds, j < N := fun j hj => hN j (by simp [hj])
    rw [List.foldl_cons]
    by_cases hext : i < lb ∨ i ≥ le
    · by_cases hmem : i ∈ m.map (·.1)
      · obtain ⟨v, hv1, hv2, _⟩ := lookup_mem N lb le m hm i hmem
        have hstep : scanIndex lb le last (m, le + m.length, cur) i = (m, le + m.length, cur) := by
          unfold scanIndex
          rw [if_pos hext]
          simp only [hv2, Option.getD_some]
          rw [if_neg (by omega)]
        rw [hstep]
        obtain ⟨new, h1, h2, h3⟩ := ih hN' m cur hm
        refine ⟨new, h1, fun j hj => ?_, h3⟩
        rcases List.mem_cons.1 hj with h | h
        · subst h; right; rw [List.map_append]; exact List.mem_append_left _ hmem
        · exact h2 j h
      · have hl : lookup m i = none := (lookup_none m i).2 hmem
        have hfil : m.filter (fun e => e.1 != i) = m := by
          rw [List.filter_eq_self]
          intro e he
          simp only [bne_iff_ne, ne_eq]
          rintro rfl
          exact hmem (List.mem_map.2 ⟨e, he, rfl⟩)
        have hstep : scanIndex lb le last (m, le + m.length, cur) i =
            (m ++ [(i, le + m.length)], le + (m ++ [(i, le + m.length)]).length, if last then cur else cur ++ [(i, le + m.length)]) := by
          unfold scanIndex
          rw [if_pos hext]
          simp only [hl, Option.getD_none, if_true, hfil]
          simp [Nat.add_assoc]
        rw [hstep]
        have hm' : MapOK N lb le (m ++ [(i, le + m.length)]) := by
          refine ⟨?_, ?_, ?_⟩
          · simp [hm.vals, List.range'_concat]
          · rw [List.map_append, List.nodup_append]
            refine ⟨hm.nodup, by simp, ?_⟩
            intro a ha b hb hab
            simp at hb
            subst hb hab
            exact hmem ha
          · intro g hg
            rw [List.map_append, List.mem_append] at hg
            rcases hg with hg | hg
            · exact hm.ext g hg
            · simp at hg; subst hg; exact ⟨hext, hi⟩
        obtain ⟨new, h1, h2, h3⟩ := ih hN' (m ++ [(i, le + m.length)]) (if last then cur else cur ++ [(i, le + m.length)]) hm'
        refine ⟨(i, le + m.length) :: new, by simpa using h1, fun j hj => ?_, ?_⟩
        · rcases List.mem_cons.1 hj with h | h
          · subst h; right; simp
          · have := h2 j h; simpa using this
        · rw [h3]
          cases last <;> simp
    · have hstep : scanIndex lb le last (m, le + m.length, cur) i = (m, le + m.length, cur) := by
        unfold scanIndex
        rw [if_neg hext]
      rw [hstep]
      obtain ⟨new, h1, h2, h3⟩ := ih hN' m cur hm
      refine ⟨new, h1, fun j hj => ?_, h3⟩
      rcases List.mem_cons.1 hj with h | h
      · subst h; left; omega
      · exact h2 j h

/-! ### Received rows -/

theorem foldUpd_not {α : Type} (f : α → Nat) (v : α → Row K) (l : List α) (rows : Nat → Row K) (k : Nat) (hk : ∀ e ∈ l, f e ≠ k) :
    l.foldl (fun rows e => fun k => if k = f e then v e else rows k) rows k = rows k := by
  induction l generalizing rows with
  | nil => rfl
  | cons e l ih =>
    rw [List.foldl_cons, ih _ (fun e' he' => hk e' (by simp [he']))]
    exact if_neg (fun h => hk e (by simp) h.symm)

theorem foldUpd_mem {α : Type} (f : α → Nat) (v : α → Row K) (l : List α) (rows : Nat → Row K) (hn : (l.map f).Nodup) (e : α) (he : e ∈ l) :
    l.foldl (fun rows e => fun k => if k = f e then v e else rows k) rows (f e) = v e := by
  induction l generalizing rows with
  | nil => cases he
  | cons a l ih =>
    simp only [List.map_cons, List.nodup_cons] at hn
    rw [List.foldl_cons]
    rcases List.mem_cons.1 he with h | h
    · subst h
      rw [foldUpd_not]
      · exact if_pos rfl
      · intro e' he' heq
        exact hn.1 (List.mem_map.2 ⟨e', he', heq⟩)
    · exact ih _ hn.2 h

theorem putRows_eq (m : List (Nat × Nat)) (source : Nat → Nat → Row K) (R : List (Nat × List Nat)) (rows : Nat → Row K) :
    putRows m source R rows = (R.flatMap fun e => e.2.map fun r => (e.1, r)).foldl
      (fun rows e => fun k => if k = (lookup m e.2).getD 0 then source e.1 e.2 else rows k) rows := by
  unfold putRows
  induction R generalizing rows with
  | nil => rfl
  | cons e R ih =>
    rw [List.foldl_cons, ih, List.flatMap_cons, List.foldl_append, List.foldl_map]

/-! ### Requests -/

theorem mem_requests (size : Nat) (R : Nat → List (Nat × List Nat)) (q p : Nat) (l : List Nat) :
    (p, l) ∈ requests size R q ↔ p < size ∧ (q, l) ∈ R p := by
  unfold requests
  simp only [List.mem_flatMap, List.mem_range, List.mem_filterMap]
  constructor
  · rintro ⟨p', hp', e, he, h⟩
    split at h
    · rename_i h1
      injection h with h
      injection h with h2 h3
      subst h1 h2 h3
      exact ⟨hp', he⟩
    · cases h
  · rintro ⟨hp, h⟩
    exact ⟨p, hp, (q, l), h, by simp⟩

theorem requests_nodup (size : Nat) (R : Nat → List (Nat × List Nat)) (q : Nat) (h : ∀ p, p < size → ((R p).map (·.1)).Nodup) :
    ((requests size R q).map (·.1)).Nodup := by
  unfold requests
  rw [List.map_flatMap, List.nodup_flatMap]
  constructor
  · intro p hp
    have hn := h p (by simpa using hp)
    generalize R p = L at hn
    induction L with
    | nil => simp
    | cons e L ih =>
      simp only [List.map_cons, List.nodup_cons] at hn
      rw [List.filterMap_cons]
      by_cases he : e.1 = q
      · rw [if_pos he]
        have hnil : List.filterMap (fun e => if e.1 = q then some (p, e.2) else none) L = [] := by
          rw [List.filterMap_eq_nil_iff]
          intro e' he'
          rw [if_neg]
          intro h'
          exact hn.1 (List.mem_map.2 ⟨e', he', by rw [h', he]⟩)
        rw [hnil]; simp
      · rw [if_neg he]
        exact ih hn.2
  · refine List.Pairwise.imp_of_mem (R := (· ≠ ·)) ?_ List.nodup_range
    intro a b _ _ hab
    simp only [Function.onFun, List.disjoint_left]
    intro x hx hy
    simp only [List.mem_map, List.mem_filterMap] at hx hy
    obtain ⟨e, ⟨e1, _, h1⟩, rfl⟩ := hx
    obtain ⟨e', ⟨e2, _, h2⟩, h3⟩ := hy
    split at h1
    · split at h2
      · injection h1 with h1; injection h2 with h2
        subst h1 h2
        exact hab h3.symm
      · cases h2
    · cases h1

end Verif.OrderInfo
