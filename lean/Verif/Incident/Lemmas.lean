import Verif.Incident.Spec
import Mathlib.Data.List.Perm.Subperm

namespace Verif.Incident
variable {C R K : Type} [DecidableEq C] [DecidableEq R]

/-! ### Rows -/

theorem addRows_mem : ∀ (l acc : List R) (r : R), r ∈ addRows acc l ↔ r ∈ acc ∨ r ∈ l
  | [], acc, r => by simp [addRows]
  | x :: xs, acc, r => by
    unfold addRows
    split
    · next h =>
      rw [addRows_mem xs acc r, List.mem_cons]
      constructor
      · rintro (h | h)
        · exact Or.inl h
        · exact Or.inr (Or.inr h)
      · rintro (h' | rfl | h')
        · exact Or.inl h'
        · exact Or.inl h
        · exact Or.inr h'
    · rw [addRows_mem xs _ r, List.mem_append, List.mem_singleton, List.mem_cons]
      tauto

theorem foldRows_mem (low : C → List R) : ∀ (cs : List C) (acc : List R) (r : R),
    r ∈ cs.foldl (fun acc c => addRows acc (low c)) acc ↔ r ∈ acc ∨ ∃ c ∈ cs, r ∈ low c
  | [], acc, r => by simp
  | c :: cs, acc, r => by
    rw [List.foldl_cons, foldRows_mem low cs, addRows_mem]
    simp only [List.mem_cons, exists_eq_or_imp]
    tauto

theorem mem_rows {M : Mat C R} {r : R} : r ∈ M.rows ↔ ∃ c ∈ M.cols, r ∈ M.low c := by
  unfold Mat.rows
  rw [foldRows_mem]
  simp

theorem hit_spec {M : Mat C R} {k : Nat} {r : R} : M.hit k r = true ↔ ∃ c, M.cols[k]? = some c ∧ r ∈ M.low c := by
  unfold Mat.hit
  cases M.cols[k]? <;> simp

theorem hit_row {M : Mat C R} {k : Nat} {r : R} (h : M.hit k r = true) : r ∈ M.rows := by
  obtain ⟨c, hc, hr⟩ := hit_spec.1 h
  exact mem_rows.2 ⟨c, List.mem_of_getElem? hc, hr⟩

theorem hit_of {M : Mat C R} {k : Nat} {c : C} (h : M.cols[k]? = some c) (r : R) :
    M.hit k r = decide (r ∈ M.low c) := by unfold Mat.hit; rw [h]

/-! ### The elements of a list of columns -/

theorem elements_some {M : Mat C R} : ∀ {o : List Nat}, (∀ k ∈ o, k < M.cols.length) →
    ∃ l, elements M o = some l
  | [], _ => ⟨[], rfl⟩
  | k :: ks, h => by
    obtain ⟨l, hl⟩ := elements_some (o := ks) fun q hq => h q (List.mem_cons_of_mem _ hq)
    refine ⟨M.cols[k]'(h k (by simp)) :: l, ?_⟩
    unfold elements
    rw [hl, List.getElem?_eq_getElem (h k (by simp))]

theorem elements_cons {M : Mat C R} {k : Nat} {ks : List Nat} {l : List C} (h : elements M (k :: ks) = some l) :
    ∃ c l', M.cols[k]? = some c ∧ elements M ks = some l' ∧ l = c :: l' := by
  unfold elements at h
  split at h
  · next c l' h1 h2 => exact ⟨c, l', h1, h2, by cases h; rfl⟩
  · cases h

theorem elements_length {M : Mat C R} : ∀ {o : List Nat} {l : List C}, elements M o = some l →
    l.length = o.length
  | [], l, h => by cases h; rfl
  | k :: ks, l, h => by
    obtain ⟨c, l', -, h2, rfl⟩ := elements_cons h
    simp [elements_length h2]

theorem elements_get {M : Mat C R} : ∀ {o : List Nat} {l : List C} (i : Nat), elements M o = some l →
    l[i]? = (o[i]?).bind fun k => M.cols[k]?
  | [], l, i, h => by cases h; rfl
  | k :: ks, l, i, h => by
    obtain ⟨c, l', h1, h2, rfl⟩ := elements_cons h
    cases i with
    | zero => simp [h1]
    | succ i => simpa using elements_get i h2

theorem elements_mem {M : Mat C R} : ∀ {o : List Nat} {l : List C}, elements M o = some l → ∀ c,
    c ∈ l ↔ ∃ k ∈ o, M.cols[k]? = some c
  | [], l, h, c => by cases h; simp
  | k :: ks, l, h, c => by
    obtain ⟨c', l', h1, h2, rfl⟩ := elements_cons h
    rw [List.mem_cons, elements_mem h2]
    simp only [List.mem_cons, exists_eq_or_imp, h1, Option.some.injEq]
    constructor
    · rintro (rfl | h)
      · exact Or.inl rfl
      · exact Or.inr h
    · rintro (rfl | h)
      · exact Or.inl rfl
      · exact Or.inr h

theorem elements_uses {M : Mat C R} (r : R) : ∀ {o : List Nat} {l : List C}, elements M o = some l →
    uses M.low r l = o.countP fun k => M.hit k r
  | [], l, h => by cases h; rfl
  | k :: ks, l, h => by
    obtain ⟨c, l', h1, h2, rfl⟩ := elements_cons h
    have := elements_uses r h2
    unfold uses at this ⊢
    rw [List.countP_cons, List.countP_cons, this, hit_of h1]

theorem elements_nodup {M : Mat C R} (hd : M.cols.Nodup) : ∀ {o : List Nat} {l : List C},
    elements M o = some l → o.Nodup → l.Nodup
  | [], l, h, _ => by cases h; simp
  | k :: ks, l, h, hn => by
    obtain ⟨c, l', h1, h2, rfl⟩ := elements_cons h
    rw [List.nodup_cons] at hn ⊢
    refine ⟨fun hc => ?_, elements_nodup hd h2 hn.2⟩
    obtain ⟨q, hq, hqc⟩ := (elements_mem h2 c).1 hc
    obtain ⟨h3, h4⟩ := List.getElem?_eq_some_iff.1 h1
    obtain ⟨h5, h6⟩ := List.getElem?_eq_some_iff.1 hqc
    have : k = q := (List.getElem_inj hd).1 (h4.trans h6.symm)
    exact hn.1 (this ▸ hq)

/-! ### The invariant -/

/-- A closed loop of columns that may still be used. -/
structure IxLoop (M : Mat C R) (vis : Nat → Int) (o : List Nat) : Prop where
  ne : o ≠ []
  nodup : o.Nodup
  lt : ∀ k ∈ o, k < M.cols.length
  live : ∀ k ∈ o, 0 < vis k
  closed : ∀ r, (o.countP fun k => M.hit k r) = 0 ∨ (o.countP fun k => M.hit k r) = 2

structure BestOk (W : Meas C K) (M : Mat C R) (vis : Nat → Int) (first : Nat) (s : St C R K) : Prop where
  ok : s.best = [] ∨ ∃ o, IxLoop M vis o ∧ o.head? = some first ∧ elements M o = some s.best ∧
    s.bm = W.total s.best
  big : s.best = [] → s.bm = W.big

structure Inv (W : Meas C K) (M : Mat C R) (vis : Nat → Int) (first : Nat) (s : St C R K) : Prop where
  nodup : s.order.Nodup
  lt : ∀ k ∈ s.order, k < M.cols.length
  shown : ∀ k, s.shown k = true ↔ k ∈ s.order
  cnt : ∀ r, s.cnt r = s.order.countP fun k => M.hit k r
  le : ∀ r, s.cnt r ≤ 2
  live : ∀ k ∈ s.order, 0 < vis k
  stub : ∀ r, s.stub r = true → 0 < s.cnt r
  head : s.order ≠ [] → s.order.head? = some first
  best : BestOk W M vis first s

/-- The search leaves the selection as it was. -/
structure Same (s s' : St C R K) : Prop where
  order : s'.order = s.order
  shown : s'.shown = s.shown
  cnt : s'.cnt = s.cnt

theorem Same.refl (s : St C R K) : Same s s := ⟨rfl, rfl, rfl⟩
theorem Same.trans {s s' s'' : St C R K} (h : Same s s') (h' : Same s' s'') : Same s s'' :=
  ⟨h'.order.trans h.order, h'.shown.trans h.shown, h'.cnt.trans h.cnt⟩

/-- The best loop only improves. -/
structure Mono (le : K → K → Prop) (s s' : St C R K) : Prop where
  ne : s.best ≠ [] → s'.best ≠ []
  size : s.best ≠ [] → s'.best.length ≤ s.best.length
  bm : s.best ≠ [] → le s'.bm s.bm

/-- What the comparisons of the measures must satisfy for the best loop to improve. -/
structure Cmp (W : Meas C K) (M : Mat C R) (vis : Nat → Int) (le : K → K → Prop) : Prop where
  refl : ∀ a, le a a
  trans : ∀ a b c, le a b → le b c → le a c
  ge : ∀ o l o' l', IxLoop M vis o → elements M o = some l → IxLoop M vis o' → elements M o' = some l' →
    W.ge (W.total l) (W.total l') = true → le (W.total l') (W.total l)

theorem Cmp.trivial (W : Meas C K) (M : Mat C R) (vis : Nat → Int) : Cmp W M vis fun _ _ => True :=
  ⟨fun _ => True.intro, fun _ _ _ _ _ => True.intro, fun _ _ _ _ _ _ _ _ _ => True.intro⟩

theorem Mono.same {le : K → K → Prop} (hr : ∀ a, le a a) {s s' : St C R K} (hb : s'.best = s.best)
    (hm : s'.bm = s.bm) : Mono le s s' :=
  ⟨fun h => by rw [hb]; exact h, fun _ => by rw [hb]; exact Nat.le_refl _, fun _ => by rw [hm]; exact hr _⟩

theorem Mono.trans {le : K → K → Prop} (ht : ∀ a b c, le a b → le b c → le a c) {s s' s'' : St C R K}
    (h : Mono le s s') (h' : Mono le s' s'') : Mono le s s'' :=
  ⟨fun hn => h'.ne (h.ne hn), fun hn => Nat.le_trans (h'.size (h.ne hn)) (h.size hn),
    fun hn => ht _ _ _ (h'.bm (h.ne hn)) (h.bm hn)⟩

variable {W : Meas C K} {M : Mat C R} {vis : Nat → Int} {first : Nat} {le : K → K → Prop}

theorem BestOk.congr {s s' : St C R K} (h : BestOk W M vis first s) (hb : s'.best = s.best)
    (hm : s'.bm = s.bm) : BestOk W M vis first s' :=
  ⟨by rw [hb, hm]; exact h.ok, by rw [hb, hm]; exact h.big⟩

/-! ### Showing and hiding a column -/

theorem count_snoc (o : List Nat) (k : Nat) (r : R) :
    ((o ++ [k]).countP fun k => M.hit k r) = (o.countP fun k => M.hit k r) + if M.hit k r then 1 else 0 := by
  rw [List.countP_append, List.countP_cons, List.countP_nil]
  omega

/-- Hiding the column shown last. -/
theorem hide_last {s : St C R K} {o : List Nat} {k : Nat} (ho : s.order = o ++ [k]) (hk : s.shown k = true)
    (hc : ∀ r, s.cnt r = s.order.countP fun q => M.hit q r) :
    hide M k s = some { s with
      shown := fun q => if q = k then false else s.shown q
      cnt := fun r => if M.hit k r then s.cnt r - 1 else s.cnt r
      stub := fun r => if M.hit k r && s.cnt r - 1 == 0 then false else s.stub r
      order := o } := by
  have hpos : ∀ r, M.hit k r = true → 0 < s.cnt r := by
    intro r hr
    rw [hc, ho, count_snoc, hr]
    simp
  unfold hide
  rw [if_pos hk, if_neg]
  · rw [ho, List.dropLast_concat]
  · rintro (h | h)
    · rw [ho] at h; simp at h
    · obtain ⟨r, -, hr⟩ := List.any_eq_true.1 h
      rw [Bool.and_eq_true, beq_iff_eq] at hr
      have := hpos r hr.1
      omega

/-- Hiding the column that was shown gives the selection before. -/
theorem hide_back {s t : St C R K} {k : Nat} (I : Inv W M vis first s) (hk : s.shown k = false)
    (ho : t.order = s.order ++ [k]) (hs : t.shown = (shownSt M k s).shown)
    (hc : t.cnt = (shownSt M k s).cnt) (hst : ∀ r, t.stub r = true → 0 < t.cnt r)
    (hb : BestOk W M vis first t) :
    ∃ s', hide M k t = some s' ∧ Same s s' ∧ Inv W M vis first s' ∧ s'.best = t.best ∧ s'.bm = t.bm := by
  have hc' : ∀ r, t.cnt r = t.order.countP fun q => M.hit q r := by
    intro r
    rw [hc, ho, count_snoc, ← I.cnt]
    show (if M.hit k r then s.cnt r + 1 else s.cnt r) = _
    split <;> rfl
  have hS : Same s { t with
      shown := fun q => if q = k then false else t.shown q
      cnt := fun r => if M.hit k r then t.cnt r - 1 else t.cnt r
      stub := fun r => if M.hit k r && t.cnt r - 1 == 0 then false else t.stub r
      order := s.order } := by
    refine ⟨rfl, ?_, ?_⟩
    · funext q
      show (if q = k then false else t.shown q) = s.shown q
      rw [hs]
      show (if q = k then false else if q = k then true else s.shown q) = s.shown q
      split
      · next h => rw [h, hk]
      · rfl
    · funext r
      show (if M.hit k r then t.cnt r - 1 else t.cnt r) = s.cnt r
      rw [hc]
      show (if M.hit k r then (if M.hit k r then s.cnt r + 1 else s.cnt r) - 1
        else if M.hit k r then s.cnt r + 1 else s.cnt r) = s.cnt r
      cases M.hit k r <;> simp
  refine ⟨_, hide_last ho (by rw [hs]; show (if k = k then true else _) = true; simp) hc', hS, ?_, rfl, rfl⟩
  refine ⟨I.nodup, I.lt, ?_, ?_, ?_, I.live, ?_, I.head, hb.congr rfl rfl⟩
  · intro q; rw [hS.shown]; exact I.shown q
  · intro r; rw [hS.cnt]; exact I.cnt r
  · intro r; rw [hS.cnt]; exact I.le r
  · intro r hr
    change (if M.hit k r && t.cnt r - 1 == 0 then false else t.stub r) = true at hr
    rw [hS.cnt]
    split at hr
    · cases hr
    · next h =>
      have h1 := hst r hr
      have h2 : t.cnt r = if M.hit k r then s.cnt r + 1 else s.cnt r := by rw [hc]; rfl
      cases hh : M.hit k r
      · rw [hh] at h2; simp at h2; omega
      · rw [hh] at h h2
        simp at h h2
        omega

theorem any_rows {k : Nat} {p : R → Bool} :
    M.rows.any (fun r => M.hit k r && p r) = true ↔ ∃ r, M.hit k r = true ∧ p r = true := by
  rw [List.any_eq_true]
  constructor
  · rintro ⟨r, -, h⟩
    exact ⟨r, (Bool.and_eq_true _ _ ▸ h : _ ∧ _)⟩
  · rintro ⟨r, h, h'⟩
    exact ⟨r, hit_row h, by rw [h, h']; rfl⟩

/-- `do_show_row` on a hidden column. -/
theorem show_spec {s : St C R K} {k : Nat} (I : Inv W M vis first s) (hk : s.shown k = false)
    (hlt : k < M.cols.length) (hv : 0 < vis k) (hf : s.order ≠ [] ∨ k = first) :
    ((∃ r, M.hit k r = true ∧ s.cnt r = 2) ∧
      ∃ s', «show» M k s = some (false, s') ∧ Same s s' ∧ Inv W M vis first s' ∧ s'.best = s.best ∧
        s'.bm = s.bm) ∨
    ((∀ r, M.hit k r = true → s.cnt r ≤ 1) ∧ «show» M k s = some (true, shownSt M k s) ∧
      Inv W M vis first (shownSt M k s)) := by
  have hcv : ∀ r, (shownSt M k s).cnt r = if M.hit k r then s.cnt r + 1 else s.cnt r := fun _ => rfl
  have hstub : ∀ r, (shownSt M k s).stub r = true → 0 < (shownSt M k s).cnt r := by
    intro r hr
    have := I.stub r hr
    rw [hcv]; split <;> omega
  by_cases h : ∃ r, M.hit k r = true ∧ 2 < (shownSt M k s).cnt r
  · left
    obtain ⟨r, h1, h2⟩ := h
    refine ⟨⟨r, h1, ?_⟩, ?_⟩
    · have := I.le r
      rw [hcv, h1] at h2
      simp at h2
      omega
    · obtain ⟨s', e1, e2, e3, e4, e5⟩ := hide_back (t := shownSt M k s) I hk rfl rfl rfl hstub
        (I.best.congr rfl rfl)
      refine ⟨s', ?_, e2, e3, e4, e5⟩
      unfold «show»
      rw [if_neg (by rw [hk]; simp), if_pos (any_rows.2 ⟨r, h1, decide_eq_true h2⟩), e1]
  · right
    refine ⟨?_, ?_, ?_⟩
    · intro r hr
      refine Nat.le_of_not_lt fun h' => h ⟨r, hr, ?_⟩
      rw [hcv, hr]; simp; omega
    · unfold «show»
      rw [if_neg (by rw [hk]; simp), if_neg]
      intro h'
      obtain ⟨r, h1, h2⟩ := any_rows.1 h'
      exact h ⟨r, h1, of_decide_eq_true h2⟩
    · have hno : k ∉ s.order := fun h => by rw [(I.shown k).2 h] at hk; cases hk
      refine ⟨?_, ?_, ?_, ?_, ?_, ?_, hstub, ?_, I.best.congr rfl rfl⟩
      · show (s.order ++ [k]).Nodup
        rw [List.nodup_append]
        refine ⟨I.nodup, by simp, ?_⟩
        rintro a ha b hb rfl
        rw [List.mem_singleton] at hb
        exact hno (hb ▸ ha)
      · intro q hq
        rcases List.mem_append.1 hq with hq | hq
        · exact I.lt q hq
        · rw [List.mem_singleton.1 hq]; exact hlt
      · intro q
        show (if q = k then true else s.shown q) = true ↔ q ∈ s.order ++ [k]
        rw [List.mem_append, List.mem_singleton, ← I.shown]
        split <;> simp_all
      · intro r
        show _ = (s.order ++ [k]).countP _
        rw [count_snoc, ← I.cnt, hcv]; split <;> rfl
      · intro r
        have h1 := I.le r
        rw [hcv]
        cases hh : M.hit k r
        · simpa using h1
        · refine Nat.le_of_not_lt fun h' => h ⟨r, hh, ?_⟩
          rw [hcv, hh]; exact h'
      · intro q hq
        rcases List.mem_append.1 hq with hq | hq
        · exact I.live q hq
        · rw [List.mem_singleton.1 hq]; exact hv
      · intro _
        show (s.order ++ [k]).head? = some first
        by_cases hn : s.order = []
        · rw [hn]
          rcases hf with hf | hf
          · exact absurd hn hf
          · simp [hf]
        · rw [List.head?_append, I.head hn]; rfl

/-! ### The search -/

theorem success_iff {s : St C R K} (I : Inv W M vis first s) : success M s = true ↔ ∀ r, s.cnt r ≠ 1 := by
  unfold success
  rw [List.all_eq_true]
  constructor
  · intro h r hr
    by_cases hm : r ∈ M.rows
    · have := h r hm
      rw [hr] at this; cases this
    · rw [I.cnt] at hr
      have h0 : (s.order.countP fun k => M.hit k r) = 0 := by
        rw [List.countP_eq_zero]
        intro k _ hk
        exact hm (hit_row hk)
      omega
  · intro h r _
    exact bne_iff_ne.2 (h r)

theorem Inv.ixLoop {s : St C R K} (I : Inv W M vis first s) (hn : s.order ≠ []) (hs : success M s = true) :
    IxLoop M vis s.order := by
  refine ⟨hn, I.nodup, I.lt, I.live, fun r => ?_⟩
  have h1 := (success_iff I).1 hs r
  have h2 := I.le r
  rw [I.cnt] at h1 h2
  omega

/-- Recording a loop. -/
theorem record_spec {s : St C R K} {length : Nat} (Cm : Cmp W M vis le) (I : Inv W M vis first s)
    (hn : s.order ≠ []) (hs : success M s = true) (hl : s.order.length = length)
    (hp : s.best = [] ∨ length ≤ s.best.length) :
    ∃ s' l, record W M length s = some s' ∧ elements M s.order = some l ∧ Same s s' ∧ s'.stub = s.stub ∧
      Inv W M vis first s' ∧ Mono le s s' ∧
      (s' = s ∨ s'.best = l) ∧
      ((s.best = [] → W.close W.big (W.total l) = false) → (s' = s ∧ s.best ≠ [] ∧
        W.ge s.bm (W.total l) = false) ∨ (s'.best = l ∧ s'.bm = W.total l)) := by
  obtain ⟨l, hle⟩ := elements_some I.lt
  have hlen := elements_length hle
  have hX := I.ixLoop hn hs
  unfold record
  rw [if_neg (by simp [hl]), hle]
  dsimp only
  split
  · next h =>
    have hne : l ≠ [] := fun h => hn (List.length_eq_zero_iff.1 (by rw [← hlen, h]; rfl))
    refine ⟨_, l, rfl, rfl, ⟨rfl, rfl, rfl⟩, rfl, ?_, ⟨fun _ => hne, fun hb => ?_, fun hb => ?_⟩, Or.inr rfl,
      fun _ => Or.inr ⟨rfl, rfl⟩⟩
    · refine ⟨I.nodup, I.lt, I.shown, I.cnt, I.le, I.live, I.stub, I.head, ?_, ?_⟩
      · exact Or.inr ⟨s.order, hX, I.head hn, hle, rfl⟩
      · intro h; exact absurd h hne
    · show l.length ≤ s.best.length
      rcases hp with hp | hp
      · exact absurd hp hb
      · omega
    · show le (W.total l) s.bm
      rcases I.best.ok with h' | ⟨o, h1, -, h2, h3⟩
      · exact absurd h' hb
      · rw [h3]
        refine Cm.ge o s.best s.order l h1 h2 hX hle ?_
        rw [← h3]
        rcases h.1 with h | h
        · exact absurd h hb
        · exact h
  · next h =>
    refine ⟨s, l, rfl, rfl, Same.refl s, rfl, I, Mono.same Cm.refl rfl rfl, Or.inl rfl, fun hc => Or.inl ?_⟩
    by_cases hb : s.best = []
    · exfalso
      refine h ⟨Or.inl hb, fun h' => ?_⟩
      rw [I.best.big hb, hc hb] at h'
      cases h'.1
    · refine ⟨rfl, hb, ?_⟩
      cases hg : W.ge s.bm (W.total l)
      · rfl
      · exfalso
        refine h ⟨Or.inr hg, fun h' => ?_⟩
        rcases hp with hp | hp
        · exact hb hp
        · omega

/-- The result of a recursive call. -/
structure Step (W : Meas C K) (M : Mat C R) (vis : Nat → Int) (first : Nat) (le : K → K → Prop)
    (s s' : St C R K) : Prop where
  same : Same s s'
  inv : Inv W M vis first s'
  mono : Mono le s s'

theorem Step.refl (Cm : Cmp W M vis le) {s : St C R K} (I : Inv W M vis first s) :
    Step W M vis first le s s := ⟨Same.refl s, I, Mono.same Cm.refl rfl rfl⟩

theorem Step.trans (Cm : Cmp W M vis le) {s s' s'' : St C R K} (h : Step W M vis first le s s')
    (h' : Step W M vis first le s' s'') : Step W M vis first le s s'' :=
  ⟨h.same.trans h'.same, h'.inv, Mono.trans Cm.trans h.mono h'.mono⟩

/-- A recursive call that works from every state with the order `o`. -/
def RecOk (W : Meas C K) (M : Mat C R) (vis : Nat → Int) (first : Nat) (le : K → K → Prop) (o : List Nat)
    (rec : Nat → St C R K → Option (St C R K)) : Prop :=
  ∀ q s, Inv W M vis first s → s.order = o → q < M.cols.length → s.shown q = false → 0 < vis q →
    ∃ s', rec q s = some s' ∧ Step W M vis first le s s'

theorem tryRow_spec (Cm : Cmp W M vis le) {o : List Nat} {rec : Nat → St C R K → Option (St C R K)}
    (hr : RecOk W M vis first le o rec) (j : R) : ∀ (qs : List Nat) (s : St C R K),
    (∀ q ∈ qs, q < M.cols.length) → Inv W M vis first s → s.order = o →
    ∃ s', tryRow M vis rec j qs s = some s' ∧ Step W M vis first le s s'
  | [], s, _, I, _ => ⟨s, rfl, Step.refl Cm I⟩
  | q :: qs, s, hq, I, ho => by
    unfold tryRow
    split
    · next h =>
      obtain ⟨s1, e1, S1⟩ := hr q s I ho (hq q (by simp)) h.2.2 h.1
      rw [e1]
      obtain ⟨s2, e2, S2⟩ := tryRow_spec Cm hr j qs s1 (fun x hx => hq x (List.mem_cons_of_mem _ hx)) S1.inv
        (S1.same.order.trans ho)
      exact ⟨s2, e2, S1.trans Cm S2⟩
    · exact tryRow_spec Cm hr j qs s (fun x hx => hq x (List.mem_cons_of_mem _ hx)) I ho

/-- Marking an open row as a dead end. -/
theorem stub_step (Cm : Cmp W M vis le) {s : St C R K} {j : R} (I : Inv W M vis first s) (hj : s.cnt j = 1) :
    Step W M vis first le s { s with stub := fun r => if r = j then true else s.stub r } := by
  refine ⟨⟨rfl, rfl, rfl⟩, ⟨I.nodup, I.lt, I.shown, I.cnt, I.le, I.live, ?_, I.head, I.best.congr rfl rfl⟩,
    Mono.same Cm.refl rfl rfl⟩
  intro r hr
  change (if r = j then true else s.stub r) = true at hr
  show 0 < s.cnt r
  split at hr
  · next h => rw [h, hj]; exact Nat.one_pos
  · exact I.stub r hr

theorem pass_spec (Cm : Cmp W M vis le) {o : List Nat} {rec : Nat → St C R K → Option (St C R K)}
    (hr : RecOk W M vis first le o rec) (node : Nat) (want : Bool) : ∀ (js : List R) (s : St C R K),
    Inv W M vis first s → s.order = o →
    ∃ s' b, pass M vis rec node want js s = some (s', b) ∧ Step W M vis first le s s'
  | [], s, I, _ => ⟨s, false, rfl, Step.refl Cm I⟩
  | j :: js, s, I, ho => by
    unfold pass
    split
    · next h =>
      obtain ⟨s1, e1, S1⟩ := tryRow_spec Cm hr j (List.range M.cols.length) s
        (fun q hq => List.mem_range.1 hq) I ho
      rw [e1]
      dsimp only
      rw [if_pos (by rw [S1.same.cnt]; exact h.2.2)]
      exact ⟨_, true, rfl, S1.trans Cm (stub_step Cm S1.inv (by rw [S1.same.cnt]; exact h.2.2))⟩
    · exact pass_spec Cm hr node want js s I ho

theorem explore_spec (Cm : Cmp W M vis le) {o : List Nat} {rec : Nat → St C R K → Option (St C R K)}
    (hr : RecOk W M vis first le o rec) (node : Nat) (s : St C R K)
    (I : Inv W M vis first s) (ho : s.order = o) :
    ∃ s', explore M vis rec node s = some s' ∧ Step W M vis first le s s' := by
  unfold explore
  obtain ⟨s1, b, e1, S1⟩ := pass_spec Cm hr node true M.rows s I ho
  rw [e1]
  cases b with
  | true => exact ⟨s1, rfl, S1⟩
  | false =>
    dsimp only
    obtain ⟨s2, b', e2, S2⟩ := pass_spec Cm hr node false M.rows s1 S1.inv (S1.same.order.trans ho)
    rw [e2]
    exact ⟨s2, rfl, S1.trans Cm S2⟩

theorem finish_step (Cm : Cmp W M vis le) {s s' : St C R K} (length : Nat)
    (S : Step W M vis first le s s') : Step W M vis first le s (finish length s') := by
  unfold finish
  split
  · exact ⟨⟨S.same.order, S.same.shown, S.same.cnt⟩, ⟨S.inv.nodup, S.inv.lt, S.inv.shown, S.inv.cnt, S.inv.le,
      S.inv.live, (fun r h => by cases h), S.inv.head, S.inv.best.congr rfl rfl⟩,
      Mono.trans Cm.trans S.mono (Mono.same Cm.refl rfl rfl)⟩
  · exact S

theorem visit_spec (Cm : Cmp W M vis le) {rec : Nat → St C R K → Option (St C R K)} {s : St C R K} {k length : Nat}
    (hr : RecOk W M vis first le (s.order ++ [k]) rec) (I : Inv W M vis first s) (hk : s.shown k = false)
    (I1 : Inv W M vis first (shownSt M k s)) (hl : length = s.order.length + 1)
    (hp : s.best = [] ∨ length ≤ s.best.length) :
    ∃ s', visit W M vis rec k length (shownSt M k s) = some s' ∧ Step W M vis first le s s' := by
  have key : ∃ t, (if success M (shownSt M k s) then record W M length (shownSt M k s)
      else explore M vis rec k (shownSt M k s)) = some t ∧ Step W M vis first le (shownSt M k s) t := by
    split
    · next h =>
      obtain ⟨t, l, e1, -, e2, -, e3, e4, -⟩ := record_spec (length := length) Cm I1
        (by show s.order ++ [k] ≠ []; simp) h (by show (s.order ++ [k]).length = _; simp [hl]) hp
      exact ⟨t, e1, e2, e3, e4⟩
    · exact explore_spec Cm hr k _ I1 rfl
  obtain ⟨t, e1, S1⟩ := key
  unfold visit
  rw [e1]
  dsimp only
  obtain ⟨s', e2, e3, e4, e5, e6⟩ := hide_back (t := t) I hk S1.same.order S1.same.shown S1.same.cnt S1.inv.stub
    S1.inv.best
  refine ⟨s', e2, e3, e4, ?_⟩
  exact Mono.trans Cm.trans (Mono.same Cm.refl (s := s) (s' := shownSt M k s) rfl rfl)
    (Mono.trans Cm.trans S1.mono (Mono.same Cm.refl e5 e6))

theorem find_spec (Cm : Cmp W M vis le) : ∀ (f k : Nat) (s : St C R K), Inv W M vis first s →
    s.shown k = false → k < M.cols.length → 0 < vis k → (s.order ≠ [] ∨ k = first) →
    M.cols.length ≤ s.order.length + f →
    ∃ s', find W M vis (f + 1) (s.order.length + 1) k s = some s' ∧ Step W M vis first le s s' := by
  intro f
  induction f with
  | zero =>
    intro k s I hk hlt hv hf hn
    have : (k :: s.order).Nodup := List.nodup_cons.2
      ⟨(fun h => by rw [(I.shown k).2 h] at hk; cases hk), I.nodup⟩
    have h1 : (k :: s.order).length ≤ (List.range M.cols.length).length :=
      (List.subperm_of_subset this fun x hx => by
        rcases List.mem_cons.1 hx with rfl | hx
        · exact List.mem_range.2 hlt
        · exact List.mem_range.2 (I.lt x hx)).length_le
    simp at h1
    omega
  | succ f ih =>
    intro k s I hk hlt hv hf hn
    have hrec : RecOk W M vis first le (s.order ++ [k])
        (find W M vis (f + 1) (s.order.length + 1 + 1)) := by
      intro q s1 I1 ho hq hs hvq
      have hl : s1.order.length = s.order.length + 1 := by rw [ho]; simp
      rw [← hl]
      exact ih q s1 I1 hs hq hvq (Or.inl (by rw [ho]; simp)) (by omega)
    unfold find
    split
    · exact ⟨s, rfl, Step.refl Cm I⟩
    · next hp =>
      have hp' : s.best = [] ∨ s.order.length + 1 ≤ s.best.length := by
        by_cases hb : s.best = []
        · exact Or.inl hb
        · exact Or.inr (Nat.le_of_not_lt fun h => hp ⟨hb, h⟩)
      rcases show_spec I hk hlt hv hf with ⟨-, s1, e1, e2, e3, e4, e5⟩ | ⟨-, e1, I1⟩
      · rw [e1]
        exact ⟨_, rfl, finish_step Cm _ ⟨e2, e3, Mono.same Cm.refl e4 e5⟩⟩
      · rw [e1]
        dsimp only
        obtain ⟨s2, e2, S2⟩ := visit_spec Cm hrec I hk I1 rfl hp'
        rw [e2]
        exact ⟨_, rfl, finish_step Cm _ S2⟩

end Verif.Incident
