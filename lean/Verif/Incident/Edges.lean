import Verif.Incident.Outer

/-! Columns with two rows: edges. -/

namespace Verif.Incident
variable {C R K : Type} [DecidableEq C] [DecidableEq R]
variable {W : Meas C K} {M : Mat C R} {vis : Nat → Int} {first : Nat} {le : K → K → Prop}

/-- Column `k` has the rows `a` and `b` and no others. -/
def Hits (M : Mat C R) (k : Nat) (a b : R) : Prop := ∀ r, M.hit k r = true ↔ r = a ∨ r = b

/-- Every column has two rows. -/
def TwoRows (M : Mat C R) : Prop := ∀ k < M.cols.length, ∃ a b, a ≠ b ∧ Hits M k a b

theorem Hits.symm {k : Nat} {a b : R} (h : Hits M k a b) : Hits M k b a := fun r => by rw [h r, or_comm]

theorem TwoRows.other (h : TwoRows M) {k : Nat} (hk : k < M.cols.length) {x : R} (hx : M.hit k x = true) :
    ∃ y, x ≠ y ∧ Hits M k x y := by
  obtain ⟨a, b, hab, hh⟩ := h k hk
  rcases (hh x).1 hx with rfl | rfl
  · exact ⟨b, hab, hh⟩
  · exact ⟨a, Ne.symm hab, hh.symm⟩

/-- The columns `o` lead from the row `b` over the rows `ns` to the row `x`. -/
inductive Chain (M : Mat C R) (b : R) : List Nat → List R → R → Prop
  | one (k x) : Hits M k b x → Chain M b [k] [b] x
  | snoc (o ns x k y) : Chain M b o ns x → Hits M k x y → Chain M b (o ++ [k]) (ns ++ [x]) y

theorem Chain.hit {b x : R} {o : List Nat} {ns : List R} (h : Chain M b o ns x) :
    ∀ r ∈ ns ++ [x], ∃ k ∈ o, M.hit k r = true := by
  induction h with
  | one k x hh =>
    intro r hr
    refine ⟨k, by simp, (hh r).2 ?_⟩
    simpa using hr
  | snoc o ns x k y h hh ih =>
    intro r hr
    rcases List.mem_append.1 hr with hr | hr
    · obtain ⟨q, hq, hq'⟩ := ih r hr
      exact ⟨q, List.mem_append_left _ hq, hq'⟩
    · exact ⟨k, by simp, (hh r).2 (Or.inr (List.mem_singleton.1 hr))⟩

/-- The ends of the selected chain. -/
structure Ends2 (M : Mat C R) (s : St C R K) (b x : R) : Prop where
  ne : x ≠ b
  tip : s.cnt x = 1
  start : s.cnt b = 1
  only : ∀ r, s.cnt r = 1 → r = x ∨ r = b
  chain : ∃ ns, Chain M b s.order ns x ∧ (ns ++ [x]).Nodup

/-- The best loop is a polygon. -/
def Poly (M : Mat C R) (l : List C) : Prop := l = [] ∨ ∃ o b ns, elements M o = some l ∧ Chain M b o ns b ∧ ns.Nodup

/-- More about the comparisons of measures. -/
structure Cmp2 (W : Meas C K) (M : Mat C R) (vis : Nat → Int) (le : K → K → Prop) : Prop extends
    Cmp W M vis le where
  nge : ∀ o l o' l', IxLoop M vis o → elements M o = some l → IxLoop M vis o' → elements M o' = some l' →
    W.ge (W.total l) (W.total l') = false → le (W.total l) (W.total l')
  sub : ∀ o l o' l', IxLoop M vis o → elements M o = some l → IxLoop M vis o' → elements M o' = some l' →
    (∀ k ∈ o, k ∈ o') → le (W.total l) (W.total l')
  far : ∀ o l, IxLoop M vis o → elements M o = some l → W.close W.big (W.total l) = false

/-- The best loop is not worse than `L`. -/
def Dom (W : Meas C K) (M : Mat C R) (le : K → K → Prop) (s : St C R K) (L : List Nat) : Prop :=
  s.best ≠ [] ∧ (L.length ≤ s.best.length → ∀ l, elements M L = some l → le s.bm (W.total l))

theorem Dom.mono (Cm : Cmp W M vis le) {s s' : St C R K} {L : List Nat} (h : Dom W M le s L)
    (m : Mono le s s') : Dom W M le s' L :=
  ⟨m.ne h.1, fun hl l he => Cm.trans _ _ _ (m.bm h.1) (h.2 (Nat.le_trans hl (m.size h.1)) l he)⟩

/-- What a call gives in addition. -/
structure Gain (W : Meas C K) (M : Mat C R) (vis : Nat → Int) (le : K → K → Prop) (o : List Nat)
    (s s' : St C R K) : Prop where
  poly : Poly M s.best → Poly M s'.best
  dom : ∀ L, IxLoop M vis L → (∀ k ∈ o, k ∈ L) → Dom W M le s' L

theorem nodup_sub_length {o L : List Nat} (hn : o.Nodup) (hs : ∀ k ∈ o, k ∈ L) : o.length ≤ L.length :=
  (List.subperm_of_subset hn hs).length_le

theorem nodup_sub_count {o L : List Nat} (hn : o.Nodup) (hs : ∀ k ∈ o, k ∈ L) (p : Nat → Bool) :
    o.countP p ≤ L.countP p := (List.subperm_of_subset hn hs).countP_le p

/-- The next column of a closed loop that contains the chain. -/
theorem next_col {s : St C R K} (I : Inv W M vis first s) {L : List Nat} (hL : IxLoop M vis L)
    (hs : ∀ k ∈ s.order, k ∈ L) {x : R} (hx : s.cnt x = 1) : ∃ q ∈ L, q ∉ s.order ∧ M.hit q x = true := by
  by_contra hcon
  have hcon' : ∀ q ∈ L, M.hit q x = true → q ∈ s.order := fun q hq hh => by
    by_contra hn; exact hcon ⟨q, hq, hn, hh⟩
  have h1 : (s.order.countP fun k => M.hit k x) ≤ L.countP fun k => M.hit k x := nodup_sub_count I.nodup hs _
  have h2 : (L.countP fun k => M.hit k x) ≤ s.order.countP fun k => M.hit k x := by
    rw [List.countP_eq_length_filter, List.countP_eq_length_filter]
    refine nodup_sub_length (hL.nodup.filter _) fun k hk => ?_
    obtain ⟨hk1, hk2⟩ := List.mem_filter.1 hk
    exact List.mem_filter.2 ⟨hcon' k hk1 hk2, hk2⟩
  rw [← I.cnt, hx] at h1 h2
  rcases hL.closed x with h | h <;> omega

/-- A recursive call with its gains, from every state with the order `o` and the ends `b`, `x`. -/
def RecGain (W : Meas C K) (M : Mat C R) (vis : Nat → Int) (first : Nat) (le : K → K → Prop) (o : List Nat)
    (b x : R) (rec : Nat → St C R K → Option (St C R K)) : Prop :=
  ∀ q s, Inv W M vis first s → s.order = o → q < M.cols.length → s.shown q = false → 0 < vis q →
    Ends2 M s b x → M.hit q x = true → ∀ s', rec q s = some s' → Gain W M vis le (o ++ [q]) s s'

theorem Ends2.same {s s' : St C R K} {b x : R} (h : Ends2 M s b x) (hs : Same s s') : Ends2 M s' b x := by
  refine ⟨h.ne, ?_, ?_, ?_, ?_⟩
  · rw [hs.cnt]; exact h.tip
  · rw [hs.cnt]; exact h.start
  · rw [hs.cnt]; exact h.only
  · rw [hs.order]; exact h.chain

theorem tryRow_gain (Cm : Cmp W M vis le) {o : List Nat} {b x : R}
    {rec : Nat → St C R K → Option (St C R K)}
    (hr : RecOk W M vis first le o rec) (hg : RecGain W M vis first le o b x rec) :
    ∀ (qs : List Nat) (s s' : St C R K), (∀ q ∈ qs, q < M.cols.length) → Inv W M vis first s → s.order = o →
    Ends2 M s b x → tryRow M vis rec x qs s = some s' →
    (Poly M s.best → Poly M s'.best) ∧
    ∀ L, IxLoop M vis L → (∀ k ∈ o, k ∈ L) → (∃ q ∈ qs, q ∈ L ∧ q ∉ o ∧ M.hit q x = true) →
      Dom W M le s' L
  | [], s, s', _, _, _, _, e => by
    cases e
    exact ⟨fun h => h, fun L _ _ ⟨q, hq, _⟩ => by cases hq⟩
  | q :: qs, s, s', hq, I, ho, E, e => by
    have hq' : ∀ x ∈ qs, x < M.cols.length := fun x hx => hq x (List.mem_cons_of_mem _ hx)
    unfold tryRow at e
    split at e
    · next h =>
      obtain ⟨s1, e1, S1⟩ := hr q s I ho (hq q (by simp)) h.2.2 h.1
      have g := hg q s I ho (hq q (by simp)) h.2.2 h.1 E h.2.1 s1 e1
      rw [e1] at e
      dsimp only at e
      have ho1 := S1.same.order.trans ho
      obtain ⟨t1, t2⟩ := tryRow_gain Cm hr hg qs s1 s' hq' S1.inv ho1 (E.same S1.same) e
      obtain ⟨s2, e2, S2⟩ := tryRow_spec Cm hr x qs s1 hq' S1.inv ho1
      rw [e] at e2
      cases e2
      refine ⟨fun hp => t1 (g.poly hp), ?_⟩
      rintro L hL hs ⟨p, hp, hpL⟩
      rcases List.mem_cons.1 hp with rfl | hp
      · refine (g.dom L hL ?_).mono Cm S2.mono
        intro k hk
        rcases List.mem_append.1 hk with hk | hk
        · exact hs k hk
        · rw [List.mem_singleton.1 hk]; exact hpL.1
      · exact t2 L hL hs ⟨p, hp, hpL⟩
    · next h =>
      obtain ⟨t1, t2⟩ := tryRow_gain Cm hr hg qs s s' hq' I ho E e
      refine ⟨t1, ?_⟩
      rintro L hL hs ⟨p, hp, hpL⟩
      rcases List.mem_cons.1 hp with rfl | hp
      · exfalso
        refine h ⟨hL.live _ hpL.1, hpL.2.2, ?_⟩
        cases hsh : s.shown p
        · rfl
        · exact absurd (ho ▸ (I.shown p).1 hsh) hpL.2.1
      · exact t2 L hL hs ⟨p, hp, hpL⟩

/-- The first open row that is not a dead end is tried and nothing else. -/
theorem pass_found {rec : Nat → St C R K → Option (St C R K)} {node : Nat} {s : St C R K}
    (hsame : ∀ j s', tryRow M vis rec j (List.range M.cols.length) s = some s' → s'.cnt = s.cnt) :
    ∀ js : List R, (∃ j ∈ js, s.stub j = false ∧ M.hit node j = true ∧ s.cnt j = 1) →
    ∀ s' b, pass M vis rec node true js s = some (s', b) →
    ∃ j s1, M.hit node j = true ∧ s.cnt j = 1 ∧
      tryRow M vis rec j (List.range M.cols.length) s = some s1 ∧ b = true ∧ s'.best = s1.best ∧ s'.bm = s1.bm
  | [], ⟨_, h, _⟩, _, _, _ => by cases h
  | j :: js, hex, s', b, e => by
    unfold pass at e
    split at e
    · next h =>
      split at e
      · cases e
      · next s1 h1 =>
        rw [if_pos (by rw [hsame j s1 h1]; exact h.2.2)] at e
        cases e
        exact ⟨j, s1, h.2.1, h.2.2, h1, rfl, rfl, rfl⟩
    · next h =>
      refine pass_found hsame js ?_ s' b e
      obtain ⟨p, hp, hp'⟩ := hex
      rcases List.mem_cons.1 hp with rfl | hp
      · exact absurd hp' h
      · exact ⟨p, hp, hp'⟩

/-- The branch that continues a chain. -/
theorem explore_gain (Cm : Cmp W M vis le) {o : List Nat} {rec : Nat → St C R K → Option (St C R K)}
    (hr : RecOk W M vis first le o rec) {node : Nat} {s s' : St C R K}
    (I : Inv W M vis first s) (ho : s.order = o)
    (hex : ∃ j, s.stub j = false ∧ M.hit node j = true ∧ s.cnt j = 1)
    (hE : ∀ j, M.hit node j = true → s.cnt j = 1 → ∃ b, Ends2 M s b j ∧ RecGain W M vis first le o b j rec)
    (e : explore M vis rec node s = some s') :
    (Poly M s.best → Poly M s'.best) ∧ ∀ L, IxLoop M vis L → (∀ k ∈ o, k ∈ L) → Dom W M le s' L := by
  unfold explore at e
  have hsame : ∀ j s', tryRow M vis rec j (List.range M.cols.length) s = some s' → s'.cnt = s.cnt := by
    intro j s1 h1
    obtain ⟨s2, e2, S2⟩ := tryRow_spec Cm hr j (List.range M.cols.length) s (fun q hq => List.mem_range.1 hq) I ho
    rw [h1] at e2
    cases e2
    exact S2.same.cnt
  obtain ⟨s1, b, e1, -⟩ := pass_spec Cm hr node true M.rows s I ho
  have hex' : ∃ j ∈ M.rows, s.stub j = false ∧ M.hit node j = true ∧ s.cnt j = 1 := by
    obtain ⟨j, hj⟩ := hex
    exact ⟨j, hit_row hj.2.1, hj⟩
  obtain ⟨j, s2, h1, h2, h3, rfl, h4, h5⟩ := pass_found hsame M.rows hex' s1 b e1
  rw [e1] at e
  cases e
  obtain ⟨b, E, G⟩ := hE j h1 h2
  obtain ⟨g1, g2⟩ := tryRow_gain Cm hr G (List.range M.cols.length) s s2 (fun q hq => List.mem_range.1 hq) I ho E h3
  refine ⟨fun hp => by rw [h4]; exact g1 hp, fun L hL hs => ?_⟩
  obtain ⟨q, hq, hqo, hqj⟩ := next_col I hL (by rw [ho]; exact hs) h2
  have := g2 L hL hs ⟨q, List.mem_range.2 (hL.lt q hq), hq, by rw [← ho]; exact hqo, hqj⟩
  unfold Dom at this ⊢
  rw [h4, h5]
  exact this

/-- The ends of the chain after one more column. -/
theorem ends_next {s : St C R K} (I : Inv W M vis first s) {k : Nat} {b x : R} (E : Ends2 M s b x)
    (hx : M.hit k x = true) {y : R} (hxy : x ≠ y) (hh : Hits M k x y) (hle : ∀ r, M.hit k r = true → s.cnt r ≤ 1) :
    (y = b ∧ ∀ r, (shownSt M k s).cnt r ≠ 1) ∨
    (s.cnt y = 0 ∧ Ends2 M (shownSt M k s) b y ∧ ∀ j, M.hit k j = true → (shownSt M k s).cnt j = 1 → j = y) := by
  have hcv : ∀ r, (shownSt M k s).cnt r = if M.hit k r then s.cnt r + 1 else s.cnt r := fun _ => rfl
  have hy := (hh y).2 (Or.inr rfl)
  have hcx : (shownSt M k s).cnt x = 2 := by rw [hcv, hx, E.tip]; rfl
  by_cases hyb : y = b
  · left
    refine ⟨hyb, fun r hr => ?_⟩
    rw [hcv] at hr
    cases hr' : M.hit k r
    · rw [hr'] at hr
      rcases E.only r (by simpa using hr) with h | h
      · rw [h, hx] at hr'; cases hr'
      · rw [h, ← hyb, hy] at hr'; cases hr'
    · rw [hr'] at hr
      rcases (hh r).1 hr' with h | h
      · rw [h, E.tip] at hr; simp at hr
      · rw [h, hyb, E.start] at hr; simp at hr
  · right
    have h0 : s.cnt y = 0 := by
      have h1 := hle y hy
      by_contra hne
      rcases E.only y (by omega) with h | h
      · exact hxy h.symm
      · exact hyb h
    have hbk : M.hit k b = false := by
      cases h : M.hit k b
      · rfl
      · rcases (hh b).1 h with h | h
        · exact absurd h.symm E.ne
        · exact absurd h.symm hyb
    refine ⟨h0, ⟨hyb, ?_, ?_, ?_, ?_⟩, ?_⟩
    · rw [hcv, hy, h0]; rfl
    · rw [hcv, hbk]; exact E.start
    · intro r hr
      cases hr' : M.hit k r
      · rw [hcv, hr'] at hr
        rcases E.only r (by simpa using hr) with h | h
        · rw [h, hx] at hr'; cases hr'
        · exact Or.inr h
      · rcases (hh r).1 hr' with h | h
        · rw [h, hcx] at hr; cases hr
        · exact Or.inl h
    · obtain ⟨ns, hc, hn⟩ := E.chain
      refine ⟨ns ++ [x], Chain.snoc _ _ _ _ _ hc hh, ?_⟩
      rw [List.nodup_append]
      refine ⟨hn, by simp, ?_⟩
      rintro u hu v hv rfl
      rw [List.mem_singleton.1 hv] at hu
      obtain ⟨q, hq, hq'⟩ := hc.hit y hu
      rw [I.cnt, List.countP_eq_zero] at h0
      exact h0 q hq hq'
    · intro j hj hj1
      rcases (hh j).1 hj with h | h
      · rw [h, hcx] at hj1; cases hj1
      · exact h

/-- Recording a polygon. -/
theorem record_gain (Cm : Cmp2 W M vis le) {s s' : St C R K} {length : Nat} (I : Inv W M vis first s)
    (hn : s.order ≠ []) (hs : success M s = true) (hl : s.order.length = length)
    (hp : s.best = [] ∨ length ≤ s.best.length) (hc : ∃ b ns, Chain M b s.order ns b ∧ ns.Nodup)
    (e : record W M length s = some s') : Gain W M vis le s.order s s' := by
  obtain ⟨t, l, e1, e2, -, -, -, -, e3, e4⟩ := record_spec (length := length) Cm.toCmp I hn hs hl hp
  rw [e] at e1
  cases e1
  have hX := I.ixLoop hn hs
  refine ⟨fun h => ?_, fun L hL hsub => ?_⟩
  · rcases e3 with rfl | h'
    · exact h
    · rw [h']
      obtain ⟨b, ns, hc⟩ := hc
      exact Or.inr ⟨s.order, b, ns, e2, hc⟩
  · obtain ⟨lL, heL⟩ := elements_some hL.lt
    have hsubm := Cm.sub s.order l L lL hX e2 hL heL hsub
    rcases e4 (fun _ => Cm.far s.order l hX e2) with ⟨rfl, h1, h2⟩ | ⟨h1, h2⟩
    · refine ⟨h1, fun _ l' hl' => ?_⟩
      rw [heL] at hl'
      cases hl'
      rcases I.best.ok with h | ⟨o, ho, -, he, hb⟩
      · exact absurd h h1
      · rw [hb] at h2 ⊢
        exact Cm.trans _ _ _ (Cm.nge o _ s'.order l ho he hX e2 h2) hsubm
    · have hne : l ≠ [] := fun h => hn (List.length_eq_zero_iff.1 (by rw [← elements_length e2, h]; rfl))
      refine ⟨by rw [h1]; exact hne, fun _ l' hl' => ?_⟩
      rw [heL] at hl'
      cases hl'
      rw [h2]; exact hsubm

theorem finish_best (length : Nat) (s : St C R K) : (finish length s).best = s.best ∧ (finish length s).bm = s.bm := by
  unfold finish; split <;> exact ⟨rfl, rfl⟩

/-- How a chain may be continued by `k`: it is the first column or it meets the tip. -/
def Meets (M : Mat C R) (s : St C R K) (k : Nat) : Prop :=
  s.order = [] ∨ ∃ b x, Ends2 M s b x ∧ M.hit k x = true

/-- After showing `k`: the chain is closed, or `k` has an open row at which it can be continued. -/
theorem meets_cases (h2 : TwoRows M) {s : St C R K} (I : Inv W M vis first s) {k : Nat}
    (hk : k < M.cols.length) (hm : Meets M s k) (hle : ∀ r, M.hit k r = true → s.cnt r ≤ 1) :
    ((∀ r, (shownSt M k s).cnt r ≠ 1) ∧ ∃ b ns, Chain M b (shownSt M k s).order ns b ∧ ns.Nodup) ∨
    ((∃ j, (shownSt M k s).stub j = false ∧ M.hit k j = true ∧ (shownSt M k s).cnt j = 1) ∧
      ∀ j, M.hit k j = true → (shownSt M k s).cnt j = 1 → ∃ b, Ends2 M (shownSt M k s) b j) := by
  have hcv : ∀ r, (shownSt M k s).cnt r = if M.hit k r then s.cnt r + 1 else s.cnt r := fun _ => rfl
  have hstub : ∀ r, s.cnt r = 0 → (shownSt M k s).stub r = false := by
    intro r hr
    show s.stub r = false
    cases h : s.stub r
    · rfl
    · have := I.stub r h; omega
  rcases hm with h0 | ⟨b, x, E, hx⟩
  · right
    have hz : ∀ r, s.cnt r = 0 := fun r => by rw [I.cnt, h0]; rfl
    obtain ⟨a, b, hab, hh⟩ := h2 k hk
    have ends : ∀ a b, a ≠ b → Hits M k a b → Ends2 M (shownSt M k s) b a := by
      intro a b hab hh
      have ha := (hh a).2 (Or.inl rfl)
      have hb := (hh b).2 (Or.inr rfl)
      refine ⟨hab, ?_, ?_, ?_, ?_⟩
      · rw [hcv, ha, hz]; rfl
      · rw [hcv, hb, hz]; rfl
      · intro r hr
        rw [hcv, hz] at hr
        cases h : M.hit k r
        · rw [h] at hr; simp at hr
        · exact (hh r).1 h
      · refine ⟨[b], ?_, by simpa using Ne.symm hab⟩
        show Chain M b (s.order ++ [k]) [b] a
        rw [h0]
        exact Chain.one k a hh.symm
    refine ⟨⟨a, hstub a (hz a), (hh a).2 (Or.inl rfl), (ends a b hab hh).tip⟩, ?_⟩
    intro j hj _
    rcases (hh j).1 hj with rfl | rfl
    · exact ⟨b, ends _ _ hab hh⟩
    · exact ⟨a, ends _ _ (Ne.symm hab) hh.symm⟩
  · obtain ⟨y, hxy, hh⟩ := h2.other hk hx
    rcases ends_next I E hx hxy hh hle with ⟨rfl, h⟩ | ⟨hy0, h, h'⟩
    · left
      obtain ⟨ns, hc, hn⟩ := E.chain
      exact ⟨h, y, _, Chain.snoc _ _ _ _ _ hc hh, hn⟩
    · right
      refine ⟨⟨y, hstub y hy0, (hh y).2 (Or.inr rfl), h.tip⟩, ?_⟩
      intro j hj hj1
      rw [h' j hj hj1]
      exact ⟨b, h⟩

theorem find_gain (Cm : Cmp2 W M vis le) (h2 : TwoRows M) : ∀ (f k : Nat) (s : St C R K), Inv W M vis first s →
    s.shown k = false → k < M.cols.length → 0 < vis k → (s.order ≠ [] ∨ k = first) →
    M.cols.length ≤ s.order.length + f → Meets M s k →
    ∀ s', find W M vis (f + 1) (s.order.length + 1) k s = some s' → Gain W M vis le (s.order ++ [k]) s s' := by
  intro f
  induction f with
  | zero =>
    intro k s I hk hlt hv hf hn
    have : (k :: s.order).Nodup := List.nodup_cons.2
      ⟨(fun h => by rw [(I.shown k).2 h] at hk; cases hk), I.nodup⟩
    have h1 : (k :: s.order).length ≤ (List.range M.cols.length).length :=
      nodup_sub_length this fun x hx => by
        rcases List.mem_cons.1 hx with rfl | hx
        · exact List.mem_range.2 hlt
        · exact List.mem_range.2 (I.lt x hx)
    simp at h1
    omega
  | succ f ih =>
    intro k s I hk hlt hv hf hn hm s' e
    have hrec : RecOk W M vis first le (s.order ++ [k])
        (find W M vis (f + 1) (s.order.length + 1 + 1)) := by
      intro q s1 I1 ho hq hs hvq
      have hl : s1.order.length = s.order.length + 1 := by rw [ho]; simp
      rw [← hl]
      exact find_spec Cm.toCmp f q s1 I1 hs hq hvq (Or.inl (by rw [ho]; simp)) (by omega)
    have hgain : ∀ b x, RecGain W M vis first le (s.order ++ [k]) b x
        (find W M vis (f + 1) (s.order.length + 1 + 1)) := by
      intro b x q s1 I1 ho hq hs hvq E hx s2 e2
      have hl : s1.order.length = s.order.length + 1 := by rw [ho]; simp
      rw [← hl] at e2
      rw [← ho]
      exact ih q s1 I1 hs hq hvq (Or.inl (by rw [ho]; simp)) (by omega) (Or.inr ⟨b, x, E, hx⟩) s2 e2
    have hknot : k ∉ s.order := fun h => by rw [(I.shown k).2 h] at hk; cases hk
    have hnd : (s.order ++ [k]).Nodup := by
      rw [List.nodup_append]
      refine ⟨I.nodup, by simp, ?_⟩
      rintro a ha b hb rfl
      exact hknot (List.mem_singleton.1 hb ▸ ha)
    unfold find at e
    split at e
    · next hp =>
      cases e
      refine ⟨fun h => h, fun L hL hsub => ⟨hp.1, fun hlen => ?_⟩⟩
      have := nodup_sub_length hnd hsub
      simp at this
      omega
    · next hp =>
      have hp' : s.best = [] ∨ s.order.length + 1 ≤ s.best.length := by
        by_cases hb : s.best = []
        · exact Or.inl hb
        · exact Or.inr (Nat.le_of_not_lt fun h => hp ⟨hb, h⟩)
      rcases show_spec I hk hlt hv hf with ⟨⟨r, hr1, hr2⟩, s1, e1, e2, e3, e4, e5⟩ | ⟨hle, e1, I1⟩
      · rw [e1] at e
        cases e
        refine ⟨fun h => by rw [(finish_best _ s1).1, e4]; exact h, fun L hL hsub => ?_⟩
        exfalso
        have h1 := nodup_sub_count hnd hsub fun q => M.hit q r
        rw [count_snoc, ← I.cnt, hr1, hr2] at h1
        simp at h1
        rcases hL.closed r with h | h <;> omega
      · rw [e1] at e
        dsimp only at e
        cases hv' : visit W M vis (find W M vis (f + 1) (s.order.length + 1 + 1)) k (s.order.length + 1)
            (shownSt M k s) with
        | none => rw [hv'] at e; cases e
        | some s2 =>
          rw [hv'] at e
          cases e
          suffices G : Gain W M vis le (s.order ++ [k]) s s2 by
            refine ⟨fun h => by rw [(finish_best _ s2).1]; exact G.poly h, fun L hL hsub => ?_⟩
            have := G.dom L hL hsub
            unfold Dom at this ⊢
            rw [(finish_best _ s2).1, (finish_best _ s2).2]
            exact this
          unfold visit at hv'
          split at hv'
          · cases hv'
          next t ht =>
          have hb : s2.best = t.best ∧ s2.bm = t.bm := by
            unfold hide at hv'
            split at hv'
            · split at hv'
              · cases hv'
              · cases hv'; exact ⟨rfl, rfl⟩
            · cases hv'; exact ⟨rfl, rfl⟩
          have key : (Poly M s.best → Poly M t.best) ∧
              ∀ L, IxLoop M vis L → (∀ q ∈ s.order ++ [k], q ∈ L) → Dom W M le t L := by
            rcases meets_cases h2 I hlt hm hle with ⟨hc1, hc2⟩ | ⟨hc1, hc2⟩
            · have hs : success M (shownSt M k s) = true := (success_iff I1).2 hc1
              rw [if_pos hs] at ht
              have G := record_gain Cm I1 (by show s.order ++ [k] ≠ []; simp) hs
                (by show (s.order ++ [k]).length = _; simp) hp' hc2 ht
              exact ⟨G.poly, G.dom⟩
            · have hs : success M (shownSt M k s) = false := by
                cases h : success M (shownSt M k s)
                · rfl
                · obtain ⟨j, -, -, hj⟩ := hc1
                  exact absurd hj ((success_iff I1).1 h j)
              rw [if_neg (by rw [hs]; simp)] at ht
              exact explore_gain (s := shownSt M k s) Cm.toCmp hrec I1 rfl hc1
                (fun j hj hj1 => by obtain ⟨b, E⟩ := hc2 j hj hj1; exact ⟨b, E, hgain b j⟩) ht
          refine ⟨fun h => by rw [hb.1]; exact key.1 h, fun L hL hsub => ?_⟩
          have := key.2 L hL hsub
          unfold Dom at this ⊢
          rw [hb.1, hb.2]
          exact this

/-- A complete search from one edge. -/
theorem first_gain (Cm : Cmp2 W M vis le) (h2 : TwoRows M) {q : Nat} {s s' : St C R K} (h : Idle s)
    (hq : q < M.cols.length) (hv : 0 < vis q)
    (e : find W M vis (M.cols.length + 1) 1 q { s with bm := W.big } = some s') :
    Poly M s'.best ∧ ∀ L, IxLoop M vis L → q ∈ L → Dom W M le s' L := by
  have hz : ({ s with bm := W.big } : St C R K).order = [] := h.order
  have e' : find W M vis (M.cols.length + 1) (({ s with bm := W.big } : St C R K).order.length + 1) q
      { s with bm := W.big } = some s' := by
    have hl : ({ s with bm := W.big } : St C R K).order.length = 0 := by rw [h.order]; rfl
    rw [hl]; exact e
  have G := find_gain Cm h2 M.cols.length q { s with bm := W.big } (h.inv vis q) (h.shown q) hq hv (Or.inr rfl)
    (Nat.le_add_left _ _) (Or.inl hz) s' e'
  refine ⟨G.poly (Or.inl h.best), fun L hL hqL => G.dom L hL ?_⟩
  rw [hz]
  intro k hk
  rw [List.nil_append, List.mem_singleton] at hk
  exact hk ▸ hqL

end Verif.Incident
