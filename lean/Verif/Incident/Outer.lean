import Verif.Incident.Lemmas

namespace Verif.Incident
variable {C R K : Type} [DecidableEq C] [DecidableEq R]
variable {W : Meas C K} {M : Mat C R}

/-! ### Between the searches -/

/-- The state between two searches: nothing is selected. -/
structure Idle (s : St C R K) : Prop where
  order : s.order = []
  shown : ∀ k, s.shown k = false
  cnt : ∀ r, s.cnt r = 0
  stub : ∀ r, s.stub r = false
  best : s.best = []

theorem idle_init (b : K) : Idle (St.init b : St C R K) :=
  ⟨rfl, fun _ => rfl, fun _ => rfl, fun _ => rfl, rfl⟩

theorem Idle.inv {s : St C R K} (h : Idle s) (vis : Nat → Int) (q : Nat) :
    Inv W M vis q { s with bm := W.big } := by
  refine ⟨?_, ?_, ?_, ?_, ?_, ?_, ?_, ?_, ⟨Or.inl h.best, fun _ => rfl⟩⟩
  · show s.order.Nodup; rw [h.order]; simp
  · show ∀ k ∈ s.order, _; rw [h.order]; simp
  · intro k; show s.shown k = true ↔ k ∈ s.order; rw [h.order, h.shown]; simp
  · intro r; show s.cnt r = s.order.countP _; rw [h.order, h.cnt]; rfl
  · intro r; show s.cnt r ≤ 2; rw [h.cnt]; exact Nat.zero_le _
  · show ∀ k ∈ s.order, _; rw [h.order]; simp
  · intro r hr; change s.stub r = true at hr; rw [h.stub] at hr; cases hr
  · intro hn; exact absurd h.order hn

/-- A complete search from one column. -/
theorem find_first {vis : Nat → Int} {q : Nat} {s : St C R K} (h : Idle s) (hq : q < M.cols.length)
    (hv : 0 < vis q) : ∃ s', find W M vis (M.cols.length + 1) 1 q { s with bm := W.big } = some s' ∧
      Idle ({ s' with best := [] } : St C R K) ∧ BestOk W M vis q s' := by
  obtain ⟨s', e, S⟩ := find_spec (Cmp.trivial W M vis) M.cols.length q { s with bm := W.big } (h.inv vis q)
    (h.shown q) hq hv (Or.inr rfl) (Nat.le_add_left _ _)
  have e' : find W M vis (M.cols.length + 1) 1 q { s with bm := W.big } = some s' := by
    have hz : ({ s with bm := W.big } : St C R K).order.length = 0 := by
      show s.order.length = 0; rw [h.order]; rfl
    rw [hz] at e; exact e
  have hc : ∀ r, s'.cnt r = 0 := fun r => by rw [S.same.cnt]; exact h.cnt r
  refine ⟨s', e', ⟨S.same.order.trans h.order, fun k => ?_, hc, fun r => ?_, rfl⟩, S.inv.best⟩
  · show s'.shown k = false; rw [S.same.shown]; exact h.shown k
  · show s'.stub r = false
    cases hs : s'.stub r
    · rfl
    · have := S.inv.stub r hs; rw [hc] at this; exact absurd this (Nat.lt_irrefl _)

/-- One visit less. -/
def drop1 (vis : Nat → Int) (q : Nat) : Nat → Int := fun k => if k = q then vis k - 1 else vis k

/-- The columns given up one after another; `Q` holds of the search at each. -/
inductive GivenUp (M : Mat C R) (Q : (Nat → Int) → Nat → List C → K → Prop) : (Nat → Int) → (Nat → Int) → Prop
  | refl (vis) : GivenUp M Q vis vis
  | step (vis q vis' m) : vis q = 1 → q < M.cols.length → Q vis q [] m → GivenUp M Q (drop1 vis q) vis' →
      GivenUp M Q vis vis'

/-- `Q` holds of the result of every search. -/
def Ends (W : Meas C K) (M : Mat C R) (Q : (Nat → Int) → Nat → List C → K → Prop) : Prop :=
  ∀ vis q (s s' : St C R K), Idle s → vis q = 1 → q < M.cols.length →
    find W M vis (M.cols.length + 1) 1 q { s with bm := W.big } = some s' → Q vis q s'.best s'.bm

theorem firstOne_some {vis : Nat → Int} {n q : Nat} (h : firstOne vis n = some q) : vis q = 1 ∧ q < n := by
  unfold firstOne at h
  have h1 := List.find?_some h
  exact ⟨of_decide_eq_true h1, List.mem_range.1 (List.mem_of_find?_eq_some h)⟩

theorem firstOne_none {vis : Nat → Int} {n : Nat} (h : firstOne vis n = none) : ∀ q < n, vis q ≠ 1 := by
  intro q hq hv
  have := List.find?_eq_none.1 h q (List.mem_range.2 hq)
  exact this (decide_eq_true hv)

theorem ones_drop {vis : Nat → Int} {q n : Nat} (hq : vis q = 1) (hn : q < n) :
    (List.range n).countP (fun k => decide (drop1 vis q k = 1)) <
      (List.range n).countP fun k => decide (vis k = 1) := by
  have hle : ∀ k, decide (drop1 vis q k = 1) = true → decide (vis k = 1) = true := by
    intro k hk
    have := of_decide_eq_true hk
    unfold drop1 at this
    split at this
    · next h => subst h; omega
    · exact decide_eq_true this
  have hq' : decide (drop1 vis q q = 1) = false := by
    unfold drop1; simp [hq]
  have gen : ∀ l : List Nat, q ∈ l → l.countP (fun k => decide (drop1 vis q k = 1)) <
      l.countP fun k => decide (vis k = 1) := by
    intro l
    induction l with
    | nil => intro h; cases h
    | cons x xs ih =>
      intro h
      have hmono : xs.countP (fun k => decide (drop1 vis q k = 1)) ≤ xs.countP fun k => decide (vis k = 1) :=
        List.countP_mono_left fun k _ => hle k
      rw [List.countP_cons, List.countP_cons]
      rcases List.mem_cons.1 h with rfl | h
      · rw [hq', decide_eq_true hq]; simp; omega
      · have h1 := ih h
        have h2 := hle x
        split
        · next h3 => rw [if_pos (h2 h3)]; omega
        · omega
  exact gen _ (List.mem_range.2 hn)

/-- The result of the loop that looks for the next closed loop. -/
structure Found (W : Meas C K) (M : Mat C R) (Q : (Nat → Int) → Nat → List C → K → Prop)
    (vis vis' : Nat → Int) (s' : St C R K) : Prop where
  up : GivenUp M Q vis vis'
  idle : Idle ({ s' with best := [] } : St C R K)
  done : (s'.best = [] ∧ ∀ q < M.cols.length, vis' q ≠ 1) ∨
    ∃ q, vis' q = 1 ∧ q < M.cols.length ∧ s'.best ≠ [] ∧ BestOk W M vis' q s' ∧ Q vis' q s'.best s'.bm

theorem search_spec {Q : (Nat → Int) → Nat → List C → K → Prop} (hQ : Ends W M Q) :
    ∀ (f : Nat) (vis : Nat → Int) (s : St C R K), Idle s →
    (List.range M.cols.length).countP (fun k => decide (vis k = 1)) < f →
    ∃ vis' s', search W M f vis s = some (vis', s') ∧ Found W M Q vis vis' s'
  | 0, _, _, _, h => absurd h (Nat.not_lt_zero _)
  | f + 1, vis, s, h, hf => by
    unfold search
    cases hq : firstOne vis M.cols.length with
    | none =>
      refine ⟨vis, s, rfl, GivenUp.refl vis, ?_, Or.inl ⟨h.best, firstOne_none hq⟩⟩
      exact ⟨h.order, h.shown, h.cnt, h.stub, rfl⟩
    | some q =>
      obtain ⟨hv, hlt⟩ := firstOne_some hq
      obtain ⟨s1, e1, h1, h2⟩ := find_first (W := W) (M := M) h hlt (vis := vis) (by omega)
      dsimp only
      rw [e1]
      dsimp only
      have hq1 := hQ vis q s s1 h hv hlt e1
      split
      · next hb =>
        rw [hb] at hq1
        obtain ⟨vis', s', e2, F⟩ := search_spec hQ f (drop1 vis q) s1
          ⟨h1.order, h1.shown, h1.cnt, h1.stub, hb⟩ (by have := ones_drop hv hlt; omega)
        exact ⟨vis', s', e2, GivenUp.step vis q vis' _ hv hlt hq1 F.up, F.idle, F.done⟩
      · next hb =>
        exact ⟨vis, s1, rfl, GivenUp.refl vis, h1, Or.inr ⟨q, hv, hlt, hb, h2, hq1⟩⟩

/-- The visits after a loop was taken. -/
def spend (M : Mat C R) (vis : Nat → Int) (l : List C) : Nat → Int := fun k => match M.cols[k]? with
  | some c => if c ∈ l then vis k - 1 else vis k
  | none => vis k

theorem nextLoop_spec {Q : (Nat → Int) → Nat → List C → K → Prop} (hQ : Ends W M Q) (vis : Nat → Int)
    (s : St C R K) (h : Idle s) : ∃ vis' s', nextLoop W M vis s =
      some (s'.best, spend M vis' s'.best, { s' with best := [] }) ∧ Found W M Q vis vis' s' := by
  obtain ⟨vis', s', e, F⟩ := search_spec hQ (M.cols.length + 1) vis s h (by
    have := List.countP_le_length (p := fun k => decide (vis k = 1)) (l := List.range M.cols.length)
    rw [List.length_range] at this
    omega)
  refine ⟨vis', s', ?_, F⟩
  unfold nextLoop
  rw [e]
  rfl

/-- All visits that are left. -/
def left (M : Mat C R) (vis : Nat → Int) : Nat := ((List.range M.cols.length).map fun k => (vis k).toNat).sum

theorem sum_le (f g : Nat → Nat) : ∀ l : List Nat, (∀ k ∈ l, f k ≤ g k) → (l.map f).sum ≤ (l.map g).sum
  | [], _ => Nat.le_refl _
  | x :: xs, h => by
    rw [List.map_cons, List.map_cons, List.sum_cons, List.sum_cons]
    have := sum_le f g xs fun k hk => h k (List.mem_cons_of_mem _ hk)
    have := h x (by simp)
    omega

theorem sum_lt (f g : Nat → Nat) {q : Nat} (hq : f q < g q) : ∀ l : List Nat, (∀ k ∈ l, f k ≤ g k) → q ∈ l →
    (l.map f).sum < (l.map g).sum
  | [], _, h => by cases h
  | x :: xs, h, hm => by
    rw [List.map_cons, List.map_cons, List.sum_cons, List.sum_cons]
    have h1 := sum_le f g xs fun k hk => h k (List.mem_cons_of_mem _ hk)
    have h2 := h x (by simp)
    rcases List.mem_cons.1 hm with rfl | hm
    · omega
    · have := sum_lt f g hq xs (fun k hk => h k (List.mem_cons_of_mem _ hk)) hm
      omega

theorem GivenUp.le {Q : (Nat → Int) → Nat → List C → K → Prop} {vis vis' : Nat → Int}
    (h : GivenUp M Q vis vis') : ∀ k, vis' k ≤ vis k := by
  induction h with
  | refl vis => exact fun k => Int.le_refl _
  | step vis q vis' m h1 h2 h3 h4 ih =>
    intro k
    have h5 := ih k
    unfold drop1 at h5
    split at h5 <;> omega

theorem GivenUp.nonneg {Q : (Nat → Int) → Nat → List C → K → Prop} {vis vis' : Nat → Int}
    (h : GivenUp M Q vis vis') : (∀ k, 0 ≤ vis k) → ∀ k, 0 ≤ vis' k := by
  induction h with
  | refl vis => exact fun h => h
  | step vis q vis' m h1 h2 h3 h4 ih =>
    intro h
    refine ih fun k => ?_
    have := h k
    unfold drop1
    split
    · next hk => subst hk; omega
    · exact this

theorem spend_le (vis : Nat → Int) (l : List C) (k : Nat) : spend M vis l k ≤ vis k := by
  unfold spend
  split
  · split <;> omega
  · exact Int.le_refl _

theorem left_spend {Q : (Nat → Int) → Nat → List C → K → Prop} {vis vis' : Nat → Int} {s' : St C R K}
    (F : Found W M Q vis vis' s') (hn : s'.best ≠ []) : left M (spend M vis' s'.best) < left M vis := by
  rcases F.done with ⟨h, -⟩ | ⟨q, h1, h2, -, h3, -⟩
  · exact absurd h hn
  · unfold left
    have hle : ∀ k, (spend M vis' s'.best k).toNat ≤ (vis k).toNat := fun k => by
      have h1 := spend_le (M := M) vis' s'.best k
      have h2 := F.up.le k
      omega
    refine sum_lt _ _ (q := q) ?_ _ (fun k _ => hle k) (List.mem_range.2 h2)
    rcases h3.ok with h | ⟨o, ho, hh, he, -⟩
    · exact absurd h hn
    · have hqo : q ∈ o := List.mem_of_mem_head? (by rw [hh]; rfl)
      have hc : M.cols[q]? = some M.cols[q] := List.getElem?_eq_getElem h2
      have hm := (elements_mem he M.cols[q]).2 ⟨q, hqo, hc⟩
      have hs : spend M vis' s'.best q = vis' q - 1 := by
        unfold spend; rw [hc]; exact if_pos hm
      have := F.up.le q
      rw [hs]
      omega

/-- The run of the caller: the successive searches. -/
inductive Run (W : Meas C K) (M : Mat C R) (Q : (Nat → Int) → Nat → List C → K → Prop) :
    (Nat → Int) → List (List C) → Prop
  | done (vis vis' s') : Found W M Q vis vis' s' → s'.best = [] → Run W M Q vis []
  | next (vis vis' s' ls) : Found W M Q vis vis' s' → s'.best ≠ [] → Run W M Q (spend M vis' s'.best) ls →
      Run W M Q vis (s'.best :: ls)

theorem takeLoops_spec {Q : (Nat → Int) → Nat → List C → K → Prop} (hQ : Ends W M Q) :
    ∀ (f : Nat) (vis : Nat → Int) (s : St C R K), Idle s → left M vis < f →
    ∃ ls, takeLoops W M f vis s = some ls ∧ Run W M Q vis ls
  | 0, _, _, _, h => absurd h (Nat.not_lt_zero _)
  | f + 1, vis, s, h, hf => by
    obtain ⟨vis', s', e, F⟩ := nextLoop_spec hQ vis s h
    unfold takeLoops
    rw [e]
    dsimp only
    split
    · next hb => exact ⟨[], rfl, Run.done vis vis' s' F hb⟩
    · next hb =>
      obtain ⟨ls, e2, r⟩ := takeLoops_spec hQ f (spend M vis' s'.best) _ F.idle
        (by have := left_spend F hb; omega)
      rw [e2]
      exact ⟨_, rfl, Run.next vis vis' s' ls F hb r⟩

/-- What each loop of a run is. -/
theorem Run.each {Q : (Nat → Int) → Nat → List C → K → Prop} {vis : Nat → Int} {ls : List (List C)}
    (h : Run W M Q vis ls) : ∀ l ∈ ls, ∃ vis' q o m, IxLoop M vis' o ∧ o.head? = some q ∧
      elements M o = some l ∧ Q vis' q l m := by
  induction h with
  | done => simp
  | next vis vis' s' ls F hb r ih =>
    intro l hl
    rcases List.mem_cons.1 hl with rfl | hl
    · rcases F.done with ⟨h, -⟩ | ⟨q, h1, h2, -, h3, h4⟩
      · exact absurd h hb
      · rcases h3.ok with h | ⟨o, ho, hh, he, -⟩
        · exact absurd h hb
        · exact ⟨vis', q, o, _, ho, hh, he, h4⟩
    · exact ih l hl

theorem mem_elements {o : List Nat} {l : List C} (hd : M.cols.Nodup) (he : elements M o = some l) {k : Nat} {c : C}
    (hk : M.cols[k]? = some c) (hc : c ∈ l) : k ∈ o := by
  obtain ⟨q, hq, hqc⟩ := (elements_mem he c).1 hc
  obtain ⟨h3, h4⟩ := List.getElem?_eq_some_iff.1 hk
  obtain ⟨h5, h6⟩ := List.getElem?_eq_some_iff.1 hqc
  have : k = q := (List.getElem_inj hd).1 (h4.trans h6.symm)
  exact this ▸ hq

theorem Found.spend_nonneg {Q : (Nat → Int) → Nat → List C → K → Prop} {vis vis' : Nat → Int} {s' : St C R K}
    (hd : M.cols.Nodup) (F : Found W M Q vis vis' s') (h0 : ∀ k, 0 ≤ vis k) :
    ∀ k, 0 ≤ spend M vis' s'.best k := by
  have h1 := F.up.nonneg h0
  intro k
  unfold spend
  split
  · next c hc =>
    split
    · next hm =>
      rcases F.done with ⟨h, -⟩ | ⟨q, -, -, hb, h3, -⟩
      · rw [h] at hm; cases hm
      · rcases h3.ok with h | ⟨o, ho, hh, he, -⟩
        · exact absurd h hb
        · have := ho.live k (mem_elements hd he hc hm)
          omega
    · exact h1 k
  · exact h1 k

/-- No column is used more often than allowed. -/
theorem Run.bound {Q : (Nat → Int) → Nat → List C → K → Prop} {vis : Nat → Int} {ls : List (List C)}
    (hd : M.cols.Nodup) (h : Run W M Q vis ls) : (∀ k, 0 ≤ vis k) → ∀ k c, M.cols[k]? = some c →
      (ls.countP (fun l => decide (c ∈ l)) : Int) ≤ vis k := by
  induction h with
  | done vis => intro h0 k c _; simpa using h0 k
  | next vis vis' s' ls F hb r ih =>
    intro h0 k c hc
    have h1 := ih (F.spend_nonneg hd h0) k c hc
    have h2 := F.up.le k
    have h3 : spend M vis' s'.best k = if c ∈ s'.best then vis' k - 1 else vis' k := by
      unfold spend; rw [hc]
    rw [h3] at h1
    rw [List.countP_cons]
    by_cases hm : c ∈ s'.best
    · rw [if_pos hm] at h1
      rw [if_pos (decide_eq_true hm)]
      push_cast
      omega
    · rw [if_neg hm] at h1
      rw [if_neg (by simp [hm])]
      push_cast
      omega

/-- `Q` excludes closed loops through the column given up. -/
def Excludes (M : Mat C R) (Q : (Nat → Int) → Nat → List C → K → Prop) : Prop :=
  ∀ vis q m, Q vis q [] m → ∀ o, IxLoop M vis o → q ∉ o

/-- The columns given up (`ab k = 1`) lie on no closed loop of columns with visits left, given up or not. -/
structure UpInv (M : Mat C R) (vis ab : Nat → Int) : Prop where
  flag : ∀ k, ab k = 0 ∨ (ab k = 1 ∧ vis k = 0)
  none : ∀ o, IxLoop M (fun k => vis k + ab k) o → ∀ k ∈ o, ab k = 0

theorem IxLoop.mono {vis vis' : Nat → Int} {o : List Nat} (h : IxLoop M vis o) (hv : ∀ k ∈ o, 0 < vis' k) :
    IxLoop M vis' o := ⟨h.ne, h.nodup, h.lt, hv, h.closed⟩

theorem GivenUp.inv {Q : (Nat → Int) → Nat → List C → K → Prop} (hx : Excludes M Q) {vis vis' : Nat → Int}
    (h : GivenUp M Q vis vis') : ∀ ab, UpInv M vis ab → ∃ ab', UpInv M vis' ab' ∧
      ∀ k, vis' k + ab' k = vis k + ab k := by
  induction h with
  | refl vis => exact fun ab U => ⟨ab, U, fun _ => rfl⟩
  | step vis q vis' m h1 h2 h3 h4 ih =>
    intro ab U
    have hq0 : ab q = 0 := by
      rcases U.flag q with h | ⟨-, h⟩
      · exact h
      · omega
    have hsum : ∀ k, drop1 vis q k + (if k = q then 1 else ab k) = vis k + ab k := by
      intro k
      unfold drop1
      split
      · next h => subst h; rw [hq0]; omega
      · rfl
    suffices U2 : UpInv M (drop1 vis q) (fun k => if k = q then 1 else ab k) by
      obtain ⟨ab', U', hs⟩ := ih _ U2
      exact ⟨ab', U', fun k => (hs k).trans (hsum k)⟩
    refine ⟨?_, ?_⟩
    · intro k
      by_cases hk : k = q
      · right
        subst hk
        unfold drop1
        simp [h1]
      · have := U.flag k
        unfold drop1
        simpa [hk] using this
    · intro o ho k hk
      have ho' : IxLoop M (fun k => vis k + ab k) o := by
        have : (fun k => drop1 vis q k + (if k = q then 1 else ab k)) = fun k => vis k + ab k := funext hsum
        rw [this] at ho; exact ho
      have h0 := U.none o ho'
      have hnq : q ∉ o := by
        refine hx vis q m h3 o (ho'.mono fun k hk => ?_)
        have h5 := ho'.live k hk
        have h6 := h0 k hk
        simp only [h6] at h5
        omega
      have : k ≠ q := fun h => hnq (h ▸ hk)
      rw [if_neg this]
      exact h0 k hk

/-- The rest of visits after a run. -/
theorem Run.complete {Q : (Nat → Int) → Nat → List C → K → Prop} (hx : Excludes M Q) (hd : M.cols.Nodup)
    {vis : Nat → Int} {ls : List (List C)} (h : Run W M Q vis ls) : ∀ ab, UpInv M vis ab → (∀ k, 0 ≤ vis k) →
    ∀ rem : Nat → Int, (∀ k c, M.cols[k]? = some c →
      rem k = vis k + ab k - (ls.countP (fun l => decide (c ∈ l)) : Int)) →
    ∀ o, IxLoop M rem o → ∀ k ∈ o, rem k ≠ 1 := by
  induction h with
  | done vis vis' s' F hb =>
    intro ab U h0 rem hrem o ho k hk h1
    obtain ⟨ab', U', hs⟩ := F.up.inv hx ab U
    rcases F.done with ⟨-, h⟩ | ⟨q, -, -, h, -⟩
    · have hr : ∀ k ∈ o, rem k = vis' k + ab' k := by
        intro k hk
        have := hrem k _ (List.getElem?_eq_getElem (ho.lt k hk))
        rw [this, hs]
        simp
      have h2 := U'.none o (ho.mono fun k hk => by
        show 0 < vis' k + ab' k
        rw [← hr k hk]; exact ho.live k hk) k hk
      have h3 := hr k hk
      rw [h1, h2] at h3
      exact h k (ho.lt k hk) (by omega)
    · exact absurd hb h
  | next vis vis' s' ls F hb r ih =>
    intro ab U h0 rem hrem
    obtain ⟨ab', U', hs⟩ := F.up.inv hx ab U
    have hn := F.spend_nonneg hd h0
    refine ih ab' ⟨?_, ?_⟩ hn rem ?_
    · intro k
      rcases U'.flag k with h | ⟨h, h'⟩
      · exact Or.inl h
      · refine Or.inr ⟨h, ?_⟩
        have h1 := spend_le (M := M) vis' s'.best k
        have h2 := hn k
        omega
    · intro o ho k hk
      refine U'.none o (ho.mono fun k hk => ?_) k hk
      have h1 := ho.live k hk
      have h2 := spend_le (M := M) vis' s'.best k
      omega
    · intro k c hc
      rw [hrem k c hc, List.countP_cons, ← hs k]
      have h3 : spend M vis' s'.best k = if c ∈ s'.best then vis' k - 1 else vis' k := by
        unfold spend; rw [hc]
      rw [h3]
      by_cases hm : c ∈ s'.best
      · rw [if_pos hm, if_pos (decide_eq_true hm)]
        push_cast
        omega
      · rw [if_neg hm, if_neg (by simp [hm])]
        push_cast
        omega

/-- Each loop of a run, with the visits left before it. -/
theorem Run.before {Q : (Nat → Int) → Nat → List C → K → Prop} (hx : Excludes M Q) (hd : M.cols.Nodup)
    {vis : Nat → Int} {ls : List (List C)} (h : Run W M Q vis ls) : ∀ ab, UpInv M vis ab → (∀ k, 0 ≤ vis k) →
    ∀ pre l post, ls = pre ++ l :: post → ∀ rem : Nat → Int, (∀ k c, M.cols[k]? = some c →
      rem k = vis k + ab k - (pre.countP (fun l => decide (c ∈ l)) : Int)) →
    ∃ vis' q m o, Q vis' q l m ∧ m = W.total l ∧ IxLoop M vis' o ∧ o.head? = some q ∧ elements M o = some l ∧
      rem q = 1 ∧ q < M.cols.length ∧ ∀ L, IxLoop M rem L → IxLoop M vis' L := by
  induction h with
  | done vis vis' s' F hb =>
    intro ab U h0 pre l post he
    simp at he
  | next vis vis' s' ls F hb r ih =>
    intro ab U h0 pre l post he rem hrem
    obtain ⟨ab', U', hs⟩ := F.up.inv hx ab U
    cases pre with
    | nil =>
      simp only [List.nil_append, List.cons.injEq] at he
      obtain ⟨rfl, rfl⟩ := he
      rcases F.done with ⟨h, -⟩ | ⟨q, h1, h2, -, h3, h4⟩
      · exact absurd h hb
      · rcases h3.ok with h | ⟨o, ho, hh, he, hm⟩
        · exact absurd h hb
        · have hr : ∀ k < M.cols.length, rem k = vis' k + ab' k := by
            intro k hk
            have := hrem k _ (List.getElem?_eq_getElem hk)
            rw [this, hs]
            simp
          have hq0 : ab' q = 0 := by
            rcases U'.flag q with h | ⟨-, h⟩
            · exact h
            · omega
          refine ⟨vis', q, s'.bm, o, h4, hm, ho, hh, he, by rw [hr q h2]; omega, h2, fun L hL => ?_⟩
          have hL' : IxLoop M (fun k => vis' k + ab' k) L := hL.mono fun k hk => by
            show 0 < vis' k + ab' k
            rw [← hr k (hL.lt k hk)]; exact hL.live k hk
          refine hL'.mono fun k hk => ?_
          have h5 := hL'.live k hk
          have h6 := U'.none L hL' k hk
          omega
    | cons p pre =>
      simp only [List.cons_append, List.cons.injEq] at he
      obtain ⟨rfl, he⟩ := he
      have hn := F.spend_nonneg hd h0
      refine ih ab' ⟨?_, ?_⟩ hn pre l post he rem ?_
      · intro k
        rcases U'.flag k with h | ⟨h, h'⟩
        · exact Or.inl h
        · refine Or.inr ⟨h, ?_⟩
          have h1 := spend_le (M := M) vis' s'.best k
          have h2 := hn k
          omega
      · intro o ho k hk
        refine U'.none o (ho.mono fun k hk => ?_) k hk
        have h1 := ho.live k hk
        have h2 := spend_le (M := M) vis' s'.best k
        omega
      · intro k c hc
        rw [hrem k c hc, List.countP_cons, ← hs k]
        have h3 : spend M vis' s'.best k = if c ∈ s'.best then vis' k - 1 else vis' k := by
          unfold spend; rw [hc]
        rw [h3]
        by_cases hm : c ∈ s'.best
        · rw [if_pos hm, if_pos (decide_eq_true hm)]
          push_cast
          omega
        · rw [if_neg hm, if_neg (by simp [hm])]
          push_cast
          omega

end Verif.Incident
