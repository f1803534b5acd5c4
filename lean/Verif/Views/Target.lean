import Verif.Views.Assign

/-!
# Assignments to matrices, traces and sums of products
-/

namespace Verif.Views

variable {R : Type} [CommRing R] [Div R]

omit [CommRing R] [Div R] in
theorem mats_eq {s t : State R} (hs : SameSize s t) {k : Nat} (h : ∀ p, load t (.elem k p) = load s (.elem k p)) : t.mats k = s.mats k := by
  have hn := (hs k).1
  have hm := (hs k).2.1
  have ha : (t.mats k).a = (s.mats k).a := List.ext_getElem? h
  cases ht : t.mats k with
  | mk n m a =>
    cases hs' : s.mats k with
    | mk n' m' a' =>
      rw [ht, hs'] at hn hm ha
      simp only at hn hm ha
      rw [hn, hm, ha]

omit [CommRing R] [Div R] in
theorem set_same (s : State R) (k : Nat) : s.set k (s.mats k) = s := by
  cases s with
  | mk mats zero =>
    simp only [State.set]
    congr 1
    funext k'
    by_cases h : k' = k
    · rw [if_pos h, h]
    · rw [if_neg h]

omit [CommRing R] [Div R] in
theorem set_get (s : State R) (k : Nat) (M : Mat R) : (s.set k M).mats k = M := by simp [State.set]

omit [CommRing R] [Div R] in
theorem set_get_ne (s : State R) {k k' : Nat} (M : Mat R) (h : k' ≠ k) : (s.set k M).mats k' = s.mats k' := by simp [State.set, h]

omit [CommRing R] [Div R] in
theorem set_set (s : State R) (k : Nat) (M N : Mat R) : (s.set k M).set k N = s.set k N := by
  simp only [State.set]
  congr 1
  funext k'
  by_cases h : k' = k
  · rw [if_pos h, if_pos h]
  · rw [if_neg h, if_neg h, if_neg h]

omit [CommRing R] in
theorem full_shows [Zero R] (s : State R) (k : Nat) (h : (s.mats k).a.length = (s.mats k).n * (s.mats k).m) :
    ∃ A, Shows s (.mat k) ⟨(s.mats k).n, (s.mats k).m, A⟩ := by
  refine ⟨fun i j => (s.mats k).a[i * (s.mats k).m + j]?.getD 0, .mat ⟨rfl, rfl, h, fun i hi j hj => ?_⟩⟩
  have : i * (s.mats k).m + j < (s.mats k).a.length := h ▸ index_lt hi hj
  simp only [List.getElem?_eq_getElem this, Option.getD_some]

omit [Div R] in
theorem resize_length (a : List R) (k : Nat) : (resize a k).length = k := by
  simp [resize]
  omega

/-- Assignment to a matrix that the right side does not use, after its sizes are set. -/
theorem fresh_spec {s : State R} (hz : s.zero = 0) {k : Nat} {e : Ex R} {S : Table R} (he : Means s e S) (hk : k ∉ e.mats) {M : Mat R}
    (hn : M.n = S.n) (hm : M.m = S.m) (hl : M.a.length = M.n * M.m) :
    ∃ t, assignLoop (.mat k) e (s.set k M) = some t ∧ Shows t (.mat k) S ∧ t.zero = s.zero ∧ ∀ k', k' ≠ k → t.mats k' = s.mats k' := by
  have he' : Means (s.set k M) e S := means_mats he (fun k' hk' => set_get_ne s M (fun h => hk (h ▸ hk')))
  have hg := set_get s k M
  obtain ⟨A, hA⟩ := full_shows (s.set k M) k (by rw [hg]; exact hl)
  obtain ⟨t, h1, h2, h3, h4, h5⟩ := assignLoop_spec (s := s.set k M) (.mat k) hz hA he' (by simp only [hg]; exact hn.symm)
    (by simp only [hg]; exact hm.symm) (.other (fun k' hk' => by simp only [Lv.mats, List.mem_singleton]; rintro rfl; exact hk hk'))
  refine ⟨t, h1, h2, h4, fun k' hk' => ?_⟩
  rw [mats_eq h3 (k := k') (fun p => h5 _ ?_), set_get_ne s M hk']
  intro i hi j hj hr
  simp only [Lv.ref] at hr
  split at hr
  · injection (Option.some.inj hr) with h _
    exact hk' h.symm
  · cases hr

/-- Assignment to a matrix that the right side uses element by element only. -/
theorem same_spec {s : State R} (hz : s.zero = 0) {k : Nat} (hl : (s.mats k).a.length = (s.mats k).n * (s.mats k).m) {e : Ex R} {S : Table R}
    (he : Means s e S) (hp : Pointwise (.mat k) e) (hn : S.n = (s.mats k).n) (hm : S.m = (s.mats k).m) :
    ∃ t, assignLoop (.mat k) e s = some t ∧ Shows t (.mat k) S ∧ t.zero = s.zero ∧ ∀ k', k' ≠ k → t.mats k' = s.mats k' := by
  obtain ⟨A, hA⟩ := full_shows s k hl
  obtain ⟨t, h1, h2, h3, h4, h5⟩ := assignLoop_spec (.mat k) hz hA he hn hm hp
  refine ⟨t, h1, h2, h4, fun k' hk' => mats_eq h3 (fun p => h5 _ ?_)⟩
  intro i hi j hj hr
  simp only [Lv.ref] at hr
  split at hr
  · injection (Option.some.inj hr) with h _
    exact hk' h.symm
  · cases hr

theorem assignMat_spec {s : State R} (hz : s.zero = 0) {k : Nat} (hl : (s.mats k).a.length = (s.mats k).n * (s.mats k).m) {e : Ex R}
    {S : Table R} (he : Means s e S) (hp : Pointwise (.mat k) e) :
    ∃ t, assignMat s k e = some t ∧ Shows t (.mat k) S ∧ t.zero = s.zero ∧ ∀ k', k' ≠ k → t.mats k' = s.mats k' := by
  rcases pointwise_size (s := s) hp with hd | hs
  · have hk : k ∉ e.mats := fun h => hd k h (by simp [Lv.mats])
    have hsz : ∀ M : Mat R, e.rows (s.set k M) = S.n ∧ e.cols (s.set k M) = S.m := fun M =>
      means_size (means_mats he (fun k' hk' => set_get_ne s M (fun h => hk (h ▸ hk'))))
    simp only [assignMat]
    rw [(means_size he).1, (means_size he).2]
    have hr : ∀ M, e.rows (s.set k M) = S.n := fun M => (hsz M).1
    have hc : ∀ M, e.cols (s.set k M) = S.m := fun M => (hsz M).2
    simp only [hr, hc, set_get, set_set]
    refine fresh_spec hz he hk rfl rfl ?_
    by_cases hc : (s.mats k).m * (s.mats k).n ≠ S.m * S.n
    · simp only [if_pos hc]
      rw [resize_length, Nat.mul_comm]
    · simp only [if_neg hc]
      rw [hl, Nat.mul_comm, Nat.mul_comm S.n]
      exact not_not.1 hc
  · have hn := (hs S he).1
    have hm := (hs S he).2
    have hn' : S.n = (s.mats k).n := hn
    have hm' : S.m = (s.mats k).m := hm
    simp only [assignMat]
    rw [(means_size he).1, (means_size he).2, hn', hm', if_neg (not_not.2 rfl), set_same, (means_size he).1, hn', set_same, (means_size he).2, hm',
      set_same]
    exact same_spec hz hl he hp hn' hm'

theorem assign_mat_spec {s : State R} (hz : s.zero = 0) {k : Nat} {e : Ex R} {S : Table R} (he : Means s e S) (hk : k ∉ e.mats) :
    ∃ t, assign s (.mat k) e = some t ∧ Shows t (.mat k) S ∧ t.zero = s.zero ∧ ∀ k', k' ≠ k → t.mats k' = s.mats k' := by
  simp only [assign, Lv.resize, (means_size he).1, (means_size he).2, Option.bind_some]
  refine fresh_spec hz he hk rfl rfl ?_
  by_cases hc : (s.mats k).a.length ≠ S.m * S.n
  · simp only [if_pos hc]
    rw [resize_length, Nat.mul_comm]
  · simp only [if_neg hc]
    rw [not_not.1 hc, Nat.mul_comm]

theorem assign_window_spec {s : State R} {v : Lv} (hw : Window v) (hv : ∀ k, v ≠ .mat k) {T S : Table R} (hz : s.zero = 0) (hT : Shows s v T)
    {e : Ex R} (he : Means s e S) (hn : S.n = T.n) (hm : S.m = T.m) (hp : Pointwise v e) :
    ∃ t, assign s v e = some t ∧ Shows t v S ∧ SameSize s t ∧ t.zero = s.zero ∧
      ∀ l, (∀ i < T.n, ∀ j < T.m, v.ref s i j ≠ some l) → load t l = load s l := by
  have hr : v.resize s (e.rows s) (e.cols s) = some s := by
    rw [(means_size he).1, (means_size he).2]
    have h1 := (shows_size hT).1
    have h2 := (shows_size hT).2
    cases v with
    | mat k => exact absurd rfl (hv k)
    | _ => simp only [Lv.resize]; rw [if_pos ⟨by rw [h2, hm], by rw [h1, hn]⟩]
  rw [assign, hr]
  exact assignLoop_spec hw hz hT he hn hm hp

theorem compound_spec {s : State R} {v : Lv} (hw : Window v) {T U S : Table R} (f : R → R → R) (hz : s.zero = 0) (hT : Shows s v T) {e : Ex R}
    (he : Means s e U) (hS : IsMap2 f T U S) (hp : Pointwise v e) :
    ∃ t, compound f s v e = some t ∧ Shows t v S ∧ SameSize s t ∧ t.zero = s.zero ∧
      ∀ l, (∀ i < T.n, ∀ j < T.m, v.ref s i j ≠ some l) → load t l = load s l := by
  obtain ⟨e1, e2, e3, e4, e5⟩ := hS
  rw [compound, if_pos ⟨by rw [(shows_size hT).1, (means_size he).1, e1], by rw [(shows_size hT).2, (means_size he).2, e2]⟩,
    (shows_size hT).1, (shows_size hT).2]
  obtain ⟨t, h1, h2, h3⟩ := write_spec hw hz hT (fun i j => f (T.A i j) (U.A i j))
    (fun i j t => (v.get t i j).bind fun x => (e.at t i j).map fun y => f x y) (by
      intro i hi j hj t hb
      have hx : v.get t i j = some (T.A i j) := by
        have := pointwise_at hw hT hi hj hb (e := .lv v) .self
        simp only [Ex.at, window_cget hw] at this
        rw [this]
        exact shows_get hz hT i hi j hj
      rw [hx, pointwise_at hw hT hi hj hb hp, means_at hz he i (by omega) j (by omega)]
      rfl)
  refine ⟨t, ?_, shows_ext hw h2 e3 e4 (fun i hi j hj => e5 i (e3 ▸ hi) j (e4 ▸ hj)), h3⟩
  rw [← h1]
  congr 1
  funext i j t
  cases v.get t i j with
  | none => rfl
  | some x =>
    cases e.at t i j with
    | none => rfl
    | some y => rfl

theorem compoundC_spec {s : State R} {v : Lv} (hw : Window v) {T S : Table R} (f : R → R) (hz : s.zero = 0) (hT : Shows s v T)
    (hS : IsMap f T S) :
    ∃ t, compoundC f s v = some t ∧ Shows t v S ∧ SameSize s t ∧ t.zero = s.zero ∧
      ∀ l, (∀ i < T.n, ∀ j < T.m, v.ref s i j ≠ some l) → load t l = load s l := by
  obtain ⟨e3, e4, e5⟩ := hS
  rw [compoundC, (shows_size hT).1, (shows_size hT).2]
  obtain ⟨t, h1, h2, h3⟩ := write_spec hw hz hT (fun i j => f (T.A i j)) (fun i j t => (v.get t i j).map f) (by
      intro i hi j hj t hb
      have := pointwise_at hw hT hi hj hb (e := .lv v) .self
      simp only [Ex.at, window_cget hw] at this
      rw [this, shows_get hz hT i hi j hj]
      rfl)
  refine ⟨t, ?_, shows_ext hw h2 e3 e4 (fun i hi j hj => e5 i (e3 ▸ hi) j (e4 ▸ hj)), h3⟩
  rw [← h1]
  congr 1
  funext i j t
  cases v.get t i j with
  | none => rfl
  | some x => rfl

theorem trace_spec {s : State R} (hz : s.zero = 0) {e : Ex R} {T : Table R} (h : Means s e T) (hsq : T.n = T.m) :
    trace s e = some (∑ i ∈ Finset.range T.n, T.A i i) := by
  rw [trace, if_pos (by rw [(means_size h).1, (means_size h).2, hsq]), (means_size h).1]
  obtain ⟨r, h1, h2⟩ := loop_rule (fun i (r : R) => r = ∑ k ∈ Finset.range i, T.A k k)
    (fun i ret => (e.at s i i).map fun x => ret + x) T.n 0 0 (by simp) (by
      rintro i r - hi hr
      rw [means_at hz h i (by omega) i (by omega)]
      exact ⟨_, rfl, by rw [Finset.sum_range_succ, hr]⟩)
  rw [h1, h2, Nat.zero_add]

theorem dot_spec {s : State R} (hz : s.zero = 0) {a b : Ex R} {T U : Table R} (ha : Means s a T) (hb : Means s b U) (hn : T.n = U.n)
    (hm : T.m = U.m) : dot s a b = some (∑ i ∈ Finset.range T.n, ∑ j ∈ Finset.range T.m, T.A i j * U.A i j) := by
  rw [dot, if_pos ⟨by rw [(means_size ha).2, (means_size hb).2, hm], by rw [(means_size ha).1, (means_size hb).1, hn]⟩, (means_size ha).1,
    (means_size ha).2]
  obtain ⟨r, h1, h2⟩ := loop2_rule
    (fun i j (r : R) => r = ∑ k ∈ Finset.range i, ∑ l ∈ Finset.range T.m, T.A k l * U.A k l + ∑ l ∈ Finset.range j, T.A i l * U.A i l)
    (fun i j ret => (a.at s i j).bind fun x => (b.at s i j).map fun y => ret + x * y) T.n T.m 0 (by simp) (by
      rintro i hi j hj r hr
      rw [means_at hz ha i hi j hj, means_at hz hb i (by omega) j (by omega)]
      refine ⟨_, rfl, ?_⟩
      rw [Finset.sum_range_succ _ j, hr]
      exact add_assoc _ _ _)
    (by
      rintro i hi r hr
      rw [Finset.sum_range_succ _ i, hr]
      simp)
  rw [h1, h2]
  simp

end Verif.Views
