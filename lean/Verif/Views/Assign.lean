import Verif.Views.Product

/-!
# Assignments element by element
-/

namespace Verif.Views

variable {R : Type}

/-- The sizes of all matrices are equal. -/
def SameSize (s t : State R) : Prop :=
  ∀ k, (t.mats k).n = (s.mats k).n ∧ (t.mats k).m = (s.mats k).m ∧ (t.mats k).a.length = (s.mats k).a.length

theorem SameSize.refl (s : State R) : SameSize s s := fun _ => ⟨rfl, rfl, rfl⟩

theorem SameSize.trans {s t u : State R} (h : SameSize s t) (h' : SameSize t u) : SameSize s u :=
  fun k => ⟨(h' k).1.trans (h k).1, (h' k).2.1.trans (h k).2.1, (h' k).2.2.trans (h k).2.2⟩

theorem store_spec {s : State R} {l : Loc} {x y : R} (h : load s l = some y) :
    ∃ s', store s l x = some s' ∧ SameSize s s' ∧ ∀ l', load s' l' = if l' = l then some x else load s l' := by
  cases l with
  | zero =>
    refine ⟨{ s with zero := x }, rfl, fun _ => ⟨rfl, rfl, rfl⟩, fun l' => ?_⟩
    cases l' with
    | zero => rw [if_pos rfl]; rfl
    | elem k p => rw [if_neg (by intro h; cases h)]; rfl
  | elem k p =>
    obtain ⟨hp, _⟩ := List.getElem?_eq_some_iff.1 (show (s.mats k).a[p]? = some y from h)
    refine ⟨{ s with mats := fun k' => if k' = k then { s.mats k with a := (s.mats k).a.set p x } else s.mats k' },
      by simp only [store]; rw [if_pos hp], fun k' => ?_, fun l' => ?_⟩
    · simp only []
      by_cases hk : k' = k
      · rw [if_pos hk, hk]; simp
      · rw [if_neg hk]; exact ⟨rfl, rfl, rfl⟩
    · cases l' with
      | zero => rw [if_neg (by intro h; cases h)]; rfl
      | elem k' p' =>
        simp only [load]
        by_cases hk : k' = k
        · subst hk
          rw [if_pos rfl, List.getElem?_set]
          by_cases hp' : p = p'
          · rw [if_pos hp', if_pos hp, if_pos (by rw [hp'])]
          · rw [if_neg hp', if_neg (by intro h; injection h with _ h; exact hp' h.symm)]
        · rw [if_neg hk, if_neg (by intro h; injection h with h _; exact hk h)]

theorem size_congr {s t : State R} (h : SameSize s t) (v : Lv) : v.rows t = v.rows s ∧ v.cols t = v.cols s := by
  induction v with
  | mat k => exact ⟨(h k).1, (h k).2.1⟩
  | sub v _ _ _ _ _ => exact ⟨rfl, rfl⟩
  | block v _ _ _ _ _ => exact ⟨rfl, rfl⟩
  | tr v ih => exact ⟨ih.2, ih.1⟩
  | catR v w ih1 ih2 => exact ⟨congrArg₂ (· + ·) ih1.1 ih2.1, ih1.2⟩
  | catC v w ih1 ih2 => exact ⟨ih1.1, congrArg₂ (· + ·) ih1.2 ih2.2⟩
  | repack v _ _ _ => exact ⟨rfl, rfl⟩

theorem ref_congr {s t : State R} (h : SameSize s t) (v : Lv) : ∀ i j, v.ref t i j = v.ref s i j := by
  induction v with
  | mat k => intro i j; simp only [Lv.ref, (h k).1, (h k).2.1]
  | sub v _ _ _ _ ih => intro i j; simp only [Lv.ref, ih]
  | block v _ _ _ _ ih => intro i j; simp only [Lv.ref, ih, (size_congr h v).1, (size_congr h v).2]
  | tr v ih => intro i j; exact ih j i
  | catR v w ih1 ih2 => intro i j; simp only [Lv.ref, ih1, ih2, (size_congr h v).1]
  | catC v w ih1 ih2 => intro i j; simp only [Lv.ref, ih1, ih2, (size_congr h v).2]
  | repack v _ _ ih => intro i j; simp only [Lv.ref, ih, (size_congr h v).2]

theorem ref_mats {s : State R} (v : Lv) : ∀ i j l, v.ref s i j = some l → l = .zero ∨ ∃ k ∈ v.mats, ∃ p, l = .elem k p := by
  induction v with
  | mat k =>
    intro i j l h
    simp only [Lv.ref] at h
    split at h
    · exact Or.inr ⟨k, by simp [Lv.mats], _, (Option.some.inj h).symm⟩
    · cases h
  | sub v _ _ _ _ ih =>
    intro i j l h
    simp only [Lv.ref] at h
    split at h
    · exact ih _ _ _ h
    · cases h
  | block v _ _ _ _ ih =>
    intro i j l h
    simp only [Lv.ref] at h
    split at h
    · split at h
      · exact Or.inl (Option.some.inj h).symm
      · exact ih _ _ _ h
    · cases h
  | tr v ih => intro i j l h; exact ih _ _ _ h
  | catR v w ih1 ih2 =>
    intro i j l h
    simp only [Lv.ref] at h
    simp only [Lv.mats, List.mem_append]
    split at h
    · rcases ih1 _ _ _ h with h | ⟨k, hk, h⟩
      · exact Or.inl h
      · exact Or.inr ⟨k, Or.inl hk, h⟩
    · rcases ih2 _ _ _ h with h | ⟨k, hk, h⟩
      · exact Or.inl h
      · exact Or.inr ⟨k, Or.inr hk, h⟩
  | catC v w ih1 ih2 =>
    intro i j l h
    simp only [Lv.ref] at h
    simp only [Lv.mats, List.mem_append]
    split at h
    · rcases ih1 _ _ _ h with h | ⟨k, hk, h⟩
      · exact Or.inl h
      · exact Or.inr ⟨k, Or.inl hk, h⟩
    · rcases ih2 _ _ _ h with h | ⟨k, hk, h⟩
      · exact Or.inl h
      · exact Or.inr ⟨k, Or.inr hk, h⟩
  | repack v _ _ ih =>
    intro i j l h
    simp only [Lv.ref] at h
    split at h
    · cases h
    · exact ih _ _ _ h

/-- A window of a matrix never refers to the variable `zero`. -/
theorem window_ref {s : State R} {v : Lv} (hw : Window v) : ∀ i j l, v.ref s i j = some l → ∃ k ∈ v.mats, ∃ p, l = .elem k p := by
  induction hw with
  | mat k =>
    intro i j l h
    simp only [Lv.ref] at h
    split at h
    · exact ⟨k, by simp [Lv.mats], _, (Option.some.inj h).symm⟩
    · cases h
  | sub _ _ _ _ _ ih =>
    intro i j l h
    simp only [Lv.ref] at h
    split at h
    · exact ih _ _ _ h
    · cases h
  | tr _ ih => intro i j l h; exact ih _ _ _ h
  | repack _ _ _ ih =>
    intro i j l h
    simp only [Lv.ref] at h
    split at h
    · cases h
    · exact ih _ _ _ h

/-- Different positions of a window are different places. -/
theorem window_inj [Zero R] {s : State R} {v : Lv} (hw : Window v) : ∀ {T : Table R}, Shows s v T →
    ∀ i < T.n, ∀ j < T.m, ∀ i' < T.n, ∀ j' < T.m, ∀ l, v.ref s i j = some l → v.ref s i' j' = some l → i = i' ∧ j = j' := by
  induction hw with
  | mat k =>
    intro T h i hi j hj i' hi' j' hj' l h1 h2
    cases h with
    | mat h =>
      obtain ⟨e1, e2, _⟩ := h
      simp only [Lv.ref] at h1 h2
      rw [if_pos (by omega)] at h1 h2
      have := (Option.some.inj h1).trans (Option.some.inj h2).symm
      injection this with _ hp
      exact index_inj (by omega) (by omega) hp
  | sub brow erow bcol ecol _ ih =>
    intro T h i hi j hj i' hi' j' hj' l h1 h2
    cases h with
    | sub h e =>
      obtain ⟨e1, e2, e3, e4, _⟩ := e
      simp only [Lv.ref] at h1 h2
      rw [if_pos (by omega)] at h1 h2
      have := ih h (i + brow) (by omega) (j + bcol) (by omega) (i' + brow) (by omega) (j' + bcol) (by omega) l h1 h2
      omega
  | tr _ ih =>
    intro T h i hi j hj i' hi' j' hj' l h1 h2
    cases h with
    | tr h e =>
      obtain ⟨e1, e2, _⟩ := e
      exact (ih h j (by omega) i (by omega) j' (by omega) i' (by omega) l h1 h2).symm
  | repack n m _ ih =>
    intro T h i hi j hj i' hi' j' hj' l h1 h2
    cases h with
    | @repack _ T0 _ _ _ h e =>
      obtain ⟨e1, e2, e3, _⟩ := e
      obtain ⟨a1, a2, a3, a4⟩ := repack_index e3 (i := i) (j := j) (by omega) (by omega)
      obtain ⟨b1, b2, b3, b4⟩ := repack_index e3 (i := i') (j := j') (by omega) (by omega)
      simp only [Lv.ref] at h1 h2
      rw [(shows_size h).2, if_neg a1] at h1 h2
      have := ih h _ a2 _ a3 _ b2 _ b3 l h1 h2
      have hp : i * m + j = i' * m + j' := by rw [a4, b4, this.1, this.2]
      exact index_inj (by omega) (by omega) hp

/-- The table shown by an object depends on its elements inside of the sizes only. -/
theorem shows_ext [Zero R] {s : State R} {v : Lv} (hw : Window v) {T S : Table R} (h : Shows s v T) (h1 : S.n = T.n) (h2 : S.m = T.m)
    (h3 : ∀ i < T.n, ∀ j < T.m, S.A i j = T.A i j) : Shows s v S := by
  cases h with
  | mat h =>
    obtain ⟨e1, e2, e3, e4⟩ := h
    refine .mat ⟨by omega, by omega, e3, fun i hi j hj => ?_⟩
    rw [h3 i (by omega) j (by omega)]
    exact e4 i (by omega) j (by omega)
  | sub h e =>
    obtain ⟨e1, e2, e3, e4, e5⟩ := e
    refine .sub h ⟨by omega, by omega, by omega, by omega, fun i hi j hj => ?_⟩
    rw [h3 i (by omega) j (by omega)]
    exact e5 i (by omega) j (by omega)
  | block h e => cases hw
  | tr h e =>
    obtain ⟨e1, e2, e3⟩ := e
    refine .tr h ⟨by omega, by omega, fun i hi j hj => ?_⟩
    rw [h3 i (by omega) j (by omega)]
    exact e3 i (by omega) j (by omega)
  | catR _ _ _ => cases hw
  | catC _ _ _ => cases hw
  | repack h e =>
    obtain ⟨e1, e2, e3, e4⟩ := e
    refine .repack h ⟨by omega, by omega, e3, fun i hi j hj i' hi' j' hj' hp => ?_⟩
    rw [h3 i (by omega) j (by omega)]
    exact e4 i hi j hj i' hi' j' hj' hp

/-- Sizes being equal, an object shows a table of the same size. -/
theorem shows_same [Zero R] {s t : State R} (hs : SameSize s t) {v : Lv} (hw : Window v) : ∀ {T : Table R}, Shows s v T →
    ∃ A, Shows t v ⟨T.n, T.m, A⟩ := by
  induction hw with
  | mat k =>
    intro T h
    cases h with
    | mat h =>
      obtain ⟨e1, e2, e3, _⟩ := h
      refine ⟨fun i j => (t.mats k).a[i * (t.mats k).m + j]?.getD 0, .mat ⟨e1.trans (hs k).1.symm, e2.trans (hs k).2.1.symm, ?_, ?_⟩⟩
      · rw [(hs k).2.2, (hs k).1, (hs k).2.1, e3]
      · intro i hi j hj
        have : i * (t.mats k).m + j < (t.mats k).a.length := by
          rw [(hs k).2.2, (hs k).2.1, e3]
          exact index_lt (e1 ▸ hi) (e2 ▸ hj)
        simp only [List.getElem?_eq_getElem this, Option.getD_some]
  | sub brow erow bcol ecol _ ih =>
    intro T h
    cases h with
    | sub h e =>
      obtain ⟨e1, e2, e3, e4, _⟩ := e
      obtain ⟨A, hA⟩ := ih h
      exact ⟨fun i j => A (brow + i) (bcol + j), .sub hA ⟨e1, e2, e3, e4, fun _ _ _ _ => rfl⟩⟩
  | tr _ ih =>
    intro T h
    cases h with
    | tr h e =>
      obtain ⟨A, hA⟩ := ih h
      exact ⟨fun i j => A j i, .tr hA ⟨e.1, e.2.1, fun _ _ _ _ => rfl⟩⟩
  | repack n m _ ih =>
    intro T h
    cases h with
    | @repack _ T0 _ _ _ h e =>
      obtain ⟨e1, e2, e3, _⟩ := e
      obtain ⟨A, hA⟩ := ih h
      refine ⟨fun i j => A ((i * m + j) / T0.m) ((i * m + j) % T0.m), .repack hA ⟨e1, e2, e3, ?_⟩⟩
      intro i hi j hj i' hi' j' hj' hp
      obtain ⟨a1, a2, a3, a4⟩ := repack_index e3 hi hj
      have := index_inj a3 hj' (a4.symm.trans hp)
      show A _ _ = A _ _
      rw [this.1, this.2]

/-- A window is read through the operator without `const`. -/
theorem window_cget [Zero R] {s : State R} {v : Lv} (hw : Window v) (i j : Nat) : v.cget s i j = v.get s i j := by
  cases hw <;> rfl

section
variable [CommRing R] [Div R]

theorem esize_congr {s t : State R} (h : SameSize s t) (e : Ex R) : e.rows t = e.rows s ∧ e.cols t = e.cols s := by
  induction e with
  | lv v => simp only [Ex.rows, Ex.cols]; exact size_congr h v
  | tr a ih => simp only [Ex.rows, Ex.cols]; exact ⟨ih.2, ih.1⟩
  | catR a b ih1 ih2 => simp only [Ex.rows, Ex.cols, ih1, ih2, and_self]
  | catC a b ih1 ih2 => simp only [Ex.rows, Ex.cols, ih1, ih2, and_self]
  | kron a b ih1 ih2 => simp only [Ex.rows, Ex.cols, ih1, ih2, and_self]
  | sum a b ih1 ih2 => simp only [Ex.rows, Ex.cols, ih1, and_self]
  | diff a b ih1 ih2 => simp only [Ex.rows, Ex.cols, ih1, and_self]
  | neg a ih => simp only [Ex.rows, Ex.cols, ih, and_self]
  | scale a _ ih => simp only [Ex.rows, Ex.cols, ih, and_self]
  | quot a _ ih => simp only [Ex.rows, Ex.cols, ih, and_self]
  | _ => simp only [Ex.rows, Ex.cols, and_self]

/-- Two states give the same values at the matrices of a list and at `zero`. -/
def Agree (ks : List Nat) (s t : State R) : Prop := SameSize s t ∧ t.zero = s.zero ∧ ∀ k ∈ ks, ∀ p, load t (.elem k p) = load s (.elem k p)

theorem Agree.mono {ks ks' : List Nat} {s t : State R} (h : Agree ks s t) (hk : ∀ k ∈ ks', k ∈ ks) : Agree ks' s t :=
  ⟨h.1, h.2.1, fun k hk' => h.2.2 k (hk k hk')⟩

theorem get_congr {s t : State R} {v : Lv} (h : Agree v.mats s t) (i j : Nat) : v.get t i j = v.get s i j := by
  rw [Lv.get, Lv.get, ref_congr h.1]
  cases hr : v.ref s i j with
  | none => rfl
  | some l =>
    rcases ref_mats v i j l hr with rfl | ⟨k, hk, p, rfl⟩
    · exact congrArg some h.2.1
    · exact h.2.2 k hk p

theorem cget_congr {s t : State R} {v : Lv} (h : Agree v.mats s t) (i j : Nat) : v.cget t i j = v.cget s i j := by
  cases v with
  | block v nrows ncols orow ocol =>
    simp only [Lv.cget, (size_congr h.1 v).1, (size_congr h.1 v).2, get_congr (v := v) h]
  | _ => exact get_congr h i j

theorem at_congr {s t : State R} (e : Ex R) : Agree e.mats s t → ∀ i j, e.at t i j = e.at s i j := by
  induction e with
  | lv v => intro h i j; exact cget_congr h i j
  | sum a b ih1 ih2 | diff a b ih1 ih2 =>
    intro h i j
    simp only [Ex.at, ih1 (h.mono (fun k hk => by simp [Ex.mats, hk])), ih2 (h.mono (fun k hk => by simp [Ex.mats, hk]))]
  | neg a ih => intro h i j; simp only [Ex.at, ih h]
  | tr a ih => intro h i j; exact ih h j i
  | catR a b ih1 ih2 | catC a b ih1 ih2 =>
    intro h i j
    simp only [Ex.at, ih1 (h.mono (fun k hk => by simp [Ex.mats, hk])), ih2 (h.mono (fun k hk => by simp [Ex.mats, hk])),
      (esize_congr h.1 a).1, (esize_congr h.1 a).2]
  | repack a _ _ ih => intro h i j; simp only [Ex.at, ih h, (esize_congr h.1 a).2]
  | sub a _ _ _ _ ih => intro h i j; simp only [Ex.at, ih h]
  | block a _ _ _ _ ih => intro h i j; simp only [Ex.at, ih h, (esize_congr h.1 a).1, (esize_congr h.1 a).2]
  | scale a _ ih => intro h i j; simp only [Ex.at, ih h]
  | quot a _ ih => intro h i j; simp only [Ex.at, ih h]
  | kron a b ih1 ih2 =>
    intro h i j
    simp only [Ex.at, ih1 (h.mono (fun k hk => by simp [Ex.mats, hk])), ih2 (h.mono (fun k hk => by simp [Ex.mats, hk])),
      (esize_congr h.1 b).1, (esize_congr h.1 b).2]
  | _ => intro h i j; rfl

/-- The state during an assignment to a window: only the elements before position `(i,j)` may differ. -/
def Before (s : State R) (v : Lv) (n m i j : Nat) (t : State R) : Prop :=
  SameSize s t ∧ t.zero = s.zero ∧
  ∀ l, (∀ i' < n, ∀ j' < m, (i' < i ∨ (i' = i ∧ j' < j)) → v.ref s i' j' ≠ some l) → load t l = load s l

theorem pointwise_at {s t : State R} {v : Lv} (hw : Window v) {T : Table R} (hv : Shows s v T) {i j : Nat} (hi : i < T.n) (hj : j < T.m)
    (hb : Before s v T.n T.m i j t) {e : Ex R} (he : Pointwise v e) : e.at t i j = e.at s i j := by
  induction he with
  | self =>
    show v.cget t i j = v.cget s i j
    rw [window_cget hw, window_cget hw, Lv.get, Lv.get, ref_congr hb.1]
    cases hr : v.ref s i j with
    | none => rfl
    | some l =>
      refine hb.2.2 l ?_
      intro i' hi' j' hj' hlt hr'
      have := window_inj hw hv i hi j hj i' hi' j' hj' l hr hr'
      omega
  | @other e h =>
    refine at_congr e ⟨hb.1, hb.2.1, fun k hk p => hb.2.2 _ ?_⟩ i j
    intro i' _ j' _ _ hr'
    obtain ⟨k', hk', p', hl⟩ := window_ref hw i' j' _ hr'
    injection hl with hl _
    exact h k hk (hl ▸ hk')
  | sum _ _ ih1 ih2 => simp only [Ex.at, ih1, ih2]
  | diff _ _ ih1 ih2 => simp only [Ex.at, ih1, ih2]
  | neg _ ih => simp only [Ex.at, ih]
  | scale _ ih => simp only [Ex.at, ih]
  | quot _ ih => simp only [Ex.at, ih]

/-- Writing of all elements of a window row by row. -/
theorem write_spec {s : State R} {v : Lv} (hw : Window v) {T : Table R} (hz : s.zero = 0) (hv : Shows s v T) (A : Nat → Nat → R)
    (g : Nat → Nat → State R → Option R)
    (hg : ∀ i < T.n, ∀ j < T.m, ∀ t, Before s v T.n T.m i j t → g i j t = some (A i j)) :
    ∃ t, loop2 T.n T.m (fun i j t => (g i j t).bind fun x => (v.ref t i j).bind fun l => store t l x) s = some t ∧
      Shows t v ⟨T.n, T.m, A⟩ ∧ SameSize s t ∧ t.zero = s.zero ∧
      ∀ l, (∀ i < T.n, ∀ j < T.m, v.ref s i j ≠ some l) → load t l = load s l := by
  obtain ⟨t, h1, h2, h3⟩ := loop2_rule
    (fun i j t => Before s v T.n T.m i j t ∧ ∀ i' < T.n, ∀ j' < T.m, (i' < i ∨ (i' = i ∧ j' < j)) → v.get t i' j' = some (A i' j'))
    (fun i j t => (g i j t).bind fun x => (v.ref t i j).bind fun l => store t l x) T.n T.m s
    ⟨⟨SameSize.refl s, rfl, fun _ _ => rfl⟩, fun i' _ j' _ h => by omega⟩
    (by
      rintro i hi j hj t ⟨⟨b1, b2, b3⟩, b4⟩
      have hget := shows_get hz hv i hi j hj
      rw [Lv.get] at hget
      cases hr : v.ref s i j with
      | none => rw [hr] at hget; cases hget
      | some l =>
        rw [hr] at hget
        have hlt : load t l = some (T.A i j) := by
          rw [b3 l]
          · exact hget
          · intro i' hi' j' hj' hlt hr'
            have := window_inj hw hv i hi j hj i' hi' j' hj' l hr hr'
            omega
        obtain ⟨t', c1, c2, c3⟩ := store_spec (x := A i j) hlt
        have hs' : SameSize s t' := b1.trans c2
        refine ⟨t', ?_, ⟨hs', ?_, ?_⟩, ?_⟩
        · rw [hg i hi j hj t ⟨b1, b2, b3⟩, Option.bind_some, ref_congr b1, hr]
          exact c1
        · obtain ⟨k, _, p, hl⟩ := window_ref hw i j l hr
          have := c3 .zero
          rw [if_neg (by rw [hl]; intro h; cases h)] at this
          exact (Option.some.inj this).trans b2
        · intro l' hl'
          rw [c3 l', if_neg]
          · exact b3 l' (fun i' hi' j' hj' h => hl' i' hi' j' hj' (by omega))
          · rintro rfl
            exact hl' i hi j hj (by omega) hr
        · intro i' hi' j' hj' h
          rw [Lv.get, ref_congr hs']
          by_cases hc : i' = i ∧ j' = j
          · rw [hc.1, hc.2, hr]
            show load t' l = _
            rw [c3 l, if_pos rfl]
          · have hold := b4 i' hi' j' hj' (by omega)
            rw [Lv.get, ref_congr b1] at hold
            cases hr' : v.ref s i' j' with
            | none => rw [hr'] at hold; cases hold
            | some l' =>
              rw [hr'] at hold
              show load t' l' = _
              rw [c3 l', if_neg]
              · exact hold
              · rintro rfl
                have := window_inj hw hv i hi j hj i' hi' j' hj' l' hr hr'
                omega)
    (by
      rintro i hi t ⟨⟨b1, b2, b3⟩, b4⟩
      exact ⟨⟨b1, b2, fun l hl => b3 l (fun i' hi' j' hj' h => hl i' hi' j' hj' (by omega))⟩,
        fun i' hi' j' hj' h => b4 i' hi' j' hj' (by omega)⟩)
  obtain ⟨b1, b2, b3⟩ := h2
  refine ⟨t, h1, ?_, b1, b2, fun l hl => b3 l (fun i' hi' j' hj' _ => hl i' hi' j' hj')⟩
  obtain ⟨B, hB⟩ := shows_same b1 hw hv
  refine shows_ext hw hB rfl rfl (fun i hi j hj => ?_)
  have e1 := shows_get (b2.trans hz) hB i hi j hj
  rw [h3 i hi j hj (Or.inl hi)] at e1
  exact Option.some.inj e1

/-- Assignment to a window that already has the size of the right side. -/
theorem assignLoop_spec {s : State R} {v : Lv} (hw : Window v) {T S : Table R} (hz : s.zero = 0) (hv : Shows s v T) {e : Ex R}
    (he : Means s e S) (hn : S.n = T.n) (hm : S.m = T.m) (hp : Pointwise v e) :
    ∃ t, assignLoop v e s = some t ∧ Shows t v S ∧ SameSize s t ∧ t.zero = s.zero ∧
      ∀ l, (∀ i < T.n, ∀ j < T.m, v.ref s i j ≠ some l) → load t l = load s l := by
  rw [assignLoop, (means_size he).1, (means_size he).2, hn, hm]
  obtain ⟨t, h1, h2, h3⟩ := write_spec hw hz hv S.A (fun i j t => e.at t i j) (by
    intro i hi j hj t hb
    rw [pointwise_at hw hv hi hj hb hp]
    exact means_at hz he i (by omega) j (by omega))
  exact ⟨t, h1, shows_ext hw h2 hn hm (fun _ _ _ _ => rfl), h3⟩

/-- Meaning depends on the matrices of the expression only. -/
theorem shows_mats {s t : State R} {v : Lv} {S : Table R} (h : Shows s v S) : (∀ k ∈ v.mats, t.mats k = s.mats k) → Shows t v S := by
  induction h with
  | mat h => intro hk; exact .mat (by rw [hk _ (by simp [Lv.mats])]; exact h)
  | sub _ h ih => intro hk; exact .sub (ih hk) h
  | block _ h ih => intro hk; exact .block (ih hk) h
  | tr _ h ih => intro hk; exact .tr (ih hk) h
  | catR _ _ h ih1 ih2 =>
    intro hk; exact .catR (ih1 fun k h => hk k (by simp [Lv.mats, h])) (ih2 fun k h => hk k (by simp [Lv.mats, h])) h
  | catC _ _ h ih1 ih2 =>
    intro hk; exact .catC (ih1 fun k h => hk k (by simp [Lv.mats, h])) (ih2 fun k h => hk k (by simp [Lv.mats, h])) h
  | repack _ h ih => intro hk; exact .repack (ih hk) h

theorem means_mats {s t : State R} {e : Ex R} {S : Table R} (h : Means s e S) : (∀ k ∈ e.mats, t.mats k = s.mats k) → Means t e S := by
  induction h with
  | lv h => intro hk; exact .lv (shows_mats h hk)
  | lit h => intro _; exact .lit h
  | unit h1 h2 h3 => intro _; exact .unit h1 h2 h3
  | row h1 h2 h3 => intro _; exact .row h1 h2 h3
  | col h1 h2 h3 => intro _; exact .col h1 h2 h3
  | diag h1 h2 h3 h4 => intro _; exact .diag h1 h2 h3 h4
  | sum _ _ h ih1 ih2 =>
    intro hk; exact .sum (ih1 fun k h => hk k (by simp [Ex.mats, h])) (ih2 fun k h => hk k (by simp [Ex.mats, h])) h
  | diff _ _ h ih1 ih2 =>
    intro hk; exact .diff (ih1 fun k h => hk k (by simp [Ex.mats, h])) (ih2 fun k h => hk k (by simp [Ex.mats, h])) h
  | neg _ h ih => intro hk; exact .neg (ih hk) h
  | tr _ h ih => intro hk; exact .tr (ih hk) h
  | catR _ _ h ih1 ih2 =>
    intro hk; exact .catR (ih1 fun k h => hk k (by simp [Ex.mats, h])) (ih2 fun k h => hk k (by simp [Ex.mats, h])) h
  | catC _ _ h ih1 ih2 =>
    intro hk; exact .catC (ih1 fun k h => hk k (by simp [Ex.mats, h])) (ih2 fun k h => hk k (by simp [Ex.mats, h])) h
  | repack _ h ih => intro hk; exact .repack (ih hk) h
  | sub _ h ih => intro hk; exact .sub (ih hk) h
  | block _ h ih => intro hk; exact .block (ih hk) h
  | scale _ h ih => intro hk; exact .scale (ih hk) h
  | quot _ h ih => intro hk; exact .quot (ih hk) h
  | kron _ _ h ih1 ih2 =>
    intro hk; exact .kron (ih1 fun k h => hk k (by simp [Ex.mats, h])) (ih2 fun k h => hk k (by simp [Ex.mats, h])) h

/-- A pointwise expression that uses the object has its size. -/
theorem pointwise_size {s : State R} {v : Lv} {e : Ex R} (h : Pointwise v e) :
    (∀ k ∈ Ex.mats e, k ∉ v.mats) ∨ (∀ S, Means s e S → S.n = v.rows s ∧ S.m = v.cols s) := by
  induction h with
  | self =>
    refine Or.inr fun S hS => ?_
    cases hS with
    | lv h => exact ⟨(shows_size h).1.symm, (shows_size h).2.symm⟩
  | other h => exact Or.inl h
  | sum _ _ ih1 ih2 =>
    rcases ih1 with h1 | h1
    · rcases ih2 with h2 | h2
      · refine Or.inl fun k hk => ?_
        simp only [Ex.mats, List.mem_append] at hk
        exact hk.elim (h1 k) (h2 k)
      · refine Or.inr fun S hS => ?_
        cases hS with
        | sum ha hb h => have := h2 _ hb; exact ⟨by rw [h.2.2.1, h.1, this.1], by rw [h.2.2.2.1, h.2.1, this.2]⟩
    · refine Or.inr fun S hS => ?_
      cases hS with
      | sum ha hb h => have := h1 _ ha; exact ⟨by rw [h.2.2.1, this.1], by rw [h.2.2.2.1, this.2]⟩
  | diff _ _ ih1 ih2 =>
    rcases ih1 with h1 | h1
    · rcases ih2 with h2 | h2
      · refine Or.inl fun k hk => ?_
        simp only [Ex.mats, List.mem_append] at hk
        exact hk.elim (h1 k) (h2 k)
      · refine Or.inr fun S hS => ?_
        cases hS with
        | diff ha hb h => have := h2 _ hb; exact ⟨by rw [h.2.2.1, h.1, this.1], by rw [h.2.2.2.1, h.2.1, this.2]⟩
    · refine Or.inr fun S hS => ?_
      cases hS with
      | diff ha hb h => have := h1 _ ha; exact ⟨by rw [h.2.2.1, this.1], by rw [h.2.2.2.1, this.2]⟩
  | neg _ ih =>
    rcases ih with h | h
    · exact Or.inl h
    · refine Or.inr fun S hS => ?_
      cases hS with
      | neg ha e => have := h _ ha; exact ⟨by rw [e.1, this.1], by rw [e.2.1, this.2]⟩
  | scale _ ih =>
    rcases ih with h | h
    · exact Or.inl h
    · refine Or.inr fun S hS => ?_
      cases hS with
      | scale ha e => have := h _ ha; exact ⟨by rw [e.1, this.1], by rw [e.2.1, this.2]⟩
  | quot _ ih =>
    rcases ih with h | h
    · exact Or.inl h
    · refine Or.inr fun S hS => ?_
      cases hS with
      | quot ha e => have := h _ ha; exact ⟨by rw [e.1, this.1], by rw [e.2.1, this.2]⟩

end

end Verif.Views
