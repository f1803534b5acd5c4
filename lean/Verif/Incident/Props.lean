import Verif.Incident.Edges
import Mathlib.Algebra.Order.Group.Abs
import Mathlib.Algebra.Order.Group.Int
import Mathlib.Algebra.Order.BigOperators.Group.List

/-!
# Property C86: closed loops among given elements

`SplitFace` and `SplitCell` hand a list of inner and outer elements to the loop search and take loops until none
is left.  `loops W low inner outer` is that list of loops.
-/

namespace Verif.Incident
variable {C R K : Type} [DecidableEq C] [DecidableEq R]
variable {W : Meas C K} {low : C → List R} {inner outer : List C} {ls : List (List C)}

/-- How often an element may be used, less how often it was used. -/
def uncovered (inner : List C) (ls : List (List C)) (c : C) : Int :=
  (if c ∈ inner then 2 else 1) - (ls.countP fun l => decide (c ∈ l) : Nat)

theorem left_bound : left (⟨inner ++ outer, low⟩ : Mat C R) (visits0 inner.length) <
    2 * (inner ++ outer).length + 1 := by
  unfold left
  have : ∀ l : List Nat, (l.map fun k => (visits0 inner.length k).toNat).sum ≤ 2 * l.length := by
    intro l
    induction l with
    | nil => simp
    | cons x xs ih =>
      rw [List.map_cons, List.sum_cons, List.length_cons]
      have : (visits0 inner.length x).toNat ≤ 2 := by unfold visits0; split <;> decide
      omega
  have := this (List.range (inner ++ outer).length)
  rw [List.length_range] at this
  exact Nat.lt_succ_of_le this

theorem loops_run {Q : (Nat → Int) → Nat → List C → K → Prop} (hQ : Ends W (⟨inner ++ outer, low⟩ : Mat C R) Q) :
    ∃ ls, loops W low inner outer = some ls ∧
      Run W (⟨inner ++ outer, low⟩ : Mat C R) Q (visits0 inner.length) ls :=
  takeLoops_spec hQ _ _ _ (idle_init _) left_bound

/-- C86: the search ends, and with it the splitting of the face or cell. -/
theorem C86_terminates (W : Meas C K) (low : C → List R) (inner outer : List C) :
    ∃ ls, loops W low inner outer = some ls := by
  obtain ⟨ls, e, -⟩ := loops_run (W := W) (low := low) (inner := inner) (outer := outer)
    (Q := fun _ _ _ _ => True) (fun _ _ _ _ _ _ _ _ => True.intro)
  exact ⟨ls, e⟩

theorem loops_each (h : loops W low inner outer = some ls) {l : List C} (hl : l ∈ ls) :
    ∃ vis o, IxLoop (⟨inner ++ outer, low⟩ : Mat C R) vis o ∧
      elements (⟨inner ++ outer, low⟩ : Mat C R) o = some l := by
  obtain ⟨ls', e, r⟩ := loops_run (W := W) (low := low) (inner := inner) (outer := outer)
    (Q := fun _ _ _ _ => True) (fun _ _ _ _ _ _ _ _ => True.intro)
  rw [h] at e
  cases e
  obtain ⟨vis, q, o, m, h1, -, h2, -⟩ := r.each l hl
  exact ⟨vis, o, h1, h2⟩

/-- C86: every loop is closed, is not empty and consists of the given elements. -/
theorem C86_closed (h : loops W low inner outer = some ls) {l : List C} (hl : l ∈ ls) :
    Closed low l ∧ l ≠ [] ∧ (∀ c ∈ l, c ∈ inner ∨ c ∈ outer) ∧ ((inner ++ outer).Nodup → l.Nodup) := by
  obtain ⟨vis, o, h1, h2⟩ := loops_each h hl
  refine ⟨fun r => ?_, ?_, ?_, fun hd => elements_nodup hd h2 h1.nodup⟩
  · have := elements_uses r h2
    change uses low r l = _ at this
    rw [this]
    exact h1.closed r
  · rintro rfl
    exact h1.ne (List.length_eq_zero_iff.1 (elements_length h2).symm)
  · intro c hc
    obtain ⟨k, -, hk⟩ := (elements_mem h2 c).1 hc
    exact List.mem_append.1 (List.mem_of_getElem? hk)

theorem visits_nonneg (n k : Nat) : 0 ≤ visits0 n k := by unfold visits0; split <;> decide

theorem col_visits (hd : (inner ++ outer).Nodup) {k : Nat} {c : C} (hk : (inner ++ outer)[k]? = some c) :
    visits0 inner.length k = if c ∈ inner then 2 else 1 := by
  unfold visits0
  by_cases h : k < inner.length
  · rw [if_pos h, if_pos]
    rw [List.getElem?_append_left h] at hk
    exact List.mem_of_getElem? hk
  · rw [if_neg h, if_neg]
    rw [List.getElem?_append_right (by omega)] at hk
    intro hc
    exact (List.nodup_append.1 hd).2.2 c hc c (List.mem_of_getElem? hk) rfl

/-- C86: an outer element is in at most one loop, an inner element in at most two. -/
theorem C86_uses (hd : (inner ++ outer).Nodup) (h : loops W low inner outer = some ls) :
    (∀ c ∈ inner, (ls.countP fun l => decide (c ∈ l)) ≤ 2) ∧
    ∀ c ∈ outer, (ls.countP fun l => decide (c ∈ l)) ≤ 1 := by
  obtain ⟨ls', e, r⟩ := loops_run (W := W) (low := low) (inner := inner) (outer := outer)
    (Q := fun _ _ _ _ => True) (fun _ _ _ _ _ _ _ _ => True.intro)
  rw [h] at e
  cases e
  have hb := r.bound hd (visits_nonneg _)
  refine ⟨fun c hc => ?_, fun c hc => ?_⟩
  · obtain ⟨k, hk⟩ := List.mem_iff_getElem?.1 (List.mem_append_left outer hc)
    have := hb k c hk
    rw [col_visits hd hk, if_pos hc] at this
    omega
  · obtain ⟨k, hk⟩ := List.mem_iff_getElem?.1 (List.mem_append_right inner hc)
    have h1 := hb k c hk
    rw [col_visits hd hk, if_neg fun hc' => (List.nodup_append.1 hd).2.2 c hc' c hc rfl] at h1
    omega

/-! ### Edges -/

theorem twoRows (he : ∀ c, c ∈ inner ∨ c ∈ outer → ∃ a b, a ≠ b ∧ Joins low c a b) :
    TwoRows (⟨inner ++ outer, low⟩ : Mat C R) := by
  intro k hk
  have hc : (inner ++ outer)[k]? = some (inner ++ outer)[k] := List.getElem?_eq_getElem hk
  obtain ⟨a, b, hab, hj⟩ := he _ (List.mem_append.1 (List.mem_of_getElem? hc))
  refine ⟨a, b, hab, fun r => ?_⟩
  rw [hit_of (M := ⟨inner ++ outer, low⟩) hc, decide_eq_true_iff]
  exact hj r

theorem Chain.get {M : Mat C R} {b x : R} {o : List Nat} {ns : List R} (h : Chain M b o ns x) :
    ns.length = o.length ∧ ns[0]? = some b ∧ ∀ (i k : Nat) (u v : R), o[i]? = some k → (ns ++ [x])[i]? = some u →
      (ns ++ [x])[i + 1]? = some v → Hits M k u v := by
  induction h with
  | one k x hh =>
    refine ⟨rfl, rfl, ?_⟩
    intro i q u v h1 h2 h3
    cases i with
    | zero => simp at h1 h2 h3; subst h1 h2 h3; exact hh
    | succ i => simp at h1
  | snoc o ns x k y hc hh ih =>
    obtain ⟨h1, h2, h3⟩ := ih
    refine ⟨by simp [h1], ?_, ?_⟩
    · rw [List.getElem?_append_left]
      · exact h2
      · obtain ⟨h, -⟩ := List.getElem?_eq_some_iff.1 h2
        exact h
    · intro i q u v g1 g2 g3
      by_cases hi : i < o.length
      · rw [List.getElem?_append_left hi] at g1
        rw [List.getElem?_append_left (by simp; omega)] at g2 g3
        exact h3 i q u v g1 g2 g3
      · have hi' : i = o.length := by
          obtain ⟨h, -⟩ := List.getElem?_eq_some_iff.1 g1
          simp at h
          omega
        subst hi'
        have e1 : q = k := by simpa using g1.symm
        have e2 : u = x := by
          rw [← h1] at g2
          simpa using g2.symm
        have e3 : v = y := by
          rw [List.getElem?_append_right (by simp [h1])] at g3
          simpa [h1] using g3.symm
        rw [e1, e2, e3]; exact hh

theorem Chain.polygon {M : Mat C R} {b : R} {o : List Nat} {ns : List R} {l : List C} (h : Chain M b o ns b)
    (he : elements M o = some l) : Polygon M.low l ns := by
  obtain ⟨h1, h2, h3⟩ := h.get
  have hl := elements_length he
  refine ⟨by rw [hl, h1], ?_⟩
  intro i c u v g1 g2 g3
  rw [elements_get i he] at g1
  cases hk : o[i]? with
  | none => rw [hk] at g1; cases g1
  | some k =>
    rw [hk] at g1
    change M.cols[k]? = some c at g1
    obtain ⟨hi, -⟩ := List.getElem?_eq_some_iff.1 hk
    have hv : (ns ++ [b])[i + 1]? = some v := by
      rw [hl] at g3
      by_cases hlast : i + 1 = o.length
      · rw [hlast, Nat.mod_self, h2] at g3
        rw [List.getElem?_append_right (by omega), h1, hlast, Nat.sub_self]
        exact g3
      · rw [Nat.mod_eq_of_lt (by omega)] at g3
        rw [List.getElem?_append_left (by omega)]
        exact g3
    have hu : (ns ++ [b])[i]? = some u := by rw [List.getElem?_append_left (by omega)]; exact g2
    have hh := h3 i k u v hk hu hv
    intro r
    rw [← hh r, hit_of g1, decide_eq_true_iff]

/-- The comparisons, if only the existence of a loop matters. -/
theorem cmp_true {M : Mat C R} {vis : Nat → Int}
    (hfar : ∀ o l, IxLoop M vis o → elements M o = some l → W.close W.big (W.total l) = false) :
    Cmp2 W M vis fun _ _ => True :=
  { Cmp.trivial W M vis with
    nge := fun _ _ _ _ _ _ _ _ _ => True.intro
    sub := fun _ _ _ _ _ _ _ _ _ => True.intro
    far := hfar }

/-- `1e20` is not the measure of a set of the given elements. -/
def Far (W : Meas C K) (inner outer : List C) : Prop :=
  ∀ l, l.Nodup → (∀ c ∈ l, c ∈ inner ∨ c ∈ outer) → W.close W.big (W.total l) = false

theorem Far.cols {M : Mat C R} {vis : Nat → Int} (hM : M.cols = inner ++ outer) (hd : (inner ++ outer).Nodup)
    (h : Far W inner outer) : ∀ o l, IxLoop M vis o → elements M o = some l → W.close W.big (W.total l) = false := by
  intro o l ho he
  refine h l (elements_nodup (hM ▸ hd) he ho.nodup) fun c hc => ?_
  obtain ⟨k, -, hk⟩ := (elements_mem he c).1 hc
  exact List.mem_append.1 (hM ▸ List.mem_of_getElem? hk)

/-- The result of each search among edges. -/
def EdgeEnd (W : Meas C K) (M : Mat C R) (le : K → K → Prop) (vis : Nat → Int) (q : Nat) (l : List C)
    (m : K) : Prop :=
  Poly M l ∧ ∀ L, IxLoop M vis L → q ∈ L → l ≠ [] ∧ (L.length ≤ l.length → ∀ lL, elements M L = some lL →
    le m (W.total lL))

theorem edge_ends {M : Mat C R} {le : K → K → Prop} (h2 : TwoRows M) (Cm : ∀ vis, Cmp2 W M vis le) :
    Ends W M (EdgeEnd W M le) := by
  intro vis q s s' hs hv hq e
  exact first_gain (Cm vis) h2 hs hq (by omega) e

theorem edge_excludes {M : Mat C R} {le : K → K → Prop} : Excludes M (EdgeEnd W M le) :=
  fun _ _ _ h o ho hq => (h.2 o ho hq).1 rfl

/-- C86: loops of edges are polygons: the edges are listed in the order in which they follow each other, and the
corners differ. -/
theorem C86_polygon (hd : (inner ++ outer).Nodup) (hfar : Far W inner outer)
    (he : ∀ c, c ∈ inner ∨ c ∈ outer → ∃ a b, a ≠ b ∧ Joins low c a b)
    (h : loops W low inner outer = some ls) {l : List C} (hl : l ∈ ls) :
    ∃ ns, Polygon low l ns ∧ ns.Nodup := by
  obtain ⟨ls', e, r⟩ := loops_run (edge_ends (W := W) (twoRows he) fun vis => cmp_true (hfar.cols rfl hd))
  rw [h] at e
  cases e
  obtain ⟨vis, q, o, m, -, -, h1, h2⟩ := r.each l hl
  rcases h2.1 with rfl | ⟨o, b, ns, h3, h4, h5⟩
  · exact absurd rfl (C86_closed h hl).2.1
  · exact ⟨ns, h4.polygon h3, h5⟩

/-- A set of elements as columns. -/
theorem exists_ix {M : Mat C R} : ∀ (L : List C), (∀ c ∈ L, c ∈ M.cols) → L.Nodup →
    ∃ o, elements M o = some L ∧ o.Nodup ∧ ∀ k ∈ o, k < M.cols.length
  | [], _, _ => ⟨[], rfl, by simp, by simp⟩
  | c :: L, hc, hn => by
    rw [List.nodup_cons] at hn
    obtain ⟨o, h1, h2, h3⟩ := exists_ix L (fun x hx => hc x (List.mem_cons_of_mem _ hx)) hn.2
    obtain ⟨k, hk⟩ := List.mem_iff_getElem?.1 (hc c (by simp))
    refine ⟨k :: o, ?_, List.nodup_cons.2 ⟨fun hko => ?_, h2⟩, ?_⟩
    · unfold elements; rw [hk, h1]
    · exact hn.1 ((elements_mem h1 c).2 ⟨k, hko, hk⟩)
    · intro q hq
      rcases List.mem_cons.1 hq with rfl | hq
      · obtain ⟨h, -⟩ := List.getElem?_eq_some_iff.1 hk
        exact h
      · exact h3 q hq

/-- A closed set of elements as columns. -/
theorem closed_ix {M : Mat C R} {rem : Nat → Int} {L : List C} (hc : ∀ c ∈ L, c ∈ M.cols) (hn : L.Nodup) (hne : L ≠ [])
    (hL : Closed M.low L) (hr : ∀ k c, c ∈ L → M.cols[k]? = some c → 0 < rem k) :
    ∃ o, elements M o = some L ∧ IxLoop M rem o := by
  obtain ⟨o, h1, h2, h3⟩ := exists_ix L hc hn
  refine ⟨o, h1, ?_, h2, h3, ?_, ?_⟩
  · rintro rfl
    cases h1
    exact hne rfl
  · intro k hk
    have hk' : M.cols[k]? = some (M.cols[k]'(h3 k hk)) := List.getElem?_eq_getElem (h3 k hk)
    exact hr k _ ((elements_mem h1 _).2 ⟨k, hk, hk'⟩) hk'
  · intro r
    rw [← elements_uses r h1]
    exact hL r

/-- The uses left, by column. -/
def remCol (inner outer : List C) (ls : List (List C)) : Nat → Int := fun k =>
  match (inner ++ outer)[k]? with
  | some c => uncovered inner ls c
  | none => 0

theorem remCol_eq (hd : (inner ++ outer).Nodup) (ls : List (List C)) (k : Nat) (c : C)
    (hk : (inner ++ outer)[k]? = some c) : remCol inner outer ls k =
      visits0 inner.length k + 0 - (ls.countP (fun l => decide (c ∈ l)) : Int) := by
  unfold remCol uncovered
  rw [hk, col_visits hd hk]
  simp

theorem remCol_uncovered {ls : List (List C)} {k : Nat} {c : C} (hk : (inner ++ outer)[k]? = some c) :
    remCol inner outer ls k = uncovered inner ls c := by unfold remCol; rw [hk]

theorem upInv_init (M : Mat C R) (vis : Nat → Int) : UpInv M vis fun _ => 0 :=
  ⟨fun _ => Or.inl rfl, fun _ _ _ _ => rfl⟩

/-- C86: when the search of loops of edges has ended, no closed set of edges with uses left has an edge
with exactly one use left.  So an outer edge is left over only if no closed set of the edges left
contains it. -/
theorem C86_complete (hd : (inner ++ outer).Nodup) (hfar : Far W inner outer)
    (he : ∀ c, c ∈ inner ∨ c ∈ outer → ∃ a b, a ≠ b ∧ Joins low c a b)
    (h : loops W low inner outer = some ls) {L : List C} (hn : L.Nodup) (hL : Closed low L)
    (hc : ∀ c ∈ L, (c ∈ inner ∨ c ∈ outer) ∧ 0 < uncovered inner ls c) :
    ∀ c ∈ L, uncovered inner ls c ≠ 1 := by
  intro c hcL
  obtain ⟨ls', e, r⟩ := loops_run (edge_ends (W := W) (twoRows he) fun vis => cmp_true (hfar.cols rfl hd))
  rw [h] at e
  cases e
  obtain ⟨o, ho, hX⟩ := closed_ix (M := ⟨inner ++ outer, low⟩) (rem := remCol inner outer ls) (L := L)
    (fun c hc' => List.mem_append.2 (hc c hc').1) hn (List.ne_nil_of_mem hcL) hL (by
      intro k c hc' hk
      rw [remCol_uncovered hk]
      exact (hc c hc').2)
  obtain ⟨k, hk, hkc⟩ := (elements_mem ho c).1 hcL
  have := r.complete edge_excludes hd _ (upInv_init _ _) (visits_nonneg _) (remCol inner outer ls)
    (remCol_eq hd ls) o hX k hk
  rw [remCol_uncovered hkc] at this
  exact this

section
variable [AddCommGroup K] [LinearOrder K] [IsOrderedAddMonoid K]

/-- Exact arithmetic. -/
def Meas.exact (w : C → K) (eps big : K) : Meas C K where
  of := w
  zero := 0
  add := fun a b => a + b
  ge := fun a b => decide (b ≤ a + eps)
  close := fun a b => decide (|a - b| < eps)
  big := big

theorem exact_total (w : C → K) (eps big : K) (l : List C) : (Meas.exact w eps big).total l = (l.map w).sum := by
  unfold Meas.total Meas.exact
  dsimp only
  have : ∀ (l : List C) (a : K), l.foldl (fun a c => a + w c) a = a + (l.map w).sum := by
    intro l
    induction l with
    | nil => intro a; simp
    | cons c cs ih => intro a; rw [List.foldl_cons, ih, List.map_cons, List.sum_cons, add_assoc]
  rw [this, zero_add]

/-- The conditions on the measures: they are not negative, different sums differ by more than `eps`, and the initial
value is out of reach. -/
structure Lengths (w : C → K) (eps big : K) (inner outer : List C) : Prop where
  eps0 : 0 ≤ eps
  pos : ∀ c, c ∈ inner ∨ c ∈ outer → 0 ≤ w c
  sep : ∀ l l' : List C, l.Nodup → l'.Nodup → (∀ c ∈ l, c ∈ inner ∨ c ∈ outer) → (∀ c ∈ l', c ∈ inner ∨ c ∈ outer) →
    (l'.map w).sum ≤ (l.map w).sum + eps → (l'.map w).sum ≤ (l.map w).sum
  far : ∀ l : List C, l.Nodup → (∀ c ∈ l, c ∈ inner ∨ c ∈ outer) → eps ≤ |big - (l.map w).sum|

theorem Lengths.toFar {w : C → K} {eps big : K} (h : Lengths w eps big inner outer) :
    Far (Meas.exact w eps big) inner outer := by
  intro l hn hc
  rw [exact_total]
  exact decide_eq_false (not_lt.2 (h.far l hn hc))

theorem sum_sub (w : C → K) {l l' : List C} (hn : l.Nodup) (hs : ∀ c ∈ l, c ∈ l') (hp : ∀ c ∈ l', 0 ≤ w c) :
    (l.map w).sum ≤ (l'.map w).sum := by
  obtain ⟨l1, h1, h2⟩ := List.subperm_of_subset hn hs
  rw [← (h1.map w).sum_eq]
  exact List.Sublist.sum_le_sum (h2.map w) (by
    intro x hx
    obtain ⟨c, hc, rfl⟩ := List.mem_map.1 hx
    exact hp c hc)

theorem Lengths.cmp {w : C → K} {eps big : K} (h : Lengths w eps big inner outer) (hd : (inner ++ outer).Nodup)
    (vis : Nat → Int) : Cmp2 (Meas.exact w eps big) (⟨inner ++ outer, low⟩ : Mat C R) vis fun a b => a ≤ b := by
  have hmem : ∀ o l, elements (⟨inner ++ outer, low⟩ : Mat C R) o = some l → ∀ c ∈ l, c ∈ inner ∨ c ∈ outer := by
    intro o l he c hc
    obtain ⟨k, -, hk⟩ := (elements_mem he c).1 hc
    exact List.mem_append.1 (List.mem_of_getElem? hk)
  refine { refl := fun _ => le_refl _, trans := fun _ _ _ => le_trans, ge := ?_, nge := ?_, sub := ?_, far := ?_ }
  · intro o l o' l' ho hl ho' hl' hg
    rw [exact_total, exact_total] at hg ⊢
    exact h.sep l l' (elements_nodup hd hl ho.nodup) (elements_nodup hd hl' ho'.nodup) (hmem o l hl) (hmem o' l' hl') (of_decide_eq_true hg)
  · intro o l o' l' ho hl ho' hl' hg
    rw [exact_total, exact_total] at hg ⊢
    have h1 := not_le.1 (of_decide_eq_false hg)
    exact le_trans (le_add_of_nonneg_right h.eps0) (le_of_lt h1)
  · intro o l o' l' ho hl ho' hl' hs
    rw [exact_total, exact_total]
    refine sum_sub w (elements_nodup hd hl ho.nodup) ?_ fun c hc => h.pos c (hmem o' l' hl' c hc)
    intro c hc
    obtain ⟨k, hk, hkc⟩ := (elements_mem hl c).1 hc
    exact (elements_mem hl' c).2 ⟨k, hs k hk, hkc⟩
  · exact h.toFar.cols rfl hd

/-- C86: each loop of edges contains an edge `c` with one use left, and among the closed sets of edges with uses
left that contain `c` and have no more edges, none has a smaller length. -/
theorem C86_best {w : C → K} {eps big : K} (hd : (inner ++ outer).Nodup) (hw : Lengths w eps big inner outer)
    (he : ∀ c, c ∈ inner ∨ c ∈ outer → ∃ a b, a ≠ b ∧ Joins low c a b)
    {pre post : List (List C)} {l : List C}
    (h : loops (Meas.exact w eps big) low inner outer = some (pre ++ l :: post)) :
    ∃ c ∈ l, uncovered inner pre c = 1 ∧ ∀ L, L.Nodup → Closed low L →
      (∀ x ∈ L, (x ∈ inner ∨ x ∈ outer) ∧ 0 < uncovered inner pre x) → c ∈ L → L.length ≤ l.length →
      (l.map w).sum ≤ (L.map w).sum := by
  obtain ⟨ls', e, r⟩ := loops_run (edge_ends (W := Meas.exact w eps big) (twoRows he) fun vis => hw.cmp hd vis)
  rw [h] at e
  cases e
  obtain ⟨vis', q, m, o, h1, h2, h3, h4, h5, h6, h7, h8⟩ := r.before edge_excludes hd _ (upInv_init _ _)
    (visits_nonneg _) pre l post rfl (remCol inner outer pre) (remCol_eq hd pre)
  have hqc : (inner ++ outer)[q]? = some (inner ++ outer)[q] := List.getElem?_eq_getElem h7
  have hqo : q ∈ o := List.mem_of_mem_head? (by rw [h4]; rfl)
  refine ⟨(inner ++ outer)[q], (elements_mem h5 _).2 ⟨q, hqo, hqc⟩, ?_, ?_⟩
  · rw [← h6, remCol_uncovered hqc]
  · intro L hn hL hx hc hlen
    obtain ⟨oL, ho, hX⟩ := closed_ix (M := ⟨inner ++ outer, low⟩) (rem := remCol inner outer pre) (L := L)
      (fun c hc' => List.mem_append.2 (hx c hc').1) hn (List.ne_nil_of_mem hc) hL (by
        intro k c hc' hk
        rw [remCol_uncovered hk]
        exact (hx c hc').2)
    have hqL : q ∈ oL := mem_elements hd ho hqc hc
    have := (h1.2 oL (h8 oL hX) hqL).2 (by rw [← elements_length ho]; exact hlen) L ho
    rw [h2, exact_total, exact_total] at this
    exact this

end

/-! ### Cases -/

/-- A square with the corners 1, 2, 3, 4 and a diagonal. -/
def ends (e : Nat × Nat) : List Nat := [e.1, e.2]
def diag : List (Nat × Nat) := [(1, 3)]
def square : List (Nat × Nat) := [(1, 2), (2, 3), (3, 4), (4, 1)]

theorem square_lengths : Lengths (fun _ : Nat × Nat => (1 : Int)) 0 1000 diag square :=
  ⟨le_refl _, fun _ _ => by decide, fun _ _ _ _ _ _ h => by simpa using h, fun _ _ _ => abs_nonneg _⟩

theorem square_edges : ∀ c, c ∈ diag ∨ c ∈ square → ∃ a b, a ≠ b ∧ Joins ends c a b := by
  intro c hc
  refine ⟨c.1, c.2, ?_, fun r => by simp [ends]⟩
  rcases hc with hc | hc
  · revert c; decide
  · revert c; decide

/-- Only the lower elements that occur need to be looked at. -/
theorem closed_of {l : List C} (h : ∀ r ∈ l.flatMap low, uses low r l = 0 ∨ uses low r l = 2) : Closed low l := by
  intro r
  by_cases hr : r ∈ l.flatMap low
  · exact h r hr
  · left
    unfold uses
    rw [List.countP_eq_zero]
    intro c hc hd
    exact hr (List.mem_flatMap.2 ⟨c, hc, of_decide_eq_true hd⟩)

/-- Its loops are the two triangles. -/
theorem square_loops : loops (Meas.exact (fun _ : Nat × Nat => (1 : Int)) 0 1000) ends diag square =
    some [[(1, 2), (1, 3), (2, 3)], [(1, 3), (4, 1), (3, 4)]] := by decide +kernel

example : ∃ ls, loops (Meas.exact (fun _ : Nat × Nat => (1 : Int)) 0 1000) ends diag square = some ls ∧
    (∀ l ∈ ls, Closed ends l ∧ ∃ ns, Polygon ends l ns ∧ ns.Nodup) ∧
    (∀ c ∈ square, uncovered diag ls c = 0) ∧ ls.length = 2 :=
  ⟨_, square_loops, fun _ hl => ⟨(C86_closed square_loops hl).1,
    C86_polygon (by decide) square_lengths.toFar square_edges square_loops hl⟩, by decide, rfl⟩

example : ∃ c ∈ [(1, 2), (1, 3), (2, 3)], uncovered diag [] c = 1 := by
  obtain ⟨c, hc, h, -⟩ := C86_best (pre := []) (by decide) square_lengths square_edges square_loops
  exact ⟨c, hc, h⟩

example : ∀ L, L.Nodup → Closed ends L → (∀ c ∈ L, (c ∈ diag ∨ c ∈ square) ∧
    0 < uncovered diag [[(1, 2), (1, 3), (2, 3)], [(1, 3), (4, 1), (3, 4)]] c) → ∀ c ∈ L,
    uncovered diag [[(1, 2), (1, 3), (2, 3)], [(1, 3), (4, 1), (3, 4)]] c ≠ 1 :=
  fun _ h1 h2 h3 => C86_complete (by decide) square_lengths.toFar square_edges square_loops h1 h2 h3

example := C86_uses (inner := diag) (outer := square) (by decide) square_loops

/-- C86, the first loop found limits the number of edges of the others: the loop returned need not be the
shortest one.  Here the loop of 4 edges through `(1, 2)` has the length 4 and the loop of 3 edges that is
returned has the length 21. -/
theorem C86_shortest_fails : ∃ (outer : List (Nat × Nat)) (w : Nat × Nat → Int) (l : List (Nat × Nat))
    (post : List (List (Nat × Nat))), outer.Nodup ∧ Lengths w 0 1000 [] outer ∧
    loops (Meas.exact w 0 1000) ends [] outer = some (l :: post) ∧
    ∃ L, L.Nodup ∧ Closed ends L ∧ (∀ c ∈ L, c ∈ outer) ∧ (∀ c ∈ l, c = outer.head! → c ∈ L) ∧
      (L.map w).sum < (l.map w).sum := by
  refine ⟨[(1, 2), (2, 3), (3, 1), (2, 4), (4, 5), (5, 1)], (fun e => if e = (2, 3) ∨ e = (3, 1) then 10 else 1),
    [(1, 2), (3, 1), (2, 3)], [], by decide, ?_, ?_,
    [(1, 2), (2, 4), (4, 5), (5, 1)], by decide, ?_, by decide, by decide, by decide⟩
  · refine ⟨le_refl _, fun c _ => ?_, fun _ _ _ _ _ _ h => by simpa using h, fun _ _ _ => abs_nonneg _⟩
    show (0 : Int) ≤ if c = (2, 3) ∨ c = (3, 1) then 10 else 1
    split <;> decide
  · decide +kernel
  · exact closed_of (by decide)

/-- C86, for faces (more than two lower elements) the search marks lower elements as dead ends that are none
with other choices: here it returns no loop although four of the five elements form a closed set. -/
theorem C86_faces_fails : ∃ outer : List (List Nat), outer.Nodup ∧
    Far (Meas.exact (fun _ : List Nat => (1 : Int)) 0 1000) [] outer ∧
    loops (Meas.exact (fun _ : List Nat => (1 : Int)) 0 1000) (fun c => c) [] outer = some [] ∧
    ∃ L, L ≠ [] ∧ L.Nodup ∧ Closed (fun c => c) L ∧ ∀ c ∈ L, c ∈ outer ∧ uncovered [] [] c = 1 := by
  refine ⟨[[0, 2, 4], [0, 1, 3], [1, 2, 3], [0, 4], [1, 3]], by decide, ?_, by decide +kernel,
    [[0, 2, 4], [0, 4], [1, 2, 3], [1, 3]], by decide, by decide, closed_of (by decide), by decide⟩
  intro l _ _
  exact decide_eq_false (not_lt.2 (abs_nonneg _))

end Verif.Incident
