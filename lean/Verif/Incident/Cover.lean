import Verif.Incident.Props
import Verif.Incident.Euler
import Mathlib.Data.List.Perm.Subperm

/-!
# Property C86: no boundary edge is left over

If the outer edges form closed polygons - every node belongs to an even number of them, as for the edges of a
face - the loops that are found use every outer edge exactly once, and every inner edge twice or not at
all, whatever the inner edges are.
-/

namespace Verif.Incident
variable {C R K : Type} [DecidableEq C] [DecidableEq R]
variable {W : Meas C K} {low : C → List R} {inner outer : List C} {ls : List (List C)}

/-- How often an element may be used. -/
def allowed (inner : List C) (c : C) : Nat := if c ∈ inner then 2 else 1

/-- In how many of the loops an element is. -/
def used (ls : List (List C)) (c : C) : Nat := ls.countP fun l => decide (c ∈ l)

theorem uncovered_eq (inner : List C) (ls : List (List C)) (c : C) :
    uncovered inner ls c = (allowed inner c : Int) - (used ls c : Int) := by
  unfold uncovered allowed used
  split <;> simp

/-- The parity of the uses left at one node. -/
theorem left_parity (r : R) (k : C → Nat) (w : C → Nat) : ∀ (cols : List C), (∀ c ∈ cols, k c ≤ w c ∧ w c ≤ 2) →
    (uses low r (cols.filter fun c => decide (w c - k c = 1)) +
      ((cols.filter fun c => decide (r ∈ low c)).map k).sum) % 2 =
      ((cols.filter fun c => decide (r ∈ low c)).map w).sum % 2
  | [], _ => rfl
  | c :: cs, h => by
    have ih := left_parity r k w cs fun x hx => h x (by simp [hx])
    obtain ⟨h1, h2⟩ := h c (by simp)
    by_cases hr : r ∈ low c
    · rw [List.filter_cons_of_pos (p := fun c => decide (r ∈ low c)) (by simpa using hr)]
      simp only [List.map_cons, List.sum_cons]
      by_cases h3 : w c - k c = 1
      · rw [List.filter_cons_of_pos (by simpa using h3), uses_cons, if_pos hr]
        omega
      · rw [List.filter_cons_of_neg (by simpa using h3)]
        have : w c = k c ∨ w c = k c + 2 := by omega
        omega
    · rw [List.filter_cons_of_neg (p := fun c => decide (r ∈ low c)) (by simpa using hr)]
      by_cases h3 : w c - k c = 1
      · rw [List.filter_cons_of_pos (by simpa using h3), uses_cons, if_neg hr]
        exact ih
      · rw [List.filter_cons_of_neg (by simpa using h3)]
        exact ih

/-- Counting the uses by elements and by loops. -/
theorem sum_used (cols : List C) (hd : cols.Nodup) (r : R) : ∀ (ls : List (List C)),
    (∀ l ∈ ls, l.Nodup ∧ ∀ c ∈ l, c ∈ cols) →
    ((cols.filter fun c => decide (r ∈ low c)).map (used ls)).sum = (ls.map fun l => uses low r l).sum
  | [], _ => by
    have : ∀ l : List C, (l.map (used [])).sum = 0 := by
      intro l
      induction l with
      | nil => rfl
      | cons x xs ih => rw [List.map_cons, List.sum_cons, ih]; rfl
    rw [this]; rfl
  | l :: ls, h => by
    obtain ⟨h1, h2⟩ := h l (by simp)
    rw [List.map_cons, List.sum_cons, ← sum_used cols hd r ls fun x hx => h x (by simp [hx])]
    have e : ∀ m : List C, (m.map (used (l :: ls))).sum =
        (m.countP fun c => decide (c ∈ l)) + (m.map (used ls)).sum := by
      intro m
      induction m with
      | nil => rfl
      | cons x xs ih =>
        rw [List.map_cons, List.sum_cons, ih, List.map_cons, List.sum_cons, List.countP_cons]
        have : used (l :: ls) x = used ls x + if x ∈ l then 1 else 0 := by
          unfold used; rw [List.countP_cons]; simp
        rw [this]
        simp only [decide_eq_true_eq]
        omega
    rw [e]
    congr 1
    have hp : (cols.filter fun c => decide (c ∈ l)).Perm l :=
      (List.perm_ext_iff_of_nodup (hd.filter _) h1).2 fun c => by
        simp only [List.mem_filter, decide_eq_true_eq]
        exact ⟨fun h => h.2, fun h => ⟨h2 c h, h⟩⟩
    unfold uses
    rw [← hp.countP_eq, List.countP_filter, List.countP_filter]
    congr 1
    funext c
    rw [Bool.and_comm]

theorem sum_allowed (hd : (inner ++ outer).Nodup) (r : R) :
    (((inner ++ outer).filter fun c => decide (r ∈ low c)).map (allowed inner)).sum =
      2 * uses low r inner + uses low r outer := by
  rw [List.filter_append, List.map_append, List.sum_append]
  have h1 : ∀ (l : List C) (k : Nat), (∀ c ∈ l, allowed inner c = k) →
      ((l.filter fun c => decide (r ∈ low c)).map (allowed inner)).sum = k * uses low r l := by
    intro l k h
    induction l with
    | nil => simp [uses]
    | cons x xs ih =>
      have := ih fun c hc => h c (by simp [hc])
      rw [uses_cons]
      by_cases hr : r ∈ low x
      · rw [List.filter_cons_of_pos (by simpa using hr), List.map_cons, List.sum_cons, this, h x (by simp), if_pos hr,
          Nat.mul_add]
        omega
      · rw [List.filter_cons_of_neg (by simpa using hr), this, if_neg hr]; rfl
  rw [h1 inner 2, h1 outer 1, Nat.one_mul]
  · intro c hc
    unfold allowed
    rw [if_neg fun hc' => (List.nodup_append.1 hd).2.2 c hc' c hc rfl]
  · intro c hc
    unfold allowed
    rw [if_pos hc]

/-- C86: if every node is on an even number of outer edges, then every outer edge is in exactly one loop and every
inner edge in two loops or in none. -/
theorem C86_outer (hd : (inner ++ outer).Nodup) (hfar : Far W inner outer)
    (he : ∀ c, c ∈ inner ∨ c ∈ outer → ∃ a b, a ≠ b ∧ Joins low c a b)
    (hev : ∀ r, uses low r outer % 2 = 0) (h : loops W low inner outer = some ls) :
    (∀ c ∈ outer, (ls.countP fun l => decide (c ∈ l)) = 1) ∧
    ∀ c ∈ inner, (ls.countP fun l => decide (c ∈ l)) = 2 ∨ (ls.countP fun l => decide (c ∈ l)) = 0 := by
  have hle : ∀ c ∈ inner ++ outer, used ls c ≤ allowed inner c ∧ allowed inner c ≤ 2 := by
    intro c hc
    have hu := C86_uses hd h
    unfold allowed
    by_cases hi : c ∈ inner
    · rw [if_pos hi]; exact ⟨hu.1 c hi, Nat.le_refl _⟩
    · rw [if_neg hi]
      exact ⟨hu.2 c ((List.mem_append.1 hc).resolve_left hi), by omega⟩
  have hnone : ∀ c ∈ inner ++ outer, allowed inner c - used ls c ≠ 1 := by
    intro c hc h1
    obtain ⟨L, hL1, hL2, hL3, hL4⟩ := closed_through (low := low)
      (E := (inner ++ outer).filter fun c => decide (allowed inner c - used ls c = 1)) (hd.filter _)
      (fun x hx => he x (List.mem_append.1 (List.mem_filter.1 hx).1))
      (fun r => by
        have p1 := left_parity (low := low) r (used ls) (allowed inner) (inner ++ outer) hle
        rw [sum_used (inner ++ outer) hd r ls fun l hl =>
          ⟨(C86_closed h hl).2.2.2 hd, fun c hc => List.mem_append.2 ((C86_closed h hl).2.2.1 c hc)⟩,
          sum_allowed hd r] at p1
        have p2 : (ls.map fun l => uses low r l).sum % 2 = 0 := by
          have : ∀ m : List (List C), (∀ l ∈ m, uses low r l = 0 ∨ uses low r l = 2) →
              (m.map fun l => uses low r l).sum % 2 = 0 := by
            intro m hm
            induction m with
            | nil => rfl
            | cons x xs ih =>
              have := ih fun l hl => hm l (by simp [hl])
              have := hm x (by simp)
              rw [List.map_cons, List.sum_cons]
              omega
          exact this ls fun l hl => (C86_closed h hl).1 r
        have p3 := hev r
        omega)
      (List.mem_filter.2 ⟨hc, by simpa using h1⟩)
    have hx : ∀ x ∈ L, (x ∈ inner ∨ x ∈ outer) ∧ allowed inner x - used ls x = 1 := fun x hx => by
      have := List.mem_filter.1 (hL2 x hx)
      exact ⟨List.mem_append.1 this.1, by simpa using this.2⟩
    refine C86_complete hd hfar he h hL1 hL4 (fun x hxL => ⟨(hx x hxL).1, ?_⟩) c hL3 ?_
    · rw [uncovered_eq]
      have := (hx x hxL).2
      omega
    · rw [uncovered_eq]; omega
  refine ⟨fun c hc => ?_, fun c hc => ?_⟩
  · have h1 := hnone c (List.mem_append_right _ hc)
    have h2 := hle c (List.mem_append_right _ hc)
    have h3 : allowed inner c = 1 := by
      unfold allowed
      rw [if_neg fun hc' => (List.nodup_append.1 hd).2.2 c hc' c hc rfl]
    unfold used at h1 h2
    omega
  · have h1 := hnone c (List.mem_append_left _ hc)
    have h2 := hle c (List.mem_append_left _ hc)
    have h3 : allowed inner c = 2 := by unfold allowed; rw [if_pos hc]
    unfold used at h1 h2
    omega

/-- C86: every loop has an edge that no later loop has. -/
theorem C86_order (hd : (inner ++ outer).Nodup) (hfar : Far W inner outer)
    (he : ∀ c, c ∈ inner ∨ c ∈ outer → ∃ a b, a ≠ b ∧ Joins low c a b)
    {pre post : List (List C)} {l : List C} (h : loops W low inner outer = some (pre ++ l :: post)) :
    ∃ c ∈ l, ∀ l' ∈ post, c ∉ l' := by
  obtain ⟨ls', e, r⟩ := loops_run (edge_ends (W := W) (twoRows he) fun vis => cmp_true (hfar.cols rfl hd))
  rw [h] at e
  cases e
  obtain ⟨vis', q, m, o, h1, h2, h3, h4, h5, h6, h7, h8⟩ := r.before edge_excludes hd _ (upInv_init _ _)
    (visits_nonneg _) pre l post rfl (remCol inner outer pre) (remCol_eq hd pre)
  have hqc : (inner ++ outer)[q]? = some (inner ++ outer)[q] := List.getElem?_eq_getElem h7
  have hqo : q ∈ o := List.mem_of_mem_head? (by rw [h4]; rfl)
  have hcl : (inner ++ outer)[q] ∈ l := (elements_mem h5 _).2 ⟨q, hqo, hqc⟩
  have hone : uncovered inner pre (inner ++ outer)[q] = 1 := by rw [← h6, remCol_uncovered hqc]
  refine ⟨_, hcl, fun l' hl' hc => ?_⟩
  have hle : used (pre ++ l :: post) (inner ++ outer)[q] ≤ allowed inner (inner ++ outer)[q] := by
    have hu := C86_uses hd h
    unfold allowed
    split
    · next hi => exact hu.1 _ hi
    · next hi => exact hu.2 _ ((List.mem_append.1 (List.mem_of_getElem? hqc)).resolve_left hi)
  rw [uncovered_eq] at hone
  have h9 : 0 < used post (inner ++ outer)[q] :=
    List.countP_pos_iff.2 ⟨l', hl', by simpa using hc⟩
  have h10 : used (pre ++ l :: post) (inner ++ outer)[q] =
      used pre (inner ++ outer)[q] + (used post (inner ++ outer)[q] + 1) := by
    unfold used
    rw [List.countP_append, List.countP_cons_of_pos (by simpa using hcl)]
  omega

/-! ### Polygons are minimal -/

theorem Polygon.symm_low {es : List C} {ns : List R} (P : Polygon low es ns) {i : Nat} {e : C} (he : es[i]? = some e) :
    ∃ a b, ns[i]? = some a ∧ ns[(i + 1) % es.length]? = some b ∧ Joins low e a b := by
  obtain ⟨hi, -⟩ := List.getElem?_eq_some_iff.1 he
  have h1 : i < ns.length := by rw [P.corners]; exact hi
  have h2 : (i + 1) % es.length < ns.length := by rw [P.corners]; exact Nat.mod_lt _ (by omega)
  exact ⟨_, _, List.getElem?_eq_getElem h1, List.getElem?_eq_getElem h2,
    P.joins i e _ _ he (List.getElem?_eq_getElem h1) (List.getElem?_eq_getElem h2)⟩

theorem two_of {l : List C} (hn : l.Nodup) {x y : C} (hs : ∀ z ∈ l, z = x ∨ z = y) (h : l.length = 2) : y ∈ l := by
  match l, h with
  | [u, v], _ =>
    have h1 := hs u (by simp)
    have h2 := hs v (by simp)
    have h3 : u ≠ v := by
      rintro rfl
      simp at hn
    rcases h1 with rfl | rfl
    · rcases h2 with rfl | rfl
      · exact absurd rfl h3
      · simp
    · simp

theorem next_eq {n i j : Nat} (hi : i < n) (hj : j < n) (h : (j + 1) % n = (i + 1) % n) : j = i := by
  have h1 : ∀ k, k < n → (k + 1) % n = if k + 1 = n then 0 else k + 1 := by
    intro k hk
    split
    · next h => rw [h, Nat.mod_self]
    · exact Nat.mod_eq_of_lt (by omega)
  rw [h1 i hi, h1 j hj] at h
  split at h <;> split at h <;> omega

theorem Polygon.next {es L : List C} {ns : List R} (P : Polygon low es ns) (hns : ns.Nodup) (hL : L.Nodup)
    (hsub : ∀ c ∈ L, c ∈ es) (hcl : Closed low L) {i : Nat} {e e' : C} (he : es[i]? = some e) (heL : e ∈ L)
    (he' : es[(i + 1) % es.length]? = some e') : e' ∈ L := by
  obtain ⟨hi, -⟩ := List.getElem?_eq_some_iff.1 he
  obtain ⟨a, b, ha, hb, hj⟩ := P.symm_low he
  have hone : ∀ z ∈ L.filter fun c => decide (b ∈ low c), z = e ∨ z = e' := by
    intro z hz
    obtain ⟨hzL, hzb⟩ := List.mem_filter.1 hz
    obtain ⟨j, hjz⟩ := List.mem_iff_getElem?.1 (hsub z hzL)
    obtain ⟨hjl, -⟩ := List.getElem?_eq_some_iff.1 hjz
    obtain ⟨u, v, hu, hv, hjj⟩ := P.symm_low hjz
    rcases (hjj b).1 (by simpa using hzb) with rfl | rfl
    · -- corner j is corner i+1
      have : j = (i + 1) % es.length :=
        (List.getElem?_inj (by rw [P.corners]; exact hjl) hns).1 (hu.trans hb.symm)
      subst this
      exact Or.inr (Option.some.inj (hjz.symm.trans he'))
    · have h1 : (j + 1) % es.length = (i + 1) % es.length :=
        (List.getElem?_inj (by rw [P.corners]; exact Nat.mod_lt _ (by omega)) hns).1 (hv.trans hb.symm)
      have := next_eq hi hjl h1
      subst this
      exact Or.inl (Option.some.inj (hjz.symm.trans he))
  have h2 : uses low b L = 2 := by
    rcases hcl b with h | h
    · exfalso
      unfold uses at h
      rw [List.countP_eq_zero] at h
      exact h e heL (by simpa using (hj b).2 (Or.inr rfl))
    · exact h
  unfold uses at h2
  rw [List.countP_eq_length_filter] at h2
  exact (List.mem_filter.1 (two_of (hL.filter _) hone h2)).1

/-- A closed set of edges of a polygon with different corners is the whole polygon. -/
theorem Polygon.minimal {es L : List C} {ns : List R} (P : Polygon low es ns) (hns : ns.Nodup) (hL : L.Nodup)
    (hsub : ∀ c ∈ L, c ∈ es) (hcl : Closed low L) (hne : L ≠ []) : ∀ c ∈ es, c ∈ L := by
  obtain ⟨e0, h0⟩ := List.exists_mem_of_ne_nil L hne
  obtain ⟨i, hi⟩ := List.mem_iff_getElem?.1 (hsub e0 h0)
  obtain ⟨hil, -⟩ := List.getElem?_eq_some_iff.1 hi
  have step : ∀ k e, es[(i + k) % es.length]? = some e → e ∈ L := by
    intro k
    induction k with
    | zero =>
      intro e he
      rw [Nat.add_zero, Nat.mod_eq_of_lt hil, hi] at he
      cases he
      exact h0
    | succ k ih =>
      intro e he
      have hlt : (i + k) % es.length < es.length := Nat.mod_lt _ (by omega)
      refine P.next hns hL hsub hcl (i := (i + k) % es.length) (List.getElem?_eq_getElem hlt)
        (ih _ (List.getElem?_eq_getElem hlt)) ?_
      rw [Nat.mod_add_mod]
      exact he
  intro c hc
  obtain ⟨j, hj⟩ := List.mem_iff_getElem?.1 hc
  obtain ⟨hjl, -⟩ := List.getElem?_eq_some_iff.1 hj
  refine step (es.length - i + j) c ?_
  rw [show i + (es.length - i + j) = j + es.length by omega, Nat.add_mod_right, Nat.mod_eq_of_lt hjl]
  exact hj

theorem square_even (r : Nat) : uses ends r square % 2 = 0 := by
  by_cases h : r ∈ [1, 2, 3, 4]
  · revert r; decide
  · have : uses ends r square = 0 := by
      simp only [List.mem_cons, List.not_mem_nil, or_false, not_or] at h
      unfold uses
      rw [List.countP_eq_zero]
      intro c hc
      simp only [decide_eq_true_eq]
      intro hr
      have : ∀ c ∈ square, ∀ r ∈ ends c, r = 1 ∨ r = 2 ∨ r = 3 ∨ r = 4 := by decide
      have := this c hc r hr
      omega
    rw [this]

example := C86_outer (W := Meas.exact (fun _ : Nat × Nat => (1 : Int)) 0 1000) (low := ends) (inner := diag)
  (outer := square) (by decide) square_lengths.toFar square_edges square_even square_loops

example : ∃ c ∈ [(1, 2), (1, 3), (2, 3)], ∀ l' ∈ [[(1, 3), (4, 1), (3, 4)]], c ∉ l' :=
  C86_order (pre := []) (W := Meas.exact (fun _ : Nat × Nat => (1 : Int)) 0 1000) (low := ends) (inner := diag)
    (outer := square) (by decide) square_lengths.toFar square_edges square_loops

end Verif.Incident
