import Verif.Topology.Spec

/-!
# Invariant of connectivity and basic lemmas
-/

namespace Verif.Topology

theorem set1_same {α β : Type} [DecidableEq α] (f : α → β) (a : α) (b : β) : set1 f a b a = b := by
  simp [set1]

theorem set1_ne {α β : Type} [DecidableEq α] (f : α → β) {a x : α} (b : β) (h : x ≠ a) :
    set1 f a b x = f x := by simp [set1, h]

theorem eraseAll_eq (h : El) (l : List El) : eraseAll h l = l.filter fun x => decide (x ≠ h) := by
  induction l with
  | nil => rfl
  | cons x xs ih => by_cases e : x = h <;> simp [eraseAll, e, ih]

theorem count_filter_ne {a h : El} (l : List El) (hne : a ≠ h) :
    (l.filter fun x => decide (x ≠ h)).count a = l.count a :=
  List.count_filter (by simpa using hne)

theorem count_filter_self {h : El} (l : List El) :
    (l.filter fun x => decide (x ≠ h)).count h = 0 := by
  apply List.count_eq_zero.2
  simp

/-- Invariant.  `S` are the elements that are being disconnected: they were removed from all lower
lists already, while their upper lists are still there. -/
structure Inv (T : Topo) (S : El → Prop) : Prop where
  tyLe : ∀ x, T.alive x = true → x.ty ≤ 3
  dead : ∀ x, T.alive x = false → T.low x = [] ∧ T.high x = [] ∧ T.hidden x = false
  lastLt : ∀ x, T.alive x = true → x.id < T.last x.ty
  lowTy : ∀ x y, y ∈ T.low x → (x.ty ≠ 0 → y.ty + 1 = x.ty) ∧ (x.ty = 0 → T.cn = true ∧ y.ty = 3)
  mirror : ∀ a b, ¬ S a → (T.low b).count a = (T.high a).count b
  cut : ∀ a b, S a → a ∉ T.low b

variable {T T' : Topo} {S : El → Prop}

theorem Inv.mem (I : Inv T S) {a b : El} (ha : ¬ S a) : a ∈ T.low b ↔ b ∈ T.high a := by
  rw [← List.count_pos_iff, ← List.count_pos_iff, I.mirror a b ha]

theorem Inv.memLow (I : Inv T S) {a b : El} (h : a ∈ T.low b) : ¬ S a ∧ b ∈ T.high a := by
  have hs : ¬ S a := fun hs => I.cut a b hs h
  exact ⟨hs, (I.mem hs).1 h⟩

theorem Inv.lowLive (I : Inv T S) {a b : El} (h : a ∈ T.low b) :
    T.alive a = true ∧ T.alive b = true := by
  constructor
  · cases ha : T.alive a with
    | true => rfl
    | false => have := (I.memLow h).2; rw [(I.dead a ha).2.1] at this; simp at this
  · cases hb : T.alive b with
    | true => rfl
    | false => rw [(I.dead b hb).1] at h; simp at h

theorem Inv.highLive (I : Inv T S) {a b : El} (hs : ¬ S a) (h : b ∈ T.high a) :
    T.alive a = true ∧ T.alive b = true := I.lowLive ((I.mem hs).2 h)

theorem Inv.highTy (I : Inv T S) {a b : El} (hs : ¬ S a) (h : b ∈ T.high a) :
    (a.ty < 3 → b.ty = a.ty + 1) ∧ (a.ty = 3 → T.cn = true ∧ b.ty = 0) := by
  have hl := (I.mem hs).2 h
  have h1 := I.lowTy b a hl
  have h2 := I.tyLe b (I.lowLive hl).2
  by_cases hb : b.ty = 0
  · have := h1.2 hb
    exact ⟨fun h => by omega, fun _ => ⟨this.1, hb⟩⟩
  · have := h1.1 hb
    exact ⟨fun _ => by omega, fun h => by omega⟩

/-- `LowConn` of an element of an upper list is accessible. -/
theorem Inv.lcOf_of_high (I : Inv T S) {a u : El} (hs : ¬ S a) (h : u ∈ T.high a) :
    T.lcOf u = some (T.low u) := by
  have h1 := I.highLive hs h
  have h2 := I.highTy hs h
  have h3 := I.tyLe a h1.1
  refine if_pos ⟨h1.2, ?_⟩
  by_cases h4 : a.ty = 3
  · exact Or.inr (h2.2 h4).1
  · left; have := h2.1 (by omega); omega

/-- `HighConn` of an element of a lower list is accessible. -/
theorem Inv.hcOf_of_low (I : Inv T S) {b x : El} (h : x ∈ T.low b) : T.hcOf x = some (T.high x) := by
  have h1 := I.lowLive h
  have h2 := I.lowTy b x h
  have h3 := I.tyLe b h1.2
  refine if_pos ⟨h1.1, ?_⟩
  by_cases h4 : b.ty = 0
  · exact Or.inr (h2.2 h4).1
  · left; have := h2.1 h4; omega

/-- Equality up to the order of the lists. -/
structure PermEq (T T' : Topo) : Prop where
  cn : T'.cn = T.cn
  alive : T'.alive = T.alive
  last : T'.last = T.last
  hide : T'.hide = T.hide
  hidden : T'.hidden = T.hidden
  low : ∀ x, (T'.low x).Perm (T.low x)
  high : ∀ x, (T'.high x).Perm (T.high x)

theorem PermEq.refl (T : Topo) : PermEq T T :=
  ⟨rfl, rfl, rfl, rfl, rfl, fun _ => .refl _, fun _ => .refl _⟩

theorem PermEq.trans {T1 T2 T3 : Topo} (h : PermEq T1 T2) (h' : PermEq T2 T3) : PermEq T1 T3 :=
  ⟨h'.cn.trans h.cn, h'.alive.trans h.alive, h'.last.trans h.last, h'.hide.trans h.hide,
    h'.hidden.trans h.hidden, fun x => (h'.low x).trans (h.low x),
    fun x => (h'.high x).trans (h.high x)⟩

theorem PermEq.hid (P : PermEq T T') (x : El) : T'.hid x = T.hid x := by
  unfold Topo.hid; rw [P.hide, P.hidden]

theorem Inv.perm (I : Inv T S) (P : PermEq T T') : Inv T' S where
  tyLe x h := I.tyLe x (by rw [← P.alive]; exact h)
  dead x h := by
    obtain ⟨h1, h2, h3⟩ := I.dead x (by rw [← P.alive]; exact h)
    refine ⟨?_, ?_, by rw [P.hidden]; exact h3⟩
    · have := P.low x; rw [h1] at this; exact this.eq_nil
    · have := P.high x; rw [h2] at this; exact this.eq_nil
  lastLt x h := by rw [P.last]; exact I.lastLt x (by rw [← P.alive]; exact h)
  lowTy x y h := by rw [P.cn]; exact I.lowTy x y ((P.low x).mem_iff.1 h)
  mirror a b h := by rw [(P.low b).count_eq, (P.high a).count_eq]; exact I.mirror a b h
  cut a b h h' := I.cut a b h ((P.low b).mem_iff.1 h')

/-! ## Loops -/

theorem forEach_cons {α : Type} {f : Topo → α → Option Topo} {x : α} {xs : List α} {T1 : Topo}
    (h : f T x = some T1) : forEach f (x :: xs) T = forEach f xs T1 := by
  simp [forEach, h]

/-- Induction for a loop that succeeds. -/
theorem forEach_ind {α : Type} {f : Topo → α → Option Topo} (P : Topo → Prop)
    (hstep : ∀ T x T', P T → f T x = some T' → P T') :
    ∀ (l : List α) (T T' : Topo), P T → forEach f l T = some T' → P T'
  | [], T, T', h, e => by simp [forEach] at e; rwa [← e]
  | x :: xs, T, T', h, e => by
    unfold forEach at e
    cases h1 : f T x with
    | none => rw [h1] at e; cases e
    | some T1 =>
      rw [h1] at e
      exact forEach_ind P hstep xs T1 T' (hstep T x T1 h h1) e

/-- A loop of steps that succeed under an invariant. -/
theorem forEach_ok {α : Type} {f : Topo → α → Option Topo} (P : Topo → Prop) (l : List α)
    (hstep : ∀ T, ∀ x ∈ l, P T → ∃ T', f T x = some T' ∧ P T') :
    ∀ T, P T → ∃ T', forEach f l T = some T' ∧ P T' := by
  induction l with
  | nil => intro T h; exact ⟨T, rfl, h⟩
  | cons x xs ih =>
    intro T h
    obtain ⟨T1, e1, h1⟩ := hstep T x (by simp) h
    rw [forEach_cons e1]
    exact ih (fun T y hy => hstep T y (by simp [hy])) T1 h1

/-! ## Counting and swapping visible entries -/

theorem countVis_eq (T : Topo) (l : List El) :
    T.countVis l = (l.filter fun x => !T.hid x).length := by
  induction l with
  | nil => rfl
  | cons x xs ih => cases h : T.hid x <;> simp [Topo.countVis, h, ih]; omega

theorem getNext_lt {l : List El} {k : Nat} (h : 0 < T.countVis (l.drop k)) :
    T.getNext l k < l.length := by
  unfold Topo.getNext
  have h1 : ((l.drop k).takeWhile T.hid).length < (l.drop k).length := by
    rcases Nat.lt_or_ge ((l.drop k).takeWhile T.hid).length (l.drop k).length with h' | h'
    · exact h'
    · exfalso
      have hp := List.takeWhile_prefix (p := T.hid) (l := l.drop k)
      have he := hp.eq_of_length_le h'
      rw [countVis_eq] at h
      obtain ⟨y, hy⟩ := List.exists_mem_of_length_pos h
      simp only [List.mem_filter, Bool.not_eq_true'] at hy
      have := List.all_eq_true.1 (List.all_takeWhile (p := T.hid) (l := l.drop k)) y (by rw [he]; exact hy.1)
      rw [hy.2] at this; cases this
  rw [List.length_drop] at h1
  omega

theorem getNext_vis {l : List El} {k : Nat} {y : El} (h : l[T.getNext l k]? = some y) :
    T.hid y = false := by
  unfold Topo.getNext at h
  rw [← List.getElem?_drop] at h
  have hs : l.drop k = (l.drop k).takeWhile T.hid ++ (l.drop k).dropWhile T.hid :=
    List.takeWhile_append_dropWhile.symm
  rw [hs, List.getElem?_append_right (by rw [← hs]; exact Nat.le_refl _)] at h
  rw [← hs] at h
  simp only [Nat.sub_self] at h
  cases hd : (l.drop k).dropWhile T.hid with
  | nil => rw [hd] at h; cases h
  | cons z zs =>
    rw [hd] at h
    have hz : z = y := by simpa using h
    subst hz
    have := List.head?_dropWhile_not T.hid (l.drop k)
    rw [hd] at this
    simpa using this

theorem countVis_drop {l : List El} : ∀ k, (∀ j < k, ∀ y, l[j]? = some y → T.hid y = true) →
    T.countVis (l.drop k) = T.countVis l := by
  induction l with
  | nil => intro k _; simp
  | cons x xs ih =>
    intro k h
    cases k with
    | zero => rfl
    | succ k =>
      rw [List.drop_succ_cons, ih k (fun j hj y hy => h (j + 1) (by omega) y (by simpa using hy))]
      have := h 0 (by omega) x rfl
      simp [Topo.countVis, this]

theorem getNext_skip {l : List El} {k j : Nat} (h1 : k ≤ j) (h2 : j < T.getNext l k) {y : El}
    (h : l[j]? = some y) : T.hid y = true := by
  unfold Topo.getNext at h2
  have h3 : ((l.drop k).takeWhile T.hid)[j - k]? = some y := by
    have hp := List.takeWhile_prefix (p := T.hid) (l := l.drop k)
    obtain ⟨r, hr⟩ := hp
    have : (l.drop k)[j - k]? = some y := by rw [List.getElem?_drop, show k + (j - k) = j by omega]; exact h
    rw [← hr, List.getElem?_append_left (by omega)] at this
    exact this
  have hm := List.mem_of_getElem? h3
  exact List.all_eq_true.1 (List.all_takeWhile (p := T.hid) (l := l.drop k)) y hm

/-- The two visible entries are exchanged. -/
theorem swapTwo_spec {f : El} {l : List El} (hl : T.hcOf f = some l) (h2 : 2 ≤ T.countVis l) :
    ∃ T', T.swapTwo f l = some T' ∧ PermEq T T' ∧ T'.low = T.low ∧
      (∀ x, x ≠ f → T'.high x = T.high x) := by
  have hh : T.high f = l := by
    unfold Topo.hcOf at hl; split at hl
    · simpa using hl
    · cases hl
  have h1 : T.getNext l 0 < l.length := getNext_lt (by simpa using (by omega : 0 < T.countVis l))
  have h3 : T.getNext l (T.getNext l 0 + 1) < l.length := by
    apply getNext_lt
    generalize hk : T.getNext l 0 = k at *
    have hd : T.countVis (l.drop k) = T.countVis l := by
      apply countVis_drop
      intro j hj y hy
      exact getNext_skip (k := 0) (Nat.zero_le _) (by rw [hk]; exact hj) hy
    have hc : l.drop k = l[k] :: l.drop (k + 1) := List.drop_eq_getElem_cons h1
    rw [hc] at hd
    simp only [Topo.countVis] at hd
    split at hd <;> omega
  generalize hk1 : T.getNext l 0 = k1 at *
  generalize hk2 : T.getNext l (k1 + 1) = k2 at *
  have e : swapAt l k1 k2 = some ((l.set k1 l[k2]).set k2 l[k1]) := by
    unfold swapAt
    rw [List.getElem?_eq_getElem h1, List.getElem?_eq_getElem h3]
  refine ⟨{ T with high := set1 T.high f ((l.set k1 l[k2]).set k2 l[k1]) }, ?_, ?_, rfl, ?_⟩
  · unfold Topo.swapTwo
    simp only [hk1, hk2, e]
    unfold Topo.modHigh
    rw [hl]
  · refine ⟨rfl, rfl, rfl, rfl, rfl, fun _ => .refl _, fun x => ?_⟩
    by_cases hx : x = f
    · subst hx; simp only [set1_same, hh]
      exact List.set_set_perm h1 h3
    · simp only [set1_ne _ _ hx]; exact .refl _
  · intro x hx
    simp only [set1_ne _ _ hx]

end Verif.Topology
