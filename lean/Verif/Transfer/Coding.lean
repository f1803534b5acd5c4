import Verif.Transfer.Spec
import Mathlib.Data.List.Forall2

/-! # Lemmas: sorted lists, and reading of what was packed -/

namespace Verif.Transfer

open Verif.Topology

variable {V : Type}

/-! ## Sorting and searching -/

theorem insertNum_mem (num : El → Nat) (e x : El) (l : List El) : x ∈ insertNum num e l ↔ x = e ∨ x ∈ l := by
  induction l with
  | nil => simp [insertNum]
  | cons y l ih =>
    unfold insertNum
    split
    · simp
    · simp only [List.mem_cons, ih]
      exact ⟨fun h => by rcases h with h | h | h <;> simp [h], fun h => by rcases h with h | h | h <;> simp [h]⟩

theorem sortNum_mem (num : El → Nat) (x : El) (l : List El) : x ∈ sortNum num l ↔ x ∈ l := by
  induction l with
  | nil => simp [sortNum]
  | cons y l ih => simp [sortNum, insertNum_mem, ih]

theorem insertNum_sorted (num : El → Nat) (e : El) (l : List El) (h : l.Pairwise fun a b => num a ≤ num b) :
    (insertNum num e l).Pairwise fun a b => num a ≤ num b := by
  induction l with
  | nil => simp [insertNum]
  | cons y l ih =>
    rw [List.pairwise_cons] at h
    unfold insertNum
    split
    · next hle =>
      rw [List.pairwise_cons, List.pairwise_cons]
      refine ⟨fun a ha => ?_, h⟩
      rcases List.mem_cons.1 ha with rfl | ha
      · exact hle
      · exact Nat.le_trans hle (h.1 a ha)
    · next hle =>
      rw [List.pairwise_cons]
      refine ⟨fun a ha => ?_, ih h.2⟩
      rcases (insertNum_mem num e a l).1 ha with rfl | ha
      · omega
      · exact h.1 a ha

theorem sortNum_sorted (num : El → Nat) (l : List El) : (sortNum num l).Pairwise fun a b => num a ≤ num b := by
  induction l with
  | nil => exact .nil
  | cons y l ih => exact insertNum_sorted num y _ ih

theorem lookup_some {num : El → Nat} {l : List El} {g : Nat} {x : El} (h : lookup num l g = some x) :
    x ∈ l ∧ num x = g := by
  unfold lookup at h
  split at h
  · cases h
  · next y hy =>
    split at h
    · next hg =>
      cases h
      exact ⟨(List.dropWhile_sublist _).mem (List.mem_of_head? hy), hg⟩
    · cases h

theorem lookup_none {num : El → Nat} {l : List El} {g : Nat} (hs : l.Pairwise fun a b => num a ≤ num b)
    (h : lookup num l g = none) : ∀ x ∈ l, num x ≠ g := by
  induction l with
  | nil => simp
  | cons y l ih =>
    rw [List.pairwise_cons] at hs
    unfold lookup at h
    intro x hx
    by_cases hy : num y < g
    · rw [List.dropWhile_cons_of_pos (by simpa using hy)] at h
      rcases List.mem_cons.1 hx with rfl | hx
      · omega
      · exact ih hs.2 h x hx
    · rw [List.dropWhile_cons_of_neg (by simpa using hy)] at h
      simp only [List.head?_cons] at h
      split at h
      · cases h
      · next hg =>
        rcases List.mem_cons.1 hx with rfl | hx
        · exact hg
        · have := hs.1 x hx
          omega

theorem lookup_of_mem {num : El → Nat} {l : List El} {g : Nat} (hs : l.Pairwise fun a b => num a ≤ num b) {x : El}
    (hx : x ∈ l) (hg : num x = g) : ∃ y, lookup num l g = some y := by
  cases h : lookup num l g with
  | none => exact absurd hg (lookup_none hs h x hx)
  | some y => exact ⟨y, rfl⟩

/-! ## Positions -/

theorem enumFrom_of_not_mem (l : List El) (i : Nat) (pos : El → Option Nat) {x : El} (hx : x ∉ l) :
    enumFrom i l pos x = pos x := by
  induction l generalizing i pos with
  | nil => rfl
  | cons y l ih =>
    simp only [List.mem_cons, not_or] at hx
    unfold enumFrom
    rw [ih _ _ hx.2]
    unfold set1
    rw [if_neg hx.1]

theorem enumFrom_of_mem (l : List El) (i : Nat) (pos : El → Option Nat) {x : El} (hx : x ∈ l) :
    ∃ j, enumFrom i l pos x = some (i + j) ∧ l[j]? = some x := by
  induction l generalizing i pos with
  | nil => cases hx
  | cons y l ih =>
    unfold enumFrom
    by_cases hl : x ∈ l
    · obtain ⟨j, h1, h2⟩ := ih (i + 1) (set1 pos y (some i)) hl
      exact ⟨j + 1, by rw [h1]; congr 1; omega, by simpa using h2⟩
    · rcases List.mem_cons.1 hx with rfl | h
      · refine ⟨0, ?_, by simp⟩
        rw [enumFrom_of_not_mem _ _ _ hl]
        simp [set1]
      · exact absurd h hl

/-- The elements of a list have the position under which they are found. -/
theorem positions_ok {sel : Nat → List El} (hty : ∀ t, ∀ e ∈ sel t, e.ty = t) {t : Nat} (ht : t < 4) {x : El}
    (hx : x ∈ sel t) : ∃ j, positions sel x = some j ∧ (sel t)[j]? = some x := by
  have hn : ∀ s, s ≠ t → x ∉ sel s := fun s hs h => hs ((hty s x h).symm.trans (hty t x hx))
  unfold positions
  rcases (by omega : t = 0 ∨ t = 1 ∨ t = 2 ∨ t = 3) with rfl | rfl | rfl | rfl
  · rw [enumFrom_of_not_mem _ _ _ (hn 3 (by omega)), enumFrom_of_not_mem _ _ _ (hn 2 (by omega)),
      enumFrom_of_not_mem _ _ _ (hn 1 (by omega))]
    obtain ⟨j, h1, h2⟩ := enumFrom_of_mem (sel 0) 0 (fun _ => none) hx
    exact ⟨j, by simpa using h1, h2⟩
  · rw [enumFrom_of_not_mem _ _ _ (hn 3 (by omega)), enumFrom_of_not_mem _ _ _ (hn 2 (by omega))]
    obtain ⟨j, h1, h2⟩ := enumFrom_of_mem (sel 1) 0 (enumFrom 0 (sel 0) fun _ => none) hx
    exact ⟨j, by simpa using h1, h2⟩
  · rw [enumFrom_of_not_mem _ _ _ (hn 3 (by omega))]
    obtain ⟨j, h1, h2⟩ := enumFrom_of_mem (sel 2) 0 (enumFrom 0 (sel 1) (enumFrom 0 (sel 0) fun _ => none)) hx
    exact ⟨j, by simpa using h1, h2⟩
  · obtain ⟨j, h1, h2⟩ := enumFrom_of_mem (sel 3) 0
      (enumFrom 0 (sel 2) (enumFrom 0 (sel 1) (enumFrom 0 (sel 0) fun _ => none))) hx
    exact ⟨j, by simpa using h1, h2⟩

theorem place_ok {pos : El → Option Nat} {l : List El} {x : El} (h : ∃ j, pos x = some j ∧ l[j]? = some x) :
    ∃ i, place pos l x = some i ∧ elAt l i = some x := by
  obtain ⟨j, h1, h2⟩ := h
  refine ⟨(j : Int), ?_, ?_⟩
  · unfold place
    rw [h1]
    simp only [h2, if_true]
  · unfold elAt
    rw [if_pos (by omega)]
    simpa using h2

theorem places_ok {pos : El → Option Nat} {l : List El} (xs : List El)
    (h : ∀ x ∈ xs, ∃ j, pos x = some j ∧ l[j]? = some x) :
    ∃ is, places pos l xs = some is ∧ elsAt l is = some xs := by
  induction xs with
  | nil => exact ⟨[], rfl, rfl⟩
  | cons x xs ih =>
    obtain ⟨i, h1, h2⟩ := place_ok (h x (by simp))
    obtain ⟨is, h3, h4⟩ := ih fun y hy => h y (by simp [hy])
    exact ⟨i :: is, by simp only [places, h1, h3], by simp only [elsAt, h2, h4]⟩

/-- The same positions in a list of elements standing for the same. -/
theorem elAt_par {f g : El → El} {l m : List El} (hp : m.map g = l.map f) {i : Int} {x : El}
    (h : elAt l i = some x) : ∃ y ∈ m, elAt m i = some y ∧ g y = f x := by
  unfold elAt at h ⊢
  split at h
  · next h0 =>
    rw [if_pos h0]
    have := congrArg (fun k : List El => k[i.toNat]?) hp
    simp only [List.getElem?_map, h, Option.map_some] at this
    cases hm : m[i.toNat]? with
    | none => rw [hm] at this; cases this
    | some y =>
      rw [hm] at this
      simp only [Option.map_some, Option.some.injEq] at this
      exact ⟨y, List.mem_of_getElem? hm, rfl, this⟩
  · cases h

theorem elsAt_par {f g : El → El} {l m : List El} (hp : m.map g = l.map f) (is : List Int) {xs : List El}
    (h : elsAt l is = some xs) : ∃ ys, elsAt m is = some ys ∧ ys.map g = xs.map f ∧ ∀ y ∈ ys, y ∈ m := by
  induction is generalizing xs with
  | nil => simp only [elsAt, Option.some.injEq] at h; subst h; exact ⟨[], rfl, rfl, by simp⟩
  | cons i is ih =>
    unfold elsAt at h
    split at h
    · next x xs' h1 h2 =>
      cases h
      obtain ⟨y, hy, h3, h4⟩ := elAt_par hp h1
      obtain ⟨ys, h5, h6, h7⟩ := ih h2
      refine ⟨y :: ys, by simp only [elsAt, h3, h5], by simp [h4, h6], ?_⟩
      intro z hz
      rcases List.mem_cons.1 hz with rfl | hz
      · exact hy
      · exact h7 z hz
    · cases h

/-! ## Packing and reading -/

/-- What the receiver reads for an element. -/
def Codes (S : Side V) (byNum : Nat → Bool) (dest : Nat) (prev : List El) (e : El) (it : Item) : Prop :=
  (S.known byNum dest e = true ∧ it = .byNum (S.owner e) (S.num e : Int)) ∨
    (S.known byNum dest e = false ∧ ∃ idx, it = .conn idx ∧ elsAt prev idx = some (S.T.low e))

theorem packConn_ok {S : Side V} {byNum : Nat → Bool} {dest : Nat} {pos : El → Option Nat} {prev : List El}
    (l : List El) (h : ∀ e ∈ l, S.known byNum dest e = false → ∀ x ∈ S.T.low e, ∃ j, pos x = some j ∧ prev[j]? = some x) :
    ∃ c its, packConn S byNum dest pos prev l = some c ∧ decode c.1 c.2 = some its ∧
      List.Forall₂ (Codes S byNum dest prev) l its := by
  induction l with
  | nil => exact ⟨([], []), [], rfl, rfl, .nil⟩
  | cons e l ih =>
    obtain ⟨⟨ks, cs⟩, its, h1, h2, h3⟩ := ih fun y hy => h y (by simp [hy])
    cases hk : S.known byNum dest e with
    | true =>
      refine ⟨(none :: ks, [S.owner e, (S.num e : Int)] ++ cs), .byNum (S.owner e) (S.num e : Int) :: its, ?_, ?_,
        .cons (Or.inl ⟨hk, rfl⟩) h3⟩
      · simp only [packConn, packOne, hk, if_true, h1]
      · simp only [List.cons_append, List.nil_append, decode, h2]
    | false =>
      obtain ⟨is, h4, h5⟩ := places_ok (S.T.low e) (h e (by simp) hk)
      refine ⟨(some is.length :: ks, is ++ cs), .conn is :: its, ?_, ?_, .cons (Or.inr ⟨hk, is, rfl, h5⟩) h3⟩
      · simp only [packConn, packOne, hk, Bool.false_eq_true, if_false, h4, h1]
      · simp only [decode, List.length_append, List.drop_left, List.take_left]
        rw [if_neg (by omega)]
        simp only [h2]

/-- What the receiver reads for a cell whose nodes are sent. -/
def CodesH (S : Side V) (byNum : Nat → Bool) (dest : Nat) (prev nodes : List El) (e : El) (p : Item × List Int) : Prop :=
  Codes S byNum dest prev e p.1 ∧ (S.known byNum dest e = false → elsAt nodes p.2 = some (S.T.high e))

theorem packHigh_ok {S : Side V} {byNum : Nat → Bool} {dest : Nat} {pos : El → Option Nat} {prev nodes : List El}
    (l : List El) (h : ∀ e ∈ l, S.known byNum dest e = false → ∀ x ∈ S.T.high e, ∃ j, pos x = some j ∧ nodes[j]? = some x)
    (its : List Item) (hc : List.Forall₂ (Codes S byNum dest prev) l its) :
    ∃ c r, packHigh S byNum dest pos nodes l = some c ∧ decodeHigh its c.1 c.2 = some r ∧
      List.Forall₂ (CodesH S byNum dest prev nodes) l r := by
  induction hc with
  | nil => exact ⟨([], []), [], rfl, rfl, .nil⟩
  | @cons e it l its hit _ ih =>
    obtain ⟨⟨ks, cs⟩, r, h1, h2, h3⟩ := ih fun y hy => h y (by simp [hy])
    rcases hit with ⟨hk, rfl⟩ | ⟨hk, idx, rfl, hidx⟩
    · refine ⟨(0 :: ks, cs), (.byNum (S.owner e) (S.num e : Int), []) :: r, ?_, ?_,
        .cons ⟨Or.inl ⟨hk, rfl⟩, fun h => by rw [hk] at h; cases h⟩ h3⟩
      · simp only [packHigh, hk, if_true, h1, List.length_nil, List.nil_append]
      · simp only [decodeHigh, h2]
    · obtain ⟨is, h4, h5⟩ := places_ok (S.T.high e) (h e (by simp) hk)
      refine ⟨(is.length :: ks, is ++ cs), (.conn idx, is) :: r, ?_, ?_,
        .cons ⟨Or.inr ⟨hk, idx, rfl, hidx⟩, fun _ => h5⟩ h3⟩
      · simp only [packHigh, hk, Bool.false_eq_true, if_false, h4, h1]
      · simp only [decodeHigh, List.length_append, List.drop_left, List.take_left]
        rw [if_neg (by omega)]
        simp only [h2]

end Verif.Transfer
