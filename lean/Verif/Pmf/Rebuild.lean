import Verif.Pmf.Model
import Verif.Topology.ReachInv

/-!
# The connectivity after elements were created in the order of their numbers
-/

namespace Verif.Pmf
open Verif.Topology

/-- The first `n` elements built on `x`, in the order of their numbers. -/
def gather (T : Topo) (x : El) (n : Nat) : List El :=
  (List.range n).flatMap fun k => List.replicate ((T.low ⟨x.ty + 1, k⟩).count x) ⟨x.ty + 1, k⟩

/-- The first `n` cells with the node `x`. -/
def gatherN (T : Topo) (x : El) (n : Nat) : List El :=
  (List.range n).flatMap fun k => List.replicate ((T.high ⟨3, k⟩).count x) ⟨3, k⟩

/-- The mesh with the first `n ty` elements of each type, during modification. -/
def upTo (T : Topo) (n : Nat → Nat) : Topo where
  cn := T.cn
  alive x := decide (x.ty < 4 ∧ x.id < n x.ty)
  last := n
  low x := if x.ty < 4 ∧ x.id < n x.ty then
    (if x.ty = 0 then (if T.cn then gatherN T x (n 3) else []) else T.low x) else []
  high x := if x.ty < 4 ∧ x.id < n x.ty then
    (if x.ty = 3 then (if T.cn then T.high x else []) else gather T x (n (x.ty + 1))) else []
  hide := true
  hidden _ := false

theorem gather_succ (T : Topo) (x : El) (n : Nat) :
    gather T x (n + 1) = gather T x n ++ List.replicate ((T.low ⟨x.ty + 1, n⟩).count x) ⟨x.ty + 1, n⟩ := by
  simp [gather, List.range_succ]

theorem gatherN_succ (T : Topo) (x : El) (n : Nat) :
    gatherN T x (n + 1) = gatherN T x n ++ List.replicate ((T.high ⟨3, n⟩).count x) ⟨3, n⟩ := by
  simp [gatherN, List.range_succ]

theorem appHigh_ok (he : El) : ∀ (l : List El) (T : Topo), (∀ x ∈ l, T.alive x = true ∧ (x.ty < 3 ∨ T.cn = true)) →
    forEach (fun T x => T.modHigh x (· ++ [he])) l T =
      some { T with high := fun x => T.high x ++ List.replicate (l.count x) he }
  | [], T, _ => by simp [forEach]
  | x :: xs, T, h => by
    have h1 : T.modHigh x (· ++ [he]) = some { T with high := set1 T.high x (T.high x ++ [he]) } := by
      simp only [Topo.modHigh, Topo.hcOf, if_pos (h x (List.mem_cons_self ..))]
    rw [forEach_cons h1, appHigh_ok he xs _ (by exact fun y hy => h y (List.mem_cons_of_mem _ hy))]
    congr 2
    funext y
    by_cases hy : y = x
    · subst hy
      simp only [set1_same, List.count_cons_self, List.append_assoc, List.replicate_succ]
      rfl
    · simp only [set1_ne _ _ hy]
      rw [List.count_cons_of_ne (fun h => hy h.symm)]

theorem appLow_ok (he : El) : ∀ (l : List El) (T : Topo), (∀ x ∈ l, T.alive x = true ∧ (0 < x.ty ∨ T.cn = true)) →
    forEach (fun T x => T.modLow x (· ++ [he])) l T =
      some { T with low := fun x => T.low x ++ List.replicate (l.count x) he }
  | [], T, _ => by simp [forEach]
  | x :: xs, T, h => by
    have h1 : T.modLow x (· ++ [he]) = some { T with low := set1 T.low x (T.low x ++ [he]) } := by
      simp only [Topo.modLow, Topo.lcOf, if_pos (h x (List.mem_cons_self ..))]
    rw [forEach_cons h1, appLow_ok he xs _ (by exact fun y hy => h y (List.mem_cons_of_mem _ hy))]
    congr 2
    funext y
    by_cases hy : y = x
    · subst hy
      simp only [set1_same, List.count_cons_self, List.append_assoc, List.replicate_succ]
      rfl
    · simp only [set1_ne _ _ hy]
      rw [List.count_cons_of_ne (fun h => hy h.symm)]

theorem Topo.ext' {A B : Topo} (h1 : A.cn = B.cn) (h2 : ∀ x, A.alive x = B.alive x) (h3 : ∀ t, A.last t = B.last t)
    (h4 : ∀ x, A.low x = B.low x) (h5 : ∀ x, A.high x = B.high x) (h6 : A.hide = B.hide)
    (h7 : ∀ x, A.hidden x = B.hidden x) : A = B := by
  cases A; cases B
  simp only [Topo.mk.injEq]
  exact ⟨h1, funext h2, funext h3, funext h4, funext h5, h6, funext h7⟩

/-- The next element of type `ty` only. -/
def inc (n : Nat → Nat) (ty : Nat) : Nat → Nat := set1 n ty (n ty + 1)

variable {T : Topo} {n : Nat → Nat}

theorem inc_lt {ty : Nat} (x : El) : x.id < inc n ty x.ty ↔ x.id < n x.ty ∨ x = ⟨ty, n ty⟩ := by
  obtain ⟨t, i⟩ := x
  simp only [inc, set1, El.mk.injEq]
  by_cases h : t = ty
  · subst h; simp only [if_true, true_and]; omega
  · simp [h]

theorem createNode_upTo (h1 : n 1 = 0) (h3 : n 3 = 0) :
    (upTo T n).createNode (n 0) = some (upTo T (inc n 0)) := by
  have hd : (upTo T n).alive ⟨0, n 0⟩ = false := by simp [upTo]
  unfold Topo.createNode
  simp only [hd, Bool.false_eq_true, if_false, Option.some.injEq]
  have i1 : inc n 0 1 = 0 := by simp [inc, set1, h1]
  have i3 : inc n 0 3 = 0 := by simp [inc, set1, h3]
  have ine : ∀ t, t ≠ 0 → inc n 0 t = n t := fun t ht => set1_ne _ _ ht
  apply Topo.ext'
  · rfl
  · intro x
    simp only [Topo.tie, upTo, set1]
    by_cases hx : x = ⟨0, n 0⟩
    · subst hx; simp [inc, set1]
    · rw [if_neg hx]
      congr 1
      rw [inc_lt]
      simp [hx]
  · intro t
    show set1 n 0 (max (n 0) (n 0 + 1)) t = inc n 0 t
    rw [Nat.max_eq_right (by omega)]; rfl
  · intro x
    by_cases hx : x = ⟨0, n 0⟩
    · subst hx
      simp only [Topo.tie, upTo, set1_same, i3, gatherN]
      simp
    · simp only [Topo.tie, upTo, set1_ne _ _ hx, inc_lt, hx, or_false, i3, h3]
  · intro x
    by_cases hx : x = ⟨0, n 0⟩
    · subst hx
      simp only [Topo.tie, upTo, set1_same, i1, gather]
      simp
    · simp only [Topo.tie, upTo, set1_ne _ _ hx, inc_lt, hx, or_false]
      rw [ine _ (by omega)]
  · rfl
  · intro x; simp only [Topo.tie, upTo, set1]; split <;> rfl

/-- The next edge, face or cell. -/
theorem create_upTo {ty : Nat} (hty : ty = 1 ∨ ty = 2 ∨ ty = 3) (hup : n (ty + 1) = 0) (h3 : ty ≠ 3 → n 3 = 0)
    (hne : T.low ⟨ty, n ty⟩ ≠ [])
    (hl : ∀ x ∈ T.low ⟨ty, n ty⟩, x.ty + 1 = ty ∧ x.id < n x.ty)
    (hh : ty = 3 → T.cn = true → ∀ x ∈ T.high ⟨3, n 3⟩, x.ty = 0 ∧ x.id < n 0) (nodes : List El)
    (hn : ty = 3 → T.cn = true → nodes = T.high ⟨3, n 3⟩) :
    (upTo T n).create false ty (n ty) (T.low ⟨ty, n ty⟩) nodes =
      some (upTo T (inc n ty), some ⟨ty, n ty⟩, true) := by
  have hd : (upTo T n).alive ⟨ty, n ty⟩ = false := by simp [upTo]
  have ht4 : ty < 4 := by omega
  have hal : ∀ x ∈ T.low ⟨ty, n ty⟩, (upTo T n).alive x = true := by
    intro x hx
    have := hl x hx
    simp only [upTo, decide_eq_true_eq]
    exact ⟨by omega, this.2⟩
  have hne' : ∀ x ∈ T.low ⟨ty, n ty⟩, x ≠ ⟨ty, n ty⟩ := by
    rintro x hx rfl
    have := (hl _ hx).1
    simp at this
  have key : (upTo T n).createUp ⟨ty, n ty⟩ (T.low ⟨ty, n ty⟩) nodes = some (upTo T (inc n ty)) := by
    unfold Topo.createUp
    rw [appHigh_ok _ _ _ (by
      intro x hx
      refine ⟨?_, Or.inl (by have := (hl x hx).1; omega)⟩
      show set1 (upTo T n).alive _ true x = true
      rw [set1_ne _ _ (hne' x hx)]; exact hal x hx)]
    simp only
    have hml : ∀ U : Topo, U.alive ⟨ty, n ty⟩ = true → U.modLow ⟨ty, n ty⟩ (· ++ T.low ⟨ty, n ty⟩) =
        some { U with low := set1 U.low ⟨ty, n ty⟩ (U.low ⟨ty, n ty⟩ ++ T.low ⟨ty, n ty⟩) } := by
      intro U hU
      simp only [Topo.modLow, Topo.lcOf, if_pos (show U.alive ⟨ty, n ty⟩ = true ∧ (0 < (⟨ty, n ty⟩ : El).ty ∨ U.cn = true)
        from ⟨hU, Or.inl (by show 0 < ty; omega)⟩)]
    rw [hml _ (show set1 (upTo T n).alive _ true _ = true from set1_same ..)]
    simp only
    have hal' : ∀ x, set1 (upTo T n).alive ⟨ty, n ty⟩ true x = (upTo T (inc n ty)).alive x := by
      intro x
      simp only [upTo, set1]
      by_cases hx : x = ⟨ty, n ty⟩
      · subst hx; simp [inc, set1, ht4]
      · rw [if_neg hx]
        congr 1
        rw [inc_lt]
        simp [hx]
    have hlast : ∀ t, set1 n ty (max (n ty) (n ty + 1)) t = inc n ty t := by
      intro t
      rw [Nat.max_eq_right (by omega)]; rfl
    have hhid : ∀ x, set1 (fun _ : El => false) ⟨ty, n ty⟩ false x = false := by
      intro x; simp only [set1]; split <;> rfl
    have ine : ∀ t, t ≠ ty → inc n ty t = n t := fun t ht => set1_ne _ _ ht
    have hhigh : ∀ x, x ≠ ⟨ty, n ty⟩ →
        (upTo T n).high x ++ List.replicate ((T.low ⟨ty, n ty⟩).count x) ⟨ty, n ty⟩ = (upTo T (inc n ty)).high x := by
      intro x hx
      simp only [upTo, inc_lt, hx, or_false]
      by_cases ha : x.ty < 4 ∧ x.id < n x.ty
      · rw [if_pos ha, if_pos ha]
        by_cases hx3 : x.ty = 3
        · rw [if_pos hx3, if_pos hx3, List.count_eq_zero.2 (fun h => by have := (hl x h).1; omega)]
          simp
        · rw [if_neg hx3, if_neg hx3]
          by_cases hxt : x.ty + 1 = ty
          · rw [hxt, show inc n ty ty = n ty + 1 from set1_same .., gather_succ, hxt]
          · rw [ine _ hxt, List.count_eq_zero.2 (fun h => hxt (hl x h).1)]
            simp
      · rw [if_neg ha, if_neg ha, List.count_eq_zero.2 (fun h => ha (by
          have := hal x h
          simpa [upTo] using this))]
        rfl
    by_cases hc : ty = 3 ∧ T.cn = true
    · obtain ⟨rfl, hcn⟩ := hc
      obtain rfl := hn rfl hcn
      have hh' := hh rfl hcn
      rw [if_pos ⟨rfl, hcn⟩, appLow_ok _ _ _ (by
        intro x hx
        refine ⟨?_, Or.inr hcn⟩
        have h2 := hh' x hx
        show set1 (upTo T n).alive _ true x = true
        rw [hal']
        simp only [upTo, decide_eq_true_eq, inc_lt]
        exact ⟨by omega, Or.inl (by rw [h2.1]; exact h2.2)⟩)]
      simp only
      have hmh : ∀ U : Topo, U.alive ⟨3, n 3⟩ = true → U.cn = true → U.modHigh ⟨3, n 3⟩ (T.high ⟨3, n 3⟩ ++ ·) =
          some { U with high := set1 U.high ⟨3, n 3⟩ (T.high ⟨3, n 3⟩ ++ U.high ⟨3, n 3⟩) } := by
        intro U hU hUc
        simp only [Topo.modHigh, Topo.hcOf, if_pos (show U.alive ⟨3, n 3⟩ = true ∧ ((⟨3, n 3⟩ : El).ty < 3 ∨ U.cn = true)
          from ⟨hU, Or.inr hUc⟩)]
      rw [hmh _ (show set1 (upTo T n).alive _ true _ = true from set1_same ..) (by exact hcn)]
      congr 1
      apply Topo.ext'
      · rfl
      · exact hal'
      · exact hlast
      · intro x
        by_cases hx : x = ⟨3, n 3⟩
        · subst hx
          simp only [Topo.tie, set1_same, List.nil_append]
          rw [List.count_eq_zero.2 (fun h => by have := (hh' _ h).1; simp at this)]
          simp [upTo, inc, set1]
        · simp only [Topo.tie, set1_ne _ _ hx]
          simp only [upTo, inc_lt, hx, or_false]
          by_cases ha : x.ty < 4 ∧ x.id < n x.ty
          · rw [if_pos ha, if_pos ha]
            by_cases hx0 : x.ty = 0
            · rw [if_pos hx0, if_pos hx0, if_pos hcn, if_pos hcn, show inc n 3 3 = n 3 + 1 from set1_same ..,
                gatherN_succ]
            · rw [if_neg hx0, if_neg hx0, List.count_eq_zero.2 (fun h => hx0 (hh' x h).1)]
              simp
          · rw [if_neg ha, if_neg ha, List.count_eq_zero.2 (fun h => ha (by
              have := hh' x h
              exact ⟨by omega, by rw [this.1]; exact this.2⟩))]
            rfl
      · intro x
        by_cases hx : x = ⟨3, n 3⟩
        · subst hx
          simp only [Topo.tie, set1_same, List.nil_append]
          rw [List.count_eq_zero.2 (fun h => hne' _ h rfl)]
          simp [upTo, inc, set1, hcn]
        · simp only [Topo.tie, set1_ne _ _ hx]
          exact hhigh x hx
      · rfl
      · exact hhid
    · rw [if_neg (show ¬ (ty = 3 ∧ (upTo T n).cn = true) from hc)]
      congr 1
      apply Topo.ext'
      · rfl
      · exact hal'
      · exact hlast
      · intro x
        by_cases hx : x = ⟨ty, n ty⟩
        · subst hx
          simp only [Topo.tie, set1_same, List.nil_append]
          simp only [upTo]
          rw [if_pos ⟨ht4, (inc_lt _).2 (Or.inr rfl)⟩, if_neg (by omega)]
        · simp only [Topo.tie, set1_ne _ _ hx]
          simp only [upTo, inc_lt, hx, or_false]
          by_cases hcn : T.cn = true
          · have h3' : ty ≠ 3 := fun h => hc ⟨h, hcn⟩
            rw [ine 3 (fun h => h3' h.symm)]
          · simp [hcn]
      · intro x
        by_cases hx : x = ⟨ty, n ty⟩
        · subst hx
          simp only [Topo.tie, set1_same, List.nil_append]
          rw [List.count_eq_zero.2 (fun h => hne' _ h rfl)]
          simp only [upTo]
          rw [if_pos ⟨ht4, (inc_lt _).2 (Or.inr rfl)⟩]
          by_cases hty3 : ty = 3
          · rw [if_pos hty3]
            have : ¬ T.cn = true := fun h => hc ⟨hty3, h⟩
            simp [this]
          · rw [if_neg hty3, ine _ (by omega), hup]
            simp [gather]
        · simp only [Topo.tie, set1_ne _ _ hx]
          exact hhigh x hx
      · rfl
      · exact hhid
  unfold Topo.create
  simp only [if_neg hne, hd, key, Bool.false_eq_true, if_false]

/-- `EndModification` when nothing was hidden. -/
theorem endMod_upTo (T : Topo) (n : Nat → Nat) (flip : Topo → El → Bool) :
    (upTo T n).endMod flip = some { upTo T n with hide := false } := by
  have h1 : ∀ ty, endType flip (upTo T n) ty = some (upTo T n) := by
    intro ty
    unfold endType
    generalize List.range _ = l
    induction l with
    | nil => rfl
    | cons a l ih =>
      rw [forEach_cons (T1 := upTo T n) (by unfold endStep; rw [if_neg (by simp [upTo])])]
      exact ih
  unfold Topo.endMod
  rw [if_pos (show (upTo T n).hide = true from rfl), forEach_cons (h1 3), forEach_cons (h1 2), forEach_cons (h1 1), forEach_cons (h1 0)]
  rfl

theorem beginMod_init (T : Topo) : (Topo.init T.cn).beginMod = some (upTo T fun _ => 0) := by
  unfold Topo.beginMod
  rw [if_neg (by simp [Topo.init])]
  congr 1
  apply Topo.ext' <;> intros <;> simp [Topo.init, upTo]

end Verif.Pmf
