import Verif.Resolve.Spec
import Mathlib.Tactic.Linarith
import Mathlib.Algebra.Order.Ring.Abs

/-!
# Lemmas on the stage of nodes
-/

namespace Verif.Resolve

open Verif.Topology (El Topo)

variable {K : Type} [CommRing K] [LinearOrder K] [IsStrictOrderedRing K]

/-- Being close on every axis is transitive for three points. -/
def Tol (eps : K) (a b c : List K) : Prop :=
  ∀ (i : Nat) (x y z : K), a[i]? = some x → b[i]? = some y → c[i]? = some z →
    |x - y| ≤ eps → |y - z| ≤ eps → |x - z| ≤ eps

theorem Tol.tail {eps : K} {x y z : K} {a b c : List K} (h : Tol eps (x :: a) (y :: b) (z :: c)) : Tol eps a b c :=
  fun i u v w hu hv hw => h (i + 1) u v w (by simpa using hu) (by simpa using hv) (by simpa using hw)

theorem Tol.head {eps : K} {x y z : K} {a b c : List K} (h : Tol eps (x :: a) (y :: b) (z :: c)) :
    |x - y| ≤ eps → |y - z| ≤ eps → |x - z| ≤ eps := h 0 x y z rfl rfl rfl

theorem cmp_swap {eps : K} (h0 : 0 ≤ eps) : ∀ a b : List K, cmp eps a b = (cmp eps b a).swap
  | [], [] => rfl
  | [], _ :: _ => rfl
  | _ :: _, [] => rfl
  | x :: a, y :: b => by
    simp only [cmp]
    rw [abs_sub_comm y x]
    by_cases h : |x - y| > eps
    · rw [if_pos h, if_pos h]
      have hne : x ≠ y := by rintro rfl; simp at h; exact absurd h0 (not_le.2 h)
      rcases lt_or_gt_of_ne hne with g | g
      · rw [if_pos g, if_neg (not_lt.2 g.le)]; rfl
      · rw [if_neg (not_lt.2 g.le), if_pos g]; rfl
    · rw [if_neg h, if_neg h]
      exact cmp_swap h0 a b

theorem cmp_eq_near {eps : K} : ∀ {a b : List K}, a.length = b.length → (cmp eps a b = .eq ↔ Near eps a b)
  | [], [], _ => by simp [cmp, Near]
  | x :: a, y :: b, h => by
    have ih := cmp_eq_near (eps := eps) (a := a) (b := b) (by simpa using h)
    simp only [cmp, Near, List.forall₂_cons] at ih ⊢
    by_cases g : |x - y| > eps
    · rw [if_pos g]
      constructor
      · intro h'; split at h' <;> cases h'
      · rintro ⟨h', -⟩; exact absurd h' (not_le.2 g)
    · rw [if_neg g]
      rw [ih]
      exact ⟨fun h' => ⟨not_lt.1 g, h'⟩, fun h' => h'.2⟩

theorem cmp_trans {eps : K} (h0 : 0 ≤ eps) : ∀ {a b c : List K}, a.length = b.length → b.length = c.length →
    Tol eps a b c → Tol eps b a c → Tol eps a c b → ∀ {o1 o2 : Ordering}, cmp eps a b = o1 → cmp eps b c = o2 →
    o1 ≠ .gt → o2 ≠ .gt → cmp eps a c = if o1 = .eq then o2 else .lt
  | [], [], [], _, _, _, _, _, o1, o2, h1, h2, _, _ => by
    simp only [cmp] at h1 h2 ⊢; subst h1 h2; rfl
  | x :: a, y :: b, z :: c, l1, l2, t1, t2, t3, o1, o2, h1, h2, g1, g2 => by
    simp only [cmp] at h1 h2 ⊢
    by_cases hxy : |x - y| > eps
    · rw [if_pos hxy] at h1
      have hlt : x < y := by
        by_contra hc
        rw [if_neg hc] at h1
        exact g1 h1.symm
      rw [if_pos hlt] at h1
      subst h1
      have e1 : eps < y - x := by
        rw [abs_sub_comm, abs_of_pos (by linarith)] at hxy; exact hxy
      have main : |x - z| > eps ∧ x < z := by
        by_cases hyz : |y - z| > eps
        · rw [if_pos hyz] at h2
          have hlt2 : y < z := by
            by_contra hc
            rw [if_neg hc] at h2
            exact g2 h2.symm
          have : x < z := lt_trans hlt hlt2
          refine ⟨?_, this⟩
          rw [abs_sub_comm, abs_of_pos (by linarith)]
          show eps < z - x
          linarith
        · have hyz' := abs_le.1 (not_lt.1 hyz)
          have g : |x - z| > eps := by
            by_contra hc
            have := t3.head (not_lt.1 hc) (by rw [abs_sub_comm]; exact not_lt.1 hyz)
            exact absurd hxy (not_lt.2 this)
          refine ⟨g, ?_⟩
          by_contra hc
          rw [abs_of_nonneg (by linarith)] at g
          have : eps < x - z := g
          linarith [hyz'.2]
      rw [if_pos main.1, if_pos main.2]
      simp
    · rw [if_neg hxy] at h1
      have hxy' := abs_le.1 (not_lt.1 hxy)
      by_cases hyz : |y - z| > eps
      · rw [if_pos hyz] at h2
        have hlt2 : y < z := by
          by_contra hc
          rw [if_neg hc] at h2
          exact g2 h2.symm
        rw [if_pos hlt2] at h2
        subst h2
        have e1 : eps < z - y := by
          rw [abs_sub_comm, abs_of_pos (by linarith)] at hyz; exact hyz
        have g : |x - z| > eps := by
          by_contra hc
          have := t2.head (by rw [abs_sub_comm]; exact not_lt.1 hxy) (not_lt.1 hc)
          exact absurd hyz (not_lt.2 this)
        have g' : x < z := by
          by_contra hc
          rw [abs_of_nonneg (by linarith)] at g
          have : eps < x - z := g
          linarith [hxy'.2]
        rw [if_pos g, if_pos g']
        cases o1 <;> simp_all
      · rw [if_neg hyz] at h2
        have := t1.head (not_lt.1 hxy) (not_lt.1 hyz)
        rw [if_neg (not_lt.2 this)]
        exact cmp_trans h0 (by simpa using l1) (by simpa using l2) t1.tail t2.tail t3.tail h1 h2 g1 g2

/-! ## Boxes -/

/-- A point is in the closed box. -/
def Within (x : List K) (b : List (K × K)) : Prop := List.Forall₂ (fun a (m : K × K) => m.1 ≤ a ∧ a ≤ m.2) x b

theorem growBox_self : ∀ {b : List (K × K)} {x : List K}, b.length = x.length → Within x (growBox b x)
  | [], [], _ => .nil
  | m :: b, a :: x, h => by
    refine .cons ?_ (growBox_self (by simpa using h))
    constructor
    · show (if a < m.1 then a else m.1) ≤ a
      split
      · exact le_refl _
      · exact not_lt.1 ‹_›
    · show a ≤ (if a > m.2 then a else m.2)
      split
      · exact le_refl _
      · exact not_lt.1 ‹_›

theorem growBox_keep : ∀ {b : List (K × K)} {x y : List K}, b.length = x.length → Within y b →
    Within y (growBox b x)
  | [], [], _, _, h => by simpa [growBox] using h
  | m :: b, a :: x, y :: ys, h, hw => by
    obtain ⟨h1, h2⟩ := List.forall₂_cons.1 hw
    refine .cons ?_ (growBox_keep (by simpa using h) h2)
    constructor
    · show (if a < m.1 then a else m.1) ≤ y
      split
      · exact le_trans (le_of_lt ‹_›) h1.1
      · exact h1.1
    · show y ≤ (if a > m.2 then a else m.2)
      split
      · exact le_trans h1.2 (le_of_lt ‹_›)
      · exact h1.2

theorem growBox_length {b : List (K × K)} {x : List K} (h : b.length = x.length) :
    (growBox b x).length = b.length := by
  simp [growBox, h]

theorem fold_within {dim : Nat} : ∀ {pts : List (List K)} {b : List (K × K)}, b.length = dim →
    (∀ x, x ∈ pts → x.length = dim) → ∀ y, (Within y b ∨ y ∈ pts) → Within y (pts.foldl growBox b)
  | [], b, _, _, y, h => by
    rcases h with h | h
    · exact h
    · cases h
  | x :: pts, b, hb, hd, y, h => by
    simp only [List.foldl_cons]
    have hx : b.length = x.length := by rw [hb, hd x List.mem_cons_self]
    refine fold_within (by rw [growBox_length hx, hb]) (fun z hz => hd z (List.mem_cons_of_mem _ hz)) y ?_
    rcases h with h | h
    · exact Or.inl (growBox_keep hx h)
    · rcases List.mem_cons.1 h with rfl | h
      · exact Or.inl (growBox_self hx)
      · exact Or.inr h

theorem boxOf_within {big : K} {dim : Nat} {pts : List (List K)} (hd : ∀ x, x ∈ pts → x.length = dim)
    {y : List K} (hy : y ∈ pts) : Within y (boxOf big dim pts) :=
  fold_within (by simp) hd y (Or.inr hy)

/-- Closer than `eps` on every axis. -/
def Close (eps : K) (a b : List K) : Prop := List.Forall₂ (fun x y => |x - y| < eps) a b

theorem overlap_of {eps : K} : ∀ {a b : List K} {m m' : List (K × K)}, Close eps a b → Within a m → Within b m' →
    overlap eps m m' = true
  | _, _, _, _, .nil, .nil, .nil => rfl
  | _ :: _, _ :: _, _ :: _, _ :: _, .cons h hs, .cons g gs, .cons g' gs' => by
    simp only [overlap]
    rw [overlap_of hs gs gs']
    have h' := abs_lt.1 h
    simp only [Bool.and_true, Bool.not_eq_true', Bool.or_eq_false_iff, decide_eq_false_iff_not, gt_iff_lt, not_lt]
    constructor <;> linarith [h'.1, h'.2, g.1, g.2, g'.1, g'.2]

theorem inBox_of {eps : K} : ∀ {a b : List K} {m : List (K × K)}, Close eps a b → Within b m →
    inBox eps a m = true
  | _, _, _, .nil, .nil => rfl
  | _ :: _, _ :: _, _ :: _, .cons h hs, .cons g gs => by
    simp only [inBox]
    rw [inBox_of hs gs]
    have h' := abs_lt.1 h
    simp only [Bool.and_true, Bool.and_eq_true, decide_eq_true_eq, gt_iff_lt]
    constructor <;> linarith [h'.1, h'.2, g.1, g.2]

theorem close_of {eps : K} : ∀ {a b : List K}, Near eps a b →
    (∀ (i : Nat) (x y : K), a[i]? = some x → b[i]? = some y → |x - y| ≠ eps) → Close eps a b
  | _, _, .nil, _ => .nil
  | _ :: _, _ :: _, .cons h hs, hn =>
    .cons (lt_of_le_of_ne h (hn 0 _ _ rfl rfl))
      (close_of hs fun i x y hx hy => hn (i + 1) x y (by simpa using hx) (by simpa using hy))

theorem near_symm {eps : K} {a b : List K} (h : Near eps a b) : Near eps b a := by
  unfold Near at *
  rw [List.forall₂_iff_get] at *
  refine ⟨h.1.symm, fun i h1 h2 => ?_⟩
  rw [abs_sub_comm]
  exact h.2 i h2 h1

theorem near_refl {eps : K} (h0 : 0 ≤ eps) : ∀ a : List K, Near eps a a
  | [] => .nil
  | x :: a => .cons (by simpa using h0) (near_refl h0 a)

theorem near_trans {eps : K} : ∀ {a b c : List K}, Tol eps a b c → Near eps a b → Near eps b c → Near eps a c
  | _, _, _, _, .nil, .nil => .nil
  | _ :: _, _ :: _, _ :: _, t, .cons h hs, .cons g gs => .cons (t.head h g) (near_trans t.tail hs gs)

end Verif.Resolve
