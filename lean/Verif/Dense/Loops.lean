/-!
# Counting loops

`for(i = a; i < b; ++i) s = f(i, s)` and `for(i = n; i-- > 0; ) s = f(i, s)`.
-/

namespace Verif.Dense

/-- `n` steps of a loop that counts up from `a`. -/
def forUp {σ : Type} (f : Nat → σ → σ) : Nat → Nat → σ → σ
  | _, 0, s => s
  | a, n + 1, s => forUp f (a + 1) n (f a s)

/-- `for(i = a; i < b; ++i)`. -/
def forRange {σ : Type} (a b : Nat) (f : Nat → σ → σ) (s : σ) : σ := forUp f a (b - a) s

/-- `for(i = n; i-- > 0; )`. -/
def forDown {σ : Type} (f : Nat → σ → σ) : Nat → σ → σ
  | 0, s => s
  | n + 1, s => forDown f n (f n s)

/-- Assignment to an element of a matrix. -/
def upd {K : Type} (M : Nat → Nat → K) (i j : Nat) (v : K) : Nat → Nat → K :=
  fun r c => if r = i ∧ c = j then v else M r c

/-- Assignment to an element of a vector. -/
def updV {α : Type} (x : Nat → α) (i : Nat) (v : α) : Nat → α := fun r => if r = i then v else x r

/-- The rule for loops that count up. -/
theorem forRange_rule {σ : Type} (P : Nat → σ → Prop) (a b : Nat) (hab : a ≤ b) (f : Nat → σ → σ) (s : σ) (h0 : P a s)
    (hstep : ∀ i s, a ≤ i → i < b → P i s → P (i + 1) (f i s)) : P b (forRange a b f s) := by
  unfold forRange
  have key : ∀ n a' s, a ≤ a' → a' + n = b → P a' s → P b (forUp f a' n s) := by
    intro n
    induction n with
    | zero => intro a' s _ h hp; rw [forUp]; have : a' = b := by omega
              exact this ▸ hp
    | succ n ih =>
      intro a' s h1 h2 hp
      rw [forUp]
      exact ih (a' + 1) _ (by omega) (by omega) (hstep a' s h1 (by omega) hp)
  exact key (b - a) a s (Nat.le_refl _) (by omega) h0

/-- The rule for loops that count down. -/
theorem forDown_rule {σ : Type} (P : Nat → σ → Prop) (n : Nat) (f : Nat → σ → σ) (s : σ) (h0 : P n s)
    (hstep : ∀ i s, i < n → P (i + 1) s → P i (f i s)) : P 0 (forDown f n s) := by
  induction n generalizing s with
  | zero => exact h0
  | succ n ih =>
    rw [forDown]
    exact ih _ (hstep n s (by omega) h0) (fun i s hi => hstep i s (by omega))

end Verif.Dense
