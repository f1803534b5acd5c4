import Verif.OrderInfo.Model
import Verif.OrderInfo.Exchange

/-!
# Specification of distributed matrices
-/

namespace Verif.OrderInfo

/-- Contiguous intervals that cover the rows `0, …, gtp size - 1`.  An interval may be empty only if no rows follow it. -/
structure Intervals (size : Nat) (gtp : Nat → Nat) : Prop where
  zero : gtp 0 = 0
  mono : ∀ k, k < size → gtp k ≤ gtp (k + 1)
  trail : ∀ k, k < size → gtp k = gtp (k + 1) → gtp k = gtp size

/-- The process `q` owns the row `g`. -/
def Owns (size : Nat) (gtp : Nat → Nat) (q g : Nat) : Prop := q < size ∧ gtp q ≤ g ∧ g < gtp (q + 1)

/-- All columns of the rows of the matrix are rows of the matrix. -/
def Square {K : Type} (N : Nat) (A : Nat → Row K) : Prop := ∀ k, k < N → ∀ e ∈ A k, e.1 < N

/-- The exchange done by `Update`: received positions, sent positions, values are replaced. -/
def updateCfg {K : Type} (size maxTag : Nat) (S : Nat → PSt K) : Cfg K :=
  { size := size, maxTag := maxTag, inl := fun p => (S p).recv, outl := fun p => (S p).send, op := fun _ new => new }

/-- The exchange done by `Accumulate`: the directions are reversed, values are added. -/
def accumulateCfg {K : Type} [Add K] (size maxTag : Nat) (S : Nat → PSt K) : Cfg K :=
  { size := size, maxTag := maxTag, inl := fun p => (S p).send, outl := fun p => (S p).recv, op := fun old new => old + new }

/-- The global number of the local position `k` of the process `p` after the preparation: own positions keep their numbers, the positions after
them are listed in `extended_indexes`. -/
def Global {K : Type} (gtp : Nat → Nat) (S : Nat → PSt K) (p k g : Nat) : Prop :=
  (gtp p ≤ k ∧ k < gtp (p + 1) ∧ g = k) ∨ (gtp (p + 1) ≤ k ∧ k < (S p).ext ∧ extended (S p) (gtp (p + 1)) (k - gtp (p + 1)) = some g)

/-- The rows within `n` steps of the rows of the process `p`: a step leads from a row to its columns. -/
inductive Near {K : Type} (size : Nat) (gtp : Nat → Nat) (A : Nat → Row K) (p : Nat) : Nat → Nat → Prop
  | own (n g : Nat) : Owns size gtp p g → Near size gtp A p n g
  | step (n g : Nat) (e : Nat × K) : Near size gtp A p n g → e ∈ A g → Near size gtp A p (n + 1) e.1

end Verif.OrderInfo
