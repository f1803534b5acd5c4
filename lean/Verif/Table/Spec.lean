import Verif.Table.Model

/-!
# Specification of table interpolation
-/

namespace Verif.Table

variable {K : Type} [Field K] [LinearOrder K]

/-- A usable table: two arrays of the same size, at least two nodes, strictly increasing arguments. -/
structure Table.Valid (t : Table K) : Prop where
  two : 2 ≤ t.args.length
  same : t.vals.length = t.args.length
  inc : t.args.Pairwise (· < ·)

/-- The value at `arg` of the straight line through `(a, u)` and `(b, v)`. -/
def lineThrough (a b u v arg : K) : K := u + (v - u) / (b - a) * (arg - a)

/-- `arg` belongs to the interval number `i` of the table: between the nodes `i` and `i+1`; the last interval extends to the
right without end. -/
def InCell (t : Table K) (arg : K) (i : Nat) (h : i + 1 < t.args.length) : Prop :=
  t.args[i] ≤ arg ∧ (arg < t.args[i + 1] ∨ i + 2 = t.args.length)

end Verif.Table
