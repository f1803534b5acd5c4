import Verif.Sparse.RowModel
import Mathlib.Algebra.BigOperators.Group.List.Basic
import Mathlib.Algebra.BigOperators.Group.Finset.Basic
import Mathlib.Algebra.BigOperators.Ring.Finset
import Mathlib.Algebra.BigOperators.Ring.List
import Mathlib.Tactic.Ring

/-!
# Specification of sparse rows: finitely supported vectors
-/

namespace Verif.Sparse

variable {ι : Type} [LinearOrder ι] {K : Type} [CommRing K] [DecidableEq K]

/-- The value of a row in a column: the sum of all its entries there. -/
def colVal (r : RowI ι K) (c : ι) : K := ((r.filter fun e => e.1 = c).map (·.2)).sum

/-- At most one entry per column. -/
def Distinct (r : RowI ι K) : Prop := (r.map (·.1)).Nodup

/-- Strictly increasing columns. -/
def StrictlySorted (r : RowI ι K) : Prop := (r.map (·.1)).Pairwise (· < ·)

/-- Columns in which the row has an entry. -/
def HasColumn (r : RowI ι K) (c : ι) : Prop := c ∈ r.map (·.1)

end Verif.Sparse
