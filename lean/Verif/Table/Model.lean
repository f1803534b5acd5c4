import Mathlib.Algebra.Order.Field.Basic
import Mathlib.Data.Rat.Defs
import Mathlib.Algebra.Order.Ring.Rat

/-!
# Model of `keyval_table` (Source/Headers/inmost_expression.h L2203-2299)

A table is two arrays of the same size.  `int` is modelled by unbounded integers.  An access outside an array yields
`none`.  Real numbers are the elements of an ordered field: NaN and rounding are not modelled.
-/

namespace Verif.Table

variable {K : Type} [Field K] [LinearOrder K]

/-- `keyval_table::args`, `vals` and `size`, L2206-2208; the constructors (L2244-2265) copy `size` numbers to both. -/
structure Table (K : Type) where
  args : List K
  vals : List K

/-- The size of a table, L2208. -/
def Table.size (t : Table K) : Nat := t.args.length

/-- An array access with a signed index. -/
def at? (a : List K) (i : Int) : Option K := if 0 ≤ i then a[i.toNat]? else none

/-- The loop of `binary_search`, L2212-2218: the final `l` and `r`.  The two inner guards always hold (`mid` is between `l` and
`r`); they make the termination of the recursion visible. -/
def searchLoop (args : List K) (arg : K) (l r : Int) : Option (Int × Int) :=
  if h : r ≥ l then
    let mid := (l + r).tdiv 2
    match at? args mid with
    | none => none
    | some a =>
      if a > arg then
        if _h' : (mid - 1 + 1 - l).toNat < (r + 1 - l).toNat then searchLoop args arg l (mid - 1) else none
      else if a < arg then
        if _h' : (r + 1 - (mid + 1)).toNat < (r + 1 - l).toNat then searchLoop args arg (mid + 1) r else none
      else some (l, r)
  else some (l, r)
termination_by (r + 1 - l).toNat

/-- `binary_search`, L2209-2222.  The result may be negative: the code converts it to an unsigned number. -/
def binarySearch (t : Table K) (arg : K) : Option Int :=
  match searchLoop t.args arg 0 ((t.size : Int) - 1) with
  | none => none
  | some (l, r) =>
    let mid := (l + r).tdiv 2
    some (if mid > (t.size : Int) - 2 then (t.size : Int) - 2 else mid)

/-- The four numbers that the formulas use: `args[i]`, `args[i+1]`, `vals[i]`, `vals[i+1]`. -/
def cell (t : Table K) (i : Int) : Option (K × K × K × K) :=
  match at? t.args i, at? t.args (i + 1), at? t.vals i, at? t.vals (i + 1) with
  | some a, some b, some u, some v => some (a, b, u, v)
  | _, _, _, _ => none

/-- `GetValue`, L2224-2229. -/
def getValue (t : Table K) (arg : K) : Option K :=
  match at? t.args 0, at? t.vals 0 with
  | some a0, some v0 =>
    if arg < a0 then some v0
    else
      match binarySearch t arg with
      | none => none
      | some i =>
        match cell t i with
        | none => none
        | some (a, b, u, v) => some (u + (v - u) * (arg - a) / (b - a))
  | _, _ => none

/-- `GetDerivative`, L2230-2235. -/
def getDerivative (t : Table K) (arg : K) : Option K :=
  match at? t.args 0 with
  | some a0 =>
    if arg < a0 then some 0
    else
      match binarySearch t arg with
      | none => none
      | some i =>
        match cell t i with
        | none => none
        | some (a, b, u, v) => some ((v - u) / (b - a))
  | none => none

/-- `GetBoth`, L2236-2242. -/
def getBoth (t : Table K) (arg : K) : Option (K × K) :=
  match at? t.args 0, at? t.vals 0 with
  | some a0, some v0 =>
    if arg < a0 then some (v0, 0)
    else
      match binarySearch t arg with
      | none => none
      | some i =>
        match cell t i with
        | none => none
        | some (a, b, u, v) => some (u + (v - u) / (b - a) * (arg - a), (v - u) / (b - a))
  | _, _ => none

end Verif.Table
