import Mathlib.Algebra.TrivSqZeroExt.Basic

/-!
# Model of expressions of dense matrices, Source/Headers/inmost_dense.h

Operators of dense matrices do not compute: they return small objects that keep pointers to their arguments and compute an element when
it is asked for.  Only the product computes all elements when it is constructed.

Simplifications.  The numbers are elements of a commutative ring with some operation of division.  Types of elements of the arguments of
one operation are the same (`Promote` joins them).  Indices and sizes are natural numbers: overflow of the unsigned 32-bit products
`i*m+j` is not modelled.  A failed assertion, an index outside of the array of elements and a division by zero in the computation of an
index are the outcome `none`.  The container of elements is `std::vector`.
-/

namespace Verif.Views

/-- `Matrix`, L1180-1188: the array of elements stored row by row and the sizes. -/
structure Mat (R : Type) where
  n : Nat
  m : Nat
  a : List R

/-- A place where an element is stored: an entry of the array of a matrix, or the variable `zero` of L2019, which is one for all matrices. -/
inductive Loc where
  | elem (k p : Nat)
  | zero
deriving DecidableEq

/-- The matrices of the program by numbers, and the variable `zero` of L2019. -/
structure State (R : Type) where
  mats : Nat → Mat R
  zero : R

/-- Objects whose elements can be changed: `Matrix` L1180, `SubMatrix` L1792, `BlockOfMatrix` L1955, `MatrixTranspose` L2378,
`MatrixConcatRows` L2513, `MatrixConcatCols` L2655, `MatrixRepack` L2752. -/
inductive Lv where
  | mat (k : Nat)
  | sub (v : Lv) (brow erow bcol ecol : Nat)
  | block (v : Lv) (nrows ncols orow ocol : Nat)
  | tr (v : Lv)
  | catR (v w : Lv)
  | catC (v w : Lv)
  | repack (v : Lv) (n m : Nat)
deriving DecidableEq

/-- Objects whose elements can be read: the objects above, the result of a product L2816, `MatrixUnit` L2127, `MatrixRow` L2151,
`MatrixCol` L2175, `MatrixDiag` L2199, `MatrixSum` L2223, `MatrixDifference` L2266, `MatrixUnaryMinus` L2344, `ConstMatrixTranspose`
L2309, `ConstMatrixConcatRows` L2428 and L2469, `ConstMatrixConcatCols` L2570 and L2611, `ConstMatrixRepack` L2712, `ConstSubMatrix`
L1895, `ConstBlockOfMatrix` L2067, `MatrixMulCoef` L3137, `MatrixDivCoef` L3176, `KroneckerProduct` L3295. -/
inductive Ex (R : Type) where
  | lv (v : Lv)
  | lit (M : Mat R)
  | unit (n : Nat) (c : R)
  | row (n : Nat) (c : R)
  | col (n : Nat) (c : R)
  | diag (d : List R)
  | sum (a b : Ex R)
  | diff (a b : Ex R)
  | neg (a : Ex R)
  | tr (a : Ex R)
  | catR (a b : Ex R)
  | catC (a b : Ex R)
  | repack (a : Ex R) (n m : Nat)
  | sub (a : Ex R) (brow erow bcol ecol : Nat)
  | block (a : Ex R) (nrows ncols orow ocol : Nat)
  | scale (a : Ex R) (c : R)
  | quot (a : Ex R) (c : R)
  | kron (a b : Ex R)

section
variable {R : Type}

/-- `Rows()`: L1807 (unsigned difference), L1973, L2391, L2527, L2669, L2766. -/
def Lv.rows (s : State R) : Lv → Nat
  | .mat k => (s.mats k).n
  | .sub _ brow erow _ _ => erow - brow
  | .block _ nrows _ _ _ => nrows
  | .tr v => cols s v
  | .catR v w => rows s v + rows s w
  | .catC v _ => rows s v
  | .repack _ n _ => n
where
  /-- `Cols()`: L1810, L1976, L2394, L2530, L2672, L2769. -/
  cols (s : State R) : Lv → Nat
  | .mat k => (s.mats k).m
  | .sub _ _ _ bcol ecol => ecol - bcol
  | .block _ _ ncols _ _ => ncols
  | .tr v => v.rows s
  | .catR v _ => cols s v
  | .catC v w => cols s v + cols s w
  | .repack _ _ m => m

/-- `Cols()`, see above. -/
def Lv.cols (s : State R) (v : Lv) : Nat := Lv.rows.cols s v

/-- The reference returned by `operator()(i,j)` without `const`: `Matrix` L1416-1422, `SubMatrix` L1850-1856, `BlockOfMatrix` L2017-2026,
`MatrixTranspose` L2415, `MatrixConcatRows` L2554-2557, `MatrixConcatCols` L2696-2699, `MatrixRepack` L2797-2802. -/
def Lv.ref (s : State R) : Lv → Nat → Nat → Option Loc
  | .mat k, i, j => if i < (s.mats k).n ∧ j < (s.mats k).m then some (.elem k (i * (s.mats k).m + j)) else none
  | .sub v brow erow bcol ecol, i, j => if i < erow - brow ∧ j < ecol - bcol then v.ref s (i + brow) (j + bcol) else none
  | .block v nrows ncols orow ocol, i, j =>
    if i < nrows ∧ j < ncols then
      if i < orow ∨ i ≥ orow + v.rows s ∨ j < ocol ∨ j ≥ ocol + v.cols s then some .zero
      else v.ref s (i - orow) (j - ocol)
    else none
  | .tr v, i, j => v.ref s j i
  | .catR v w, i, j => if i < v.rows s then v.ref s i j else w.ref s (i - v.rows s) j
  | .catC v w, i, j => if j < v.cols s then v.ref s i j else w.ref s i (j - v.cols s)
  | .repack v _ m, i, j => if v.cols s = 0 then none else v.ref s ((i * m + j) / v.cols s) ((i * m + j) % v.cols s)

/-- The value at a place; `none` outside of the array. -/
def load (s : State R) : Loc → Option R
  | .elem k p => (s.mats k).a[p]?
  | .zero => some s.zero

/-- Change of the value at a place; `none` outside of the array. -/
def store (s : State R) (l : Loc) (x : R) : Option (State R) :=
  match l with
  | .elem k p =>
    if p < (s.mats k).a.length then
      some { s with mats := fun k' => if k' = k then { s.mats k with a := (s.mats k).a.set p x } else s.mats k' }
    else none
  | .zero => some { s with zero := x }

/-- An element read through the reference `operator()(i,j)` without `const`. -/
def Lv.get (s : State R) (v : Lv) (i j : Nat) : Option R := (v.ref s i j).bind (load s)

/-- `operator()(i,j) const`: `Matrix` L1428-1434, `SubMatrix` L1862-1868, `BlockOfMatrix` L2032-2040, `MatrixTranspose` L2409,
`MatrixConcatRows` L2545-2548, `MatrixConcatCols` L2687-2690, `MatrixRepack` L2786-2791.  The pointers `M`, `A`, `B` kept in these objects are
not pointers to constant objects, so the elements of the arguments are read through the operator without `const`; only a `BlockOfMatrix` on
top differs. -/
def Lv.cget [Zero R] (s : State R) (v : Lv) (i j : Nat) : Option R :=
  match v with
  | .block v nrows ncols orow ocol =>
    if i < nrows ∧ j < ncols then
      if i < orow ∨ i ≥ orow + v.rows s ∨ j < ocol ∨ j ≥ ocol + v.cols s then some 0
      else v.get s (i - orow) (j - ocol)
    else none
  | v => v.get s i j

/-- `Matrix::operator()(i,j) const`, L1428-1434. -/
def Mat.get (M : Mat R) (i j : Nat) : Option R := if i < M.n ∧ j < M.m then M.a[i * M.m + j]? else none

/-- Assignment to `Matrix::operator()(i,j)`, L1416-1422. -/
def Mat.put (M : Mat R) (i j : Nat) (x : R) : Option (Mat R) :=
  if i < M.n ∧ j < M.m ∧ i * M.m + j < M.a.length then some { M with a := M.a.set (i * M.m + j) x } else none

mutual
/-- `Rows()`: L1912, L2084, L2143, L2167, L2191, L2215, L2237, L2280, L2322, L2356, L2442, L2584, L2726, L2828, L3151, L3190, L3309. -/
def Ex.rows (s : State R) : Ex R → Nat
  | .lv v => v.rows s
  | .lit M => M.n
  | .unit n _ => n
  | .row _ _ => 1
  | .col n _ => n
  | .diag d => d.length
  | .sum a _ => a.rows s
  | .diff a _ => a.rows s
  | .neg a => a.rows s
  | .tr a => a.cols s
  | .catR a b => a.rows s + b.rows s
  | .catC a _ => a.rows s
  | .repack _ n _ => n
  | .sub _ brow erow _ _ => erow - brow
  | .block _ nrows _ _ _ => nrows
  | .scale a _ => a.rows s
  | .quot a _ => a.rows s
  | .kron a b => a.rows s * b.rows s
/-- `Cols()`: L1915, L2087, L2146, L2170, L2194, L2218, L2240, L2283, L2325, L2359, L2445, L2587, L2729, L2831, L3154, L3193, L3312. -/
def Ex.cols (s : State R) : Ex R → Nat
  | .lv v => v.cols s
  | .lit M => M.m
  | .unit n _ => n
  | .row n _ => n
  | .col _ _ => 1
  | .diag d => d.length
  | .sum a _ => a.cols s
  | .diff a _ => a.cols s
  | .neg a => a.cols s
  | .tr a => a.rows s
  | .catR a _ => a.cols s
  | .catC a b => a.cols s + b.cols s
  | .repack _ _ m => m
  | .sub _ _ _ bcol ecol => ecol - bcol
  | .block _ _ ncols _ _ => ncols
  | .scale a _ => a.cols s
  | .quot a _ => a.cols s
  | .kron a b => a.cols s * b.cols s
end

variable [CommRing R] [Div R]

/-- `operator()(i,j) const`: product L2871, `MatrixUnit` L2147, `MatrixRow` L2171, `MatrixCol` L2195, `MatrixDiag` L2219, `MatrixSum` L2259,
`MatrixDifference` L2302, `MatrixUnaryMinus` L2374, `ConstMatrixTranspose` L2340, `ConstMatrixConcatRows` L2462, L2503,
`ConstMatrixConcatCols` L2604, L2645, `ConstMatrixRepack` L2744, `ConstSubMatrix` L1931, `ConstBlockOfMatrix` L2102, `MatrixMulCoef` L3169,
`MatrixDivCoef` L3209, `KroneckerProduct` L3327. -/
def Ex.at (s : State R) : Ex R → Nat → Nat → Option R
  | .lv v, i, j => v.cget s i j
  | .lit M, i, j => M.get i j
  | .unit _ c, i, j => some (if i = j then c else 0)
  | .row _ c, _, _ => some c
  | .col _ c, _, _ => some c
  | .diag d, i, j => if i = j then d[i]? else some 0
  | .sum a b, i, j => (a.at s i j).bind fun x => (b.at s i j).map fun y => x + y
  | .diff a b, i, j => (a.at s i j).bind fun x => (b.at s i j).map fun y => x - y
  | .neg a, i, j => (a.at s i j).map fun x => -x
  | .tr a, i, j => a.at s j i
  | .catR a b, i, j => if i < a.rows s then a.at s i j else b.at s (i - a.rows s) j
  | .catC a b, i, j => if j < a.cols s then a.at s i j else b.at s i (j - a.cols s)
  | .repack a _ m, i, j => if a.cols s = 0 then none else a.at s ((i * m + j) / a.cols s) ((i * m + j) % a.cols s)
  | .sub a brow erow bcol ecol, i, j => if i < erow - brow ∧ j < ecol - bcol then a.at s (i + brow) (j + bcol) else none
  | .block a nrows ncols orow ocol, i, j =>
    if i < nrows ∧ j < ncols then
      if i < orow ∨ i ≥ orow + a.rows s ∨ j < ocol ∨ j ≥ ocol + a.cols s then some 0
      else a.at s (i - orow) (j - ocol)
    else none
  | .scale a c, i, j => (a.at s i j).map fun x => x * c
  | .quot a c, i, j => (a.at s i j).map fun x => x / c
  | .kron a b, i, j =>
    if b.rows s = 0 ∨ b.cols s = 0 then none
    else (a.at s (i / b.rows s) (j / b.cols s)).bind fun x => (b.at s (i % b.rows s) (j % b.cols s)).map fun y => x * y

/-- The assertions of the constructors of objects for writing: L2538, L2680, L2778. -/
def Lv.ok (s : State R) : Lv → Bool
  | .mat _ => true
  | .sub v _ _ _ _ => v.ok s
  | .block v _ _ _ _ => v.ok s
  | .tr v => v.ok s
  | .catR v w => v.ok s && w.ok s && v.cols s == w.cols s
  | .catC v w => v.ok s && w.ok s && v.rows s == w.rows s
  | .repack v n m => v.ok s && v.rows s * v.cols s == n * m

/-- The assertions of the constructors: L2250-2251, L2293-2294, L2454, L2495, L2596, L2637, L2737. -/
def Ex.ok (s : State R) : Ex R → Bool
  | .lv v => v.ok s
  | .lit _ | .unit _ _ | .row _ _ | .col _ _ | .diag _ => true
  | .sum a b => a.ok s && b.ok s && a.rows s == b.rows s && a.cols s == b.cols s
  | .diff a b => a.ok s && b.ok s && a.rows s == b.rows s && a.cols s == b.cols s
  | .neg a => a.ok s
  | .tr a => a.ok s
  | .catR a b => a.ok s && b.ok s && a.cols s == b.cols s
  | .catC a b => a.ok s && b.ok s && a.rows s == b.rows s
  | .repack a n m => a.ok s && a.rows s * a.cols s == n * m
  | .sub a _ _ _ _ => a.ok s
  | .block a _ _ _ _ => a.ok s
  | .scale a _ => a.ok s
  | .quot a _ => a.ok s
  | .kron a b => a.ok s && b.ok s

/-- `TrivialArguments()`: L656, L1909, L2081, L2138, L2162, L2186, L2210, L2234, L2277, L2319, L2353, L2439, L2581, L2723, L2825, L3148,
L3187, L3306. -/
def Ex.trivial : Ex R → Bool
  | .lv _ | .lit _ | .unit _ _ | .row _ _ | .col _ _ | .diag _ => true
  | .sum _ _ | .diff _ _ | .scale _ _ | .quot _ _ | .kron _ _ => false
  | .neg a | .tr a | .repack a _ _ | .sub a _ _ _ _ | .block a _ _ _ _ => a.trivial
  | .catR a b | .catC a b => a.trivial && b.trivial

/-- `n` steps of a loop counting up from `a`; the first failure ends it. -/
def loop {σ : Type} (f : Nat → σ → Option σ) : Nat → Nat → σ → Option σ
  | _, 0, s => some s
  | a, n + 1, s => (f a s).bind fun s => loop f (a + 1) n s

/-- `for(i = 0; i < n; ++i) for(j = 0; j < m; ++j)`. -/
def loop2 {σ : Type} (n m : Nat) (f : Nat → Nat → σ → Option σ) (s : σ) : Option σ :=
  loop (fun i s => loop (fun j s => f i j s) 0 m s) 0 n s

/-- `Matrix(n,m)`, L1327 (`Resize` of a new matrix, L1374-1380, L2855): elements have the default value. -/
def Mat.new (n m : Nat) : Mat R := ⟨n, m, List.replicate (n * m) 0⟩

/-- Construction of a matrix from an expression, L1363-1368. -/
def copy (s : State R) (e : Ex R) : Option (Mat R) :=
  loop2 (e.rows s) (e.cols s) (fun i j M => (e.at s i j).bind fun x => M.put i j x) (Mat.new (e.rows s) (e.cols s))

/-- An argument of the product: sizes and access to elements. -/
structure Arg (R : Type) where
  n : Nat
  m : Nat
  get : Nat → Nat → Option R

/-- The pointers `pA`, `pB`, L2841-2854: an argument that computes its elements is stored to a temporary matrix first. -/
def arg (s : State R) (e : Ex R) : Option (Arg R) :=
  if e.trivial then some ⟨e.rows s, e.cols s, e.at s⟩
  else (copy s e).map fun M => ⟨M.n, M.m, M.get⟩

/-- The loops of the product, L2856-2863 (and L3025-3033, L3110-3117 without an automatizator). -/
def mulLoops (A B : Arg R) (M : Mat R) : Option (Mat R) :=
  loop (fun i M =>
    (loop (fun k M => (A.get i 0).bind fun x => (B.get 0 k).bind fun y => M.put i k (x * y)) 0 B.m M).bind fun M =>
    loop (fun j M => loop (fun k M =>
      (A.get i j).bind fun x => (B.get j k).bind fun y => (M.get i k).bind fun z => M.put i k (z + x * y)) 0 B.m M) 1 (A.m - 1) M) 0 A.n M

/-- `Trace()`, L360-366. -/
def trace (s : State R) (e : Ex R) : Option R :=
  if e.cols s = e.rows s then loop (fun i ret => (e.at s i i).map fun x => ret + x) 0 (e.rows s) 0 else none

/-- `DotProduct`, L407-417. -/
def dot (s : State R) (a b : Ex R) : Option R :=
  if a.cols s = b.cols s ∧ a.rows s = b.rows s then
    loop2 (a.rows s) (a.cols s) (fun i j ret => (a.at s i j).bind fun x => (b.at s i j).map fun y => ret + x * y) 0
  else none

/-- The constructor of `MatrixMul`, L2838-2864. -/
def mul (s : State R) (a b : Ex R) : Option (Mat R) :=
  if a.cols s = b.rows s then
    (arg s a).bind fun A => (arg s b).bind fun B => mulLoops A B (Mat.new (a.rows s) (b.cols s))
  else none

end

/-- `variable`: a value and the row of derivatives with respect to the unknowns.  The arithmetic of `TrivSqZeroExt` is the arithmetic of
values with derivatives: the derivative of a product is `x * dy + y * dx`. -/
abbrev Var (K : Type) : Type := TrivSqZeroExt K (Nat → K)

section
variable {K : Type} [CommRing K]

/-- The body of the innermost loop L3097-3102 for two matrices of variables: the value and the row collected by the merger; `AddRow` adds
the row multiplied by the coefficient. -/
def bodyVV (x y : Var K) (acc : K × (Nat → K)) : K × (Nat → K) :=
  (acc.1 + x.fst * y.fst, fun u => acc.2 u + x.fst * y.snd u + y.fst * x.snd u)

/-- The body L2927-2931 for a matrix of numbers and a matrix of variables. -/
def bodyRV (x : K) (y : Var K) (acc : K × (Nat → K)) : K × (Nat → K) :=
  (acc.1 + x * y.fst, fun u => acc.2 u + x * y.snd u)

/-- The body L3012-3016 for a matrix of variables and a matrix of numbers. -/
def bodyVR (x : Var K) (y : K) (acc : K × (Nat → K)) : K × (Nat → K) :=
  (acc.1 + x.fst * y, fun u => acc.2 u + y * x.snd u)

/-- The loops L2922-2937, L3007-3021, L3092-3108 used when there is an automatizator.  The bound of the innermost loop is `Cols()` of the
product. -/
def mergedLoops {RA RB : Type} (body : RA → RB → K × (Nat → K) → K × (Nat → K)) (A : Arg RA) (B : Arg RB) (M : Mat (Var K)) :
    Option (Mat (Var K)) :=
  loop2 A.n B.m (fun i j M =>
    (loop (fun k acc => (A.get i k).bind fun x => (B.get k j).map fun y => body x y acc) 0 M.m (0, fun _ => 0)).bind fun acc =>
      M.put i j (acc.1, acc.2)) M

/-- The constructors of `MatrixMul` for variables with an automatizator, L2901-2938, L2986-3022, L3071-3108. -/
def mulMerged {RA RB : Type} [CommRing RA] [Div RA] [CommRing RB] [Div RB] (body : RA → RB → K × (Nat → K) → K × (Nat → K))
    (sa : State RA) (sb : State RB) (a : Ex RA) (b : Ex RB) : Option (Mat (Var K)) :=
  if a.cols sa = b.rows sb then
    (arg sa a).bind fun A => (arg sb b).bind fun B => mergedLoops body A B (Mat.new (a.rows sa) (b.cols sb))
  else none

end

section
variable {R : Type} [CommRing R] [Div R]

/-- `std::vector::resize`. -/
def resize (a : List R) (k : Nat) : List R := a.take k ++ List.replicate (k - a.length) 0

/-- A matrix of the program is replaced. -/
def State.set (s : State R) (k : Nat) (M : Mat R) : State R := { s with mats := fun k' => if k' = k then M else s.mats k' }

/-- `Resize` of the left side: `Matrix` L1374-1380; the other objects only check the sizes, L1885-1890, L2057-2062, L2419-2424, L2561-2566,
L2703-2708, L2806-2811. -/
def Lv.resize (s : State R) (v : Lv) (n m : Nat) : Option (State R) :=
  match v with
  | .mat k =>
    let M := s.mats k
    some (s.set k ⟨n, m, if M.a.length ≠ m * n then Views.resize M.a (m * n) else M.a⟩)
  | v => if v.cols s = m ∧ v.rows s = n then some s else none

/-- The loops of assignments, L1407-1409, L684-686, L696-698: an element of the right side is computed when its turn comes.  Assignments to
elements do not change sizes. -/
def assignLoop (v : Lv) (e : Ex R) (s : State R) : Option (State R) :=
  loop2 (e.rows s) (e.cols s) (fun i j s => (e.at s i j).bind fun x => (v.ref s i j).bind fun l => store s l x) s

/-- `AbstractMatrix::operator=`, L681-688 and L692-700, chosen for objects other than `Matrix` when the types of elements are equal (then L1824,
L1837 do the same), and for any object in L3765. -/
def assign (s : State R) (v : Lv) (e : Ex R) : Option (State R) :=
  (v.resize s (e.rows s) (e.cols s)).bind fun s => assignLoop v e s

/-- `Matrix::operator=` for an expression, L1400-1411.  The sizes are assigned one after another, and the sizes of the right side are asked
again after each step. -/
def assignMat (s : State R) (k : Nat) (e : Ex R) : Option (State R) :=
  let M := s.mats k
  let s1 := s.set k (if M.m * M.n ≠ e.cols s * e.rows s then { M with a := resize M.a (e.cols s * e.rows s) } else M)
  let s2 := s1.set k { s1.mats k with n := e.rows s1 }
  let s3 := s2.set k { s2.mats k with m := e.cols s2 }
  assignLoop (.mat k) e s3

/-- `operator+=`, `operator-=`, L3475-3484, L3444-3453; `f` is the operation. -/
def compound (f : R → R → R) (s : State R) (v : Lv) (e : Ex R) : Option (State R) :=
  if v.rows s = e.rows s ∧ v.cols s = e.cols s then
    loop2 (v.rows s) (v.cols s) (fun i j s =>
      (v.get s i j).bind fun x => (e.at s i j).bind fun y => (v.ref s i j).bind fun l => store s l (f x y)) s
  else none

/-- `operator*=`, `operator/=` with a number, L3798-3804, L3834-3840. -/
def compoundC (f : R → R) (s : State R) (v : Lv) : Option (State R) :=
  loop2 (v.rows s) (v.cols s) (fun i j s => (v.get s i j).bind fun x => (v.ref s i j).bind fun l => store s l (f x)) s

/-- `operator*=` with a matrix, L3763-3767. -/
def mulAssign (s : State R) (v : Lv) (e : Ex R) : Option (State R) :=
  (mul s (.lv v) e).bind fun M => assign s v (.lit M)

/-- Assignment between two objects of one class other than `Matrix`, for instance `SubMatrix`.  The classes declare a copy constructor and no copy
assignment, so the compiler generates it: it calls `AbstractMatrix::operator=` L681-688 for the base and then copies the members L1799-1803.
The result is the state and what the object on the left refers to. -/
def assignSame (s : State R) (v w : Lv) : Option (State R × Lv) :=
  (assign s v (.lv w)).map fun s => (s, w)

/-- `A.Transpose() = B` for matrices `A`, `B` that are not constant.  `MatrixTranspose` L2378-2425 has no `using AbstractMatrix::operator=`, so
its generated copy assignment hides the operators of the base, and the constructor L2401 converts `B` to a `MatrixTranspose`. -/
def assignTransposed (s : State R) (a b : Nat) : Option (State R × Lv) := assignSame s (.tr (.mat a)) (.tr (.mat b))

end

end Verif.Views
