import Mathlib.Data.Real.Sqrt
import Verif.Dense.Loops

/-!
# Model of the ILU2 preconditioner, Source/Solver/solver_inner/solver_ilu2/solver_ilu2.hpp

What is simplified:

* exact real arithmetic; a division by zero (which gives infinity or NaN and spoils the data) is the outcome `none`;
* one process: rows and columns are numbered from `0` to `n - 1`, `Accumulate` and `Update` do nothing;
* the row under construction, a linked list `RowIndeces` with values `RowValues`, is a list of pairs (column, value) in the order of the links;
* the packed arrays `lui`, `luv`, `ri`, `rv` with offsets `ilu`, `iu`, `ir` are a list with one record for each row;
* `LFILL` and `DIAGONAL_PERTURBATION` are not defined in the code.
-/

namespace Verif.ILU2

open Verif.Dense

/-- A sparse row: columns and values. -/
abbrev SRow := List (Nat × ℝ)

/-- `eps`, L83. -/
noncomputable def eps : ℝ := 1 / 10 ^ 54

/-- `tol_modif`, L83. -/
noncomputable def tolModif : ℝ := 1 / 10 ^ 12

/-- The thresholds. -/
structure Par where
  tau : ℝ
  tau2 : ℝ

/-- One row of the factors: the entries `ilu[k] … iu[k]-2` of `L`, its diagonal `iu[k]-1` (inverted), the diagonal `iu[k]` of `U` (inverted), the entries `iu[k]+1 … ilu[k+1]-1` of `U`
and the entries `ir[k] … ir[k+1]-1` of the second part of `U`; `small` tells that the pivot was replaced (L343-349). -/
structure Fact where
  l : SRow
  ldiag : ℝ
  udiag : ℝ
  u : SRow
  u2 : SRow
  small : Bool

/-- Addition to a position of the row under construction, which is created if necessary, L219-245, L254-277: the position is looked for along the links. -/
noncomputable def add (c : Nat) (v : ℝ) : SRow → SRow
  | [] => [(c, v)]
  | (d, w) :: t => if d = c then (d, w + v) :: t else if c < d then (c, v) :: (d, w) :: t else (d, w) :: add c v t

open Classical in
/-- `row_uncompr`, L162-198: the entries that are not negligible in the order of columns, with a diagonal entry. -/
noncomputable def start (k : Nat) (row : SRow) : SRow :=
  add k 0 ((row.filter fun e => decide (|e.2| > eps)).mergeSort fun a b => decide (a.1 ≤ b.1))

/-- Subtraction of a multiple of a row, L217-246 and L251-279. -/
noncomputable def subRow (m : ℝ) (us : SRow) (rest : SRow) : SRow := us.foldl (fun r e => add e.1 (-m * e.2) r) rest

open Classical in
/-- `elim_lpart`, L202-281: `done` are the entries before `j`, the links from `j` on are the last argument.  The number bounds the number of passes. -/
noncomputable def elim (p : Par) (F : List Fact) (k : Nat) : Nat → SRow → SRow → Option (SRow × SRow)
  | 0, _, _ => none
  | _ + 1, _, [] => none
  | n + 1, done, (j, v) :: rest =>
    if j < k then
      match F[j]? with
      | none => none
      | some f =>
        let m := v * f.udiag
        let r1 := if |m| > p.tau2 then subRow m f.u rest else rest
        let r2 := if |m| > p.tau2 ∧ |m| > p.tau then subRow m f.u2 r1 else r1
        elim p F k n (done ++ [(j, m)]) r2
    else some (done, (j, v) :: rest)

/-- The maximal absolute value, L284-292. -/
noncomputable def maxAbs (l : SRow) : ℝ := l.foldl (fun m e => max m |e.2|) 0

open Classical in
/-- `ldiag`, L293-298. -/
noncomputable def scaleOf (p : Par) (mx : ℝ) : Option ℝ :=
  if mx < p.tau2 then some (1 / p.tau2) else if mx = 0 then none else some (1 / mx)

open Classical in
/-- `row_compr`, L282-397, for a row with the entries `done` before the diagonal, `v` on the diagonal and `tail` after it. -/
noncomputable def compress (p : Par) (k : Nat) (done : SRow) (v : ℝ) (tail : SRow) : Option Fact :=
  match scaleOf p (maxAbs ((k, v) :: tail)) with
  | none => none
  | some ldiag =>
    let v' := v * ldiag
    let tail' := tail.map fun e => (e.1, e.2 * ldiag)
    some
      { l := done.filter fun e => decide (|e.2| > p.tau2 * p.tau2 ∧ |e.2| > p.tau)
        ldiag := ldiag
        udiag := if |v'| > tolModif then 1 / v' else (if v' < 0 then -1 else 1) / tolModif
        u := tail'.filter fun e => decide (|e.2| > p.tau2 * p.tau2 ∧ |e.2| > p.tau)
        u2 := tail'.filter fun e => decide (|e.2| > p.tau2 * p.tau2 ∧ ¬ |e.2| > p.tau ∧ |e.2| > p.tau2)
        small := decide (¬ |v'| > tolModif) }

/-- One pass of the loop L147-398. -/
noncomputable def factRow (p : Par) (F : List Fact) (k : Nat) (row : SRow) : Option Fact :=
  match elim p F k (k + 1) [] (start k row) with
  | none => none
  | some (_, []) => none
  | some (done, (_, v) :: tail) => compress p k done v tail

/-- The loop L147-398: the rows of the scaled matrix are factored one after another. -/
noncomputable def factFrom (p : Par) : List Fact → List SRow → Option (List Fact)
  | F, [] => some F
  | F, row :: rows =>
    match factRow p F F.length row with
    | none => none
    | some f => factFrom p (F ++ [f]) rows

/-! ### Scaling -/

/-- The sum of squares of a row with weights, L115-116, L130-131. -/
noncomputable def sumSq (w : Nat → ℝ) (row : SRow) : ℝ := (row.map fun e => w e.1 * (e.2 * e.2)).sum

open Classical in
/-- `if (d < eps) d = 1.0 / subst; else d = 1.0 / d`, L117, L127, L132. -/
noncomputable def invert (d : ℝ) : ℝ := if d < eps then 1 else 1 / d

/-- `DL` for given `DR`, L128-132. -/
noncomputable def rowScale (A : List SRow) (DR : Nat → ℝ) (k : Nat) : ℝ := invert (sumSq DR (A[k]?.getD []))

/-- `DR` for given `DL`, L121-127. -/
noncomputable def colScale (A : List SRow) (DL : Nat → ℝ) (c : Nat) : ℝ :=
  invert ((List.range A.length).map fun k => (((A[k]?.getD []).filter fun e => e.1 == c).map fun e => DL k * (e.2 * e.2)).sum).sum

/-- The iterations of scaling, L113-133: `DR` is zero at first. -/
noncomputable def scaling (A : List SRow) : Nat → (Nat → ℝ) × (Nat → ℝ)
  | 0 => (rowScale A fun _ => 1, fun _ => 0)
  | n + 1 =>
    let DR := colScale A (scaling A n).1
    (rowScale A DR, DR)

/-- The final scaling vectors, L134-135. -/
noncomputable def scales (A : List SRow) (iters : Nat) : (Nat → ℝ) × (Nat → ℝ) :=
  (fun k => Real.sqrt ((scaling A iters).1 k), fun c => Real.sqrt ((scaling A iters).2 c))

/-- Scaling of a row, L137-138. -/
noncomputable def scaleRow (d : ℝ) (DR : Nat → ℝ) (row : SRow) : SRow := row.map fun e => (e.1, d * e.2 * DR e.1)

/-- The whole matrix, L136-138. -/
noncomputable def scaleMat (D : (Nat → ℝ) × (Nat → ℝ)) (A : List SRow) : List SRow := A.mapIdx fun k row => scaleRow (D.1 k) D.2 row

/-- A division that must not be by zero. -/
noncomputable def divOk (a b : ℝ) : Option ℝ := if b = 0 then none else some (a / b)

/-- L432 for one entry: `second / DL[k] / DR[first]`. -/
noncomputable def unscaleEntry (d : ℝ) (DR : Nat → ℝ) (e : Nat × ℝ) : Option (Nat × ℝ) :=
  (divOk e.2 d).bind fun a => (divOk a (DR e.1)).map fun v => (e.1, v)

/-- `matisc`, L429-432: the matrix is scaled back. -/
noncomputable def unscaleMat (D : (Nat → ℝ) × (Nat → ℝ)) (A : List SRow) : Option (List SRow) :=
  (A.mapIdx fun k row => row.mapM (unscaleEntry (D.1 k) D.2)).mapM id

/-- `xxlusc`, L403-423: the factors of the matrix that is not scaled. -/
noncomputable def unscaleFact (D : (Nat → ℝ) × (Nat → ℝ)) (k : Nat) (f : Fact) : Fact :=
  { f with
    l := f.l.map fun e => (e.1, e.2 / D.1 k)
    ldiag := f.ldiag * D.1 k
    u := f.u.map fun e => (e.1, e.2 / D.2 e.1)
    udiag := f.udiag * D.2 k }

/-- `Initialize`, L60-464: the factors and the matrix after the call. -/
noncomputable def setup (p : Par) (iters : Nat) (A : List SRow) : Option (List Fact × List SRow) :=
  let D := scales A iters
  let A' := scaleMat D A
  match factFrom p [] A' with
  | none => none
  | some F => (unscaleMat D A').map fun B => (F.mapIdx fun k f => unscaleFact D k f, B)

/-! ### Solve -/

/-- One row of the first loop of `Solve`, L528-533. -/
noncomputable def forwardRow (F : List Fact) (k : Nat) (x : Nat → ℝ) : Nat → ℝ :=
  match F[k]? with
  | none => x
  | some f =>
    let x := f.l.reverse.foldl (fun x e => updV x k (x k - e.2 * x e.1)) x
    updV x k (x k * f.ldiag)

/-- One row of the second loop, L534-539. -/
noncomputable def backwardRow (F : List Fact) (k : Nat) (x : Nat → ℝ) : Nat → ℝ :=
  match F[k]? with
  | none => x
  | some f =>
    let x := f.u.foldl (fun x e => updV x k (x k - e.2 * x e.1)) x
    updV x k (x k * f.udiag)

/-- `Solve`, L514-553. -/
noncomputable def solve (F : List Fact) (b : Nat → ℝ) : Nat → ℝ :=
  let x := fun k => if k < F.length then b k else 0
  forDown (backwardRow F) F.length (forRange 0 F.length (forwardRow F) x)

end Verif.ILU2
