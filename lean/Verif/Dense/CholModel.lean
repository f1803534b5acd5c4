import Verif.Dense.Loops
import Mathlib.Analysis.SpecialFunctions.Pow.Real

/-!
# Model of `SymmetricMatrix` storage and of `CholeskySolve`

Source/Headers/inmost_dense.h L928-970 and L3886-3993.  Numbers are real: rounding is not modelled.  The array of a symmetric
matrix is modelled by a function of the address; the theorem C50 shows that all addresses are inside.
-/

namespace Verif.Dense

/-- The address of the element `(i,j)` of a symmetric matrix with `n` rows, inmost_dense.h L947-953 and L959-965.  The subtraction is that of
unsigned numbers, which does not overflow for valid indices. -/
def symIdx (n i j : Nat) : Nat :=
  if i > j then i + n * j - j * (j + 1) / 2 else j + n * i - i * (i + 1) / 2

/-- `L(i,j)`. -/
def symGet {K : Type} (n : Nat) (s : Nat → K) (i j : Nat) : K := s (symIdx n i j)

/-- `L(i,j) = v`. -/
def symSet {K : Type} (n : Nat) (s : Nat → K) (i j : Nat) (v : K) : Nat → K := updV s (symIdx n i j) v

/-- `*L = A`, L932-942: the upper triangle is copied. -/
def symAssign {K : Type} (n : Nat) (A : Nat → Nat → K) (s : Nat → K) : Nat → K :=
  forRange 0 n (fun i s => forRange i n (fun j s => symSet n s i j (A i j)) s) s

/-- `for(i = k+1; i < n; ++i) L(i,k) /= L(k,k)`, L3954-3955. -/
noncomputable def cholDivide (n k : Nat) (s : Nat → ℝ) : Nat → ℝ :=
  forRange (k + 1) n (fun i s => symSet n s i k (symGet n s i k / symGet n s k k)) s

/-- `for(j) for(i = j) L(i,j) -= L(i,k)*L(j,k)`, L3958-3962. -/
noncomputable def cholUpdate (n k : Nat) (s : Nat → ℝ) : Nat → ℝ :=
  forRange (k + 1) n (fun j s => forRange j n (fun i s => symSet n s i j (symGet n s i j - symGet n s i k * symGet n s j k)) s) s

/-- One step of the factorisation, L3929-3963; `none` is the error return. -/
noncomputable def cholStep (n k : Nat) (s : Nat → ℝ) : Option (Nat → ℝ) :=
  if symGet n s k k < 0 then none
  else
    let s := symSet n s k k (Real.sqrt (symGet n s k k))
    if |symGet n s k k| < 1 / 10 ^ 24 then none else some (cholUpdate n k (cholDivide n k s))

/-- The factorisation, L3928; the error is `k + 1`. -/
noncomputable def cholLoop (n : Nat) (k : Nat) : Nat → (Nat → ℝ) → Except Nat (Nat → ℝ)
  | 0, s => .ok s
  | c + 1, s =>
    match cholStep n k s with
    | none => .error (k + 1)
    | some s => cholLoop n (k + 1) c s

/-- `LY = B`, L3966-3974. -/
noncomputable def cholForward (n l : Nat) (s : Nat → ℝ) (Y : Nat → Nat → ℝ) : Nat → Nat → ℝ :=
  forRange 0 n (fun i Y => forRange 0 l (fun k Y =>
    let Y := forRange 0 i (fun j Y => upd Y i k (Y i k - Y j k * symGet n s j i)) Y
    upd Y i k (Y i k / symGet n s i i)) Y) Y

/-- `L^T X = Y`, L3977-3989. -/
noncomputable def cholBack (n l : Nat) (s : Nat → ℝ) (X : Nat → Nat → ℝ) : Nat → Nat → ℝ :=
  forDown (fun i X => forRange 0 l (fun k X =>
    let X := forDown (fun d X => upd X i k (X i k - X (i + 1 + d) k * symGet n s i (i + 1 + d))) (n - (i + 1)) X
    upd X i k (X i k / symGet n s i i)) X) n X

/-- `A.CholeskySolve(B, ierr)` for an `n` by `n` matrix `A` and an `n` by `l` matrix `B`, L3889-3993.  `s0` is what the static matrix `L`
contains before the call. -/
noncomputable def cholSolve (n l : Nat) (A B : Nat → Nat → ℝ) (s0 : Nat → ℝ) : Except Nat (Nat → Nat → ℝ) :=
  match cholLoop n 0 n (symAssign n A s0) with
  | .error e => .error e
  | .ok s => .ok (cholBack n l s (cholForward n l s B))

end Verif.Dense
