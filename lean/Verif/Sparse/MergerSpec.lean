import Verif.Sparse.MergerModel
import Verif.Sparse.RowSpec

/-!
# Specification of `RowMerger`: a function from columns to values
-/

namespace Verif.Sparse

variable {K : Type} [CommRing K] [DecidableEq K]

/-- The accumulated linear combination. -/
def accumulate (f : Nat → K) : MOp K → (Nat → K)
  | .resize _ _ _ => fun _ => 0
  | .clear => fun _ => 0
  | .multiply coef => fun c => coef * f c
  | .push coef r => fun c => coef * colVal r c
  | .add coef r => fun c => f c + coef * colVal r c
  | .access d g => fun c => if c = d then g (f c) else f c

/-- What the documentation asks of a history.  `sorted` is the mode; `fresh` says that nothing was
added since the accumulator was cleared. -/
def Admissible : Bool → Bool → List (MOp K) → Prop
  | _, _, [] => True
  | _, _, .resize b e s :: ops => b ≤ e ∧ e < EOL ∧ Admissible s true ops
  | s, _, .clear :: ops => Admissible s true ops
  | s, fresh, .multiply _ :: ops => Admissible s fresh ops
  | s, fresh, .push _ r :: ops =>
    fresh = true ∧ Distinct r ∧ (s = true → StrictlySorted r) ∧ Admissible s false ops
  | s, _, .add _ r :: ops => (s = true → StrictlySorted r) ∧ Admissible s false ops
  | s, _, .access _ _ :: ops => Admissible s false ops

/-- The columns that the operations of a history mention. -/
def mentioned : List (MOp K) → List Nat
  | [] => []
  | .push _ r :: ops => r.map (·.1) ++ mentioned ops
  | .add _ r :: ops => r.map (·.1) ++ mentioned ops
  | .access c _ :: ops => c :: mentioned ops
  | _ :: ops => mentioned ops

end Verif.Sparse
