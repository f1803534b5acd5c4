import Verif.Sets.Model

/-!
# Specification of element arrays and element sets

Independent of the model: sequences without repetitions and mathematical sets.
-/

namespace Verif.Sets

/-- The elements of a sequence in the order of their first appearance. -/
def firstAppearances : List Nat → List Nat
  | [] => []
  | x :: xs => x :: (firstAppearances xs).filter (· ≠ x)

/-- A family of mathematical sets of elements, one for every element set of the mesh. -/
abbrev Family := Nat → Nat → Prop

/-- Replace one member of a family. -/
def Family.upd (A : Family) (s : Nat) (P : Nat → Prop) : Family :=
  fun t x => if t = s then P x else A t x

/-- What the operations mean for mathematical sets.  `at_ pos` is the element at which an
iterator points. -/
def specStep (at_ : Nat → Nat → Nat) (A : Family) : Op → Family
  | .add s e => A.upd s fun x => A s x ∨ x = e
  | .addMany s hs => A.upd s fun x => A s x ∨ x ∈ hs
  | .remove s e => A.upd s fun x => A s x ∧ x ≠ e
  | .removeMany s hs => A.upd s fun x => A s x ∧ x ∉ hs
  | .subtract s o => A.upd s fun x => A s x ∧ ¬ A o x
  | .subtractArr s hs => A.upd s fun x => A s x ∧ x ∉ hs
  | .intersect s o => A.upd s fun x => A s x ∧ A o x
  | .intersectArr s hs => A.upd s fun x => A s x ∧ x ∈ hs
  | .unite s o => A.upd s fun x => A s x ∨ A o x
  | .eraseIt s pos => A.upd s fun x => A s x ∧ x ≠ at_ s pos
  | .clear s => A.upd s fun _ => False

end Verif.Sets
