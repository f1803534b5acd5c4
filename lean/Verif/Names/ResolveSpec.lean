import Verif.Names.Resolve
import Verif.Names.Spec

/-! # Specification of `ResolveSets` -/

namespace Verif.Names

/-- The mesh has a set with this name that is not deleted. -/
def Sets.Has (S : Sets) (n : Str) : Prop :=
  ∃ h, S.live h = true ∧ S.name h = n ∧ ¬ (S.hide = true ∧ S.hidden h = true)

/-- `procs` lists, in increasing order, the ranks of the processes that have a set with this name. -/
def Holders (P : List Sets) (n : Str) (procs : List Nat) : Prop :=
  procs.Pairwise (· < ·) ∧ ∀ k, k ∈ procs ↔ ∃ S, P[k]? = some S ∧ S.Has n

end Verif.Names
