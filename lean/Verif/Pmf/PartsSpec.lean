import Verif.Pmf.PartsModel

/-!
# Specification vocabulary for files of several processors
-/

namespace Verif.Pmf

/-- Contiguous groups of parts for `q` processors: every part is in exactly one group and no part is divided; with
enough processors every one has at most one part, otherwise each has its share. -/
structure Groups {α : Type} (q : Nat) (parts : List α) (groups : List (List α)) : Prop where
  length : groups.length = q
  all : groups.flatten = parts
  one : parts.length ≤ q → ∀ (k : Nat) (g : List α), groups[k]? = some g → g = parts[k]?.toList
  share : q < parts.length → ∀ (k : Nat) (g : List α), groups[k]? = some g → parts.length / q ≤ g.length

/-- Processor `r p` is the one that has read part `p` of the `P` parts of the file. -/
structure Readers (P : Nat) (read : List (List Nat)) (r : Nat → Nat) : Prop where
  mem : ∀ p, p < P → ∀ k, p ∈ read.getD k [] ↔ k = r p

end Verif.Pmf
