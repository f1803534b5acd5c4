import Verif.Containers.ArrayModel

/-!
# Specification of the dynamic array: the mathematical sequence

`seqOp` is what each operation does to a sequence; `Legal` is the precondition of the
operation (iterators inside the sequence).
-/

namespace Verif.Containers

/-- Effect of an operation on a sequence. -/
def seqOp (xs : List α) : ArrOp α → List α
  | .set n x => xs.set n x
  | .pushBack x => xs ++ [x]
  | .popBack => xs.dropLast
  | .resize n c => xs.take n ++ List.replicate (n - xs.length) c
  | .clear => []
  | .erase d => xs.eraseIdx d
  | .eraseRange d n => xs.take d ++ xs.drop (d + n)
  | .insert d x => xs.take d ++ x :: xs.drop d
  | .insertRange d ys => xs.take d ++ ys ++ xs.drop d
  | .replace d q ys => xs.take d ++ ys ++ xs.drop (d + q)
  | .assign ys => ys

/-- Preconditions: positions inside the sequence; `pop_back` on a non-empty sequence. -/
def Legal (xs : List α) : ArrOp α → Prop
  | .set n _ => n < xs.length
  | .popBack => xs ≠ []
  | .erase d => d < xs.length
  | .eraseRange d n => d + n ≤ xs.length
  | .insert d _ => d ≤ xs.length
  | .insertRange d _ => d ≤ xs.length
  | .replace d q _ => d + q ≤ xs.length
  | _ => True

/-- Largest sequence length the 32-bit `growth_formula` supports. -/
def maxLen : Nat := 2 ^ 31

/-- The array holds exactly the sequence `xs`: same size, and element `k` is `xs[k]`. -/
def Holds (a : Arr α) (xs : List α) : Prop :=
  a.size = xs.length ∧ ∀ k, a.get k = xs[k]?

/-- A history is legal for a starting sequence: each operation satisfies its precondition
for the sequence reached, and lengths stay below `maxLen`. -/
def LegalHist (allowed : List α → ArrOp α → Prop) : List α → List (ArrOp α) → Prop
  | _, [] => True
  | xs, op :: ops => Legal xs op ∧ allowed xs op ∧ (seqOp xs op).length ≤ maxLen ∧
      LegalHist allowed (seqOp xs op) ops

end Verif.Containers
