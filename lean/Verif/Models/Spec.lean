import Verif.Models.Model
/-
What it means to call functions of objects one after the other.
-/

namespace Verif.Models

/-- `Does f calls w w' b`: the functions of the objects `calls` are called in this order, each one
once, they change `w` into `w'`, and `b` tells whether all of them returned `true`. -/
inductive Does {W : Type} (f : Comp → W → W × Bool) : List Comp → W → W → Bool → Prop where
  | nil (w : W) : Does f [] w w true
  | cons {c : Comp} {l : List Comp} {w w1 w2 : W} {b1 b2 : Bool} : f c w = (w1, b1) →
      Does f l w1 w2 b2 → Does f (c :: l) w w2 (b1 && b2)

/-- `r` is the least of the number `a` and the values of `f` on the list. -/
def IsMin {R : Type} [LE R] (r a : R) (f : Comp → R) (l : List Comp) : Prop :=
  r ≤ a ∧ (∀ c ∈ l, r ≤ f c) ∧ (r = a ∨ ∃ c ∈ l, r = f c)

end Verif.Models
