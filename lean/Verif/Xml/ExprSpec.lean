import Verif.Xml.ExprModel

/-!
# Specification vocabulary for expressions

The usual grammar: products bind stronger than sums, operations of the same kind go from left to right, a minus
stands before a product at the beginning of an expression or after a left bracket.
-/

namespace Verif.Xml

/-- Names and numbers: no brackets and no signs of operations. -/
def Word (w : Str) : Prop := w ≠ [] ∧ ∀ c ∈ w, c ∉ ['(', ')', '+', '-', '*', '/', '~']

/-- The parts of an expression. -/
inductive Part | factor | product | sum

/-- `Means val part s x`: the text `s` is a part of this kind with the value `x`; `val` gives the values of words that
are allowed. -/
inductive Means {K : Type} [Field K] (val : Str → Option K) : Part → Str → K → Prop
  | word {w : Str} {x : K} : Word w → val w = some x → Means val .factor w x
  | bracket {s : Str} {x : K} : Means val .sum s x → Means val .factor ('(' :: (s ++ [')'])) x
  | factor {s : Str} {x : K} : Means val .factor s x → Means val .product s x
  | times {s t : Str} {x y : K} : Means val .product s x → Means val .factor t y → Means val .product (s ++ '*' :: t) (x * y)
  | over {s t : Str} {x y : K} : Means val .product s x → Means val .factor t y → y ≠ 0 → Means val .product (s ++ '/' :: t) (x / y)
  | product {s : Str} {x : K} : Means val .product s x → Means val .sum s x
  | minus {s : Str} {x : K} : Means val .product s x → Means val .sum ('-' :: s) (-x)
  | plus {s t : Str} {x y : K} : Means val .sum s x → Means val .product t y → Means val .sum (s ++ '+' :: t) (x + y)
  | sub {s t : Str} {x y : K} : Means val .sum s x → Means val .product t y → Means val .sum (s ++ '-' :: t) (x - y)

/-- The values of words with `SetSize`; other words may not contain it. -/
def withSize (num : Str → ℚ) (n : Nat) (w : Str) : Option ℚ :=
  if w = setSizeName then some n else if setSizeName <:+: w then none else some (num w)

end Verif.Xml
