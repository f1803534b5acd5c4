import Verif.Sets.TreeModel

/-! # Specification of the hierarchy of element sets -/

namespace Verif.Sets

/-- The sets met when one follows the sibling links from `x` on to the end. -/
inductive Chain (t : Tree) : Nat → List Nat → Prop
  | nil : Chain t 0 []
  | cons (x : Nat) (l : List Nat) : x ≠ 0 → Chain t (t x).sibling l → Chain t x (x :: l)

/-- `l` lists the children of `p` in their order. -/
def Children (t : Tree) (p : Nat) (l : List Nat) : Prop := Chain t (t p).child l

/-- Following the parent links from `x` one arrives at a set without parent. -/
inductive Rooted (t : Tree) : Nat → Prop
  | root (x : Nat) : (t x).parent = 0 → Rooted t x
  | up (x : Nat) : Rooted t (t x).parent → Rooted t x

/-- Following the parent links from `x` one meets `a`. -/
inductive Within (t : Tree) (a : Nat) : Nat → Prop
  | self : Within t a a
  | up (x : Nat) : Within t a (t x).parent → Within t a x

/-- The links form a forest: the children of every set form a finite list without
repetitions, which consists of the sets that name it as their parent, and the parent links
lead to a root. -/
structure Forest (t : Tree) : Prop where
  children : ∀ p, p ≠ 0 → ∃ l, Children t p l ∧ l.Nodup ∧
    ∀ c, c ∈ l ↔ c ≠ 0 ∧ (t c).parent = p
  rooted : ∀ x, x ≠ 0 → Rooted t x

end Verif.Sets
