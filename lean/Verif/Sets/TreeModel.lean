import Verif.Sets.Model

/-!
# Model of the hierarchy of element sets

Models `/repo/Source/Mesh/eset.cpp` L32-159.  The first three entries of `HighConn` of a set
are the handles of its parent, its next sibling and its first child; `0` is
`InvalidHandle()`.  A failed `assert` is `none`.  The member functions recurse along the
chain of siblings; on a cyclic chain the recursion would not end, which is the outcome `none`
for every amount of fuel.
-/

namespace Verif.Sets

/-- `hParent`, `hSibling`, `hChild` of one set, inmost_mesh.h L970-972. -/
structure Links where
  parent : Nat
  sibling : Nat
  child : Nat
deriving DecidableEq, Repr

/-- The links of all sets of a mesh. -/
abbrev Tree := Nat → Links

/-- Sets after `Mesh::CreateSet`: no links, mesh.cpp L1870-1888. -/
def Tree.init : Tree := fun _ => ⟨0, 0, 0⟩

/-- `hParent(hc) = p`. -/
def setParent (t : Tree) (x p : Nat) : Tree :=
  fun y => if y = x then { t y with parent := p } else t y
/-- `hSibling(hc) = s`. -/
def setSibling (t : Tree) (x s : Nat) : Tree :=
  fun y => if y = x then { t y with sibling := s } else t y
/-- `hChild(hc) = c`. -/
def setChild (t : Tree) (x c : Nat) : Tree :=
  fun y => if y = x then { t y with child := c } else t y

/-- `ElementSet::AddSibling`, eset.cpp L93-111. -/
def addSibling : Nat → Tree → Nat → Nat → Option Tree
  | 0, _, _, _ => none
  | n + 1, t, cur, s =>
    if (t cur).parent = 0 then none
    else if (t cur).sibling = 0 then
      if (t s).parent ≠ 0 then none
      else some (setParent (setSibling t cur s) s (t cur).parent)
    else addSibling n t (t cur).sibling s

/-- `ElementSet::AddChild`, eset.cpp L75-91. -/
def addChild (n : Nat) (t : Tree) (p c : Nat) : Option Tree :=
  if (t p).child = 0 then
    if (t c).parent ≠ 0 then none
    else some (setChild (setParent t c p) p c)
  else addSibling n t (t p).child c

/-- `ElementSet::RemSibling`, eset.cpp L130-145. -/
def remSibling : Nat → Tree → Nat → Nat → Option Tree
  | 0, _, _, _ => none
  | n + 1, t, cur, s =>
    if (t cur).sibling = 0 then none
    else if (t cur).sibling = s then
      if (t s).parent ≠ (t cur).parent then none
      else some (setSibling (setParent t s 0) cur (t s).sibling)
    else remSibling n t (t cur).sibling s

/-- `ElementSet::RemChild`, eset.cpp L113-128. -/
def remChild (n : Nat) (t : Tree) (p c : Nat) : Option Tree :=
  if (t p).child = 0 then none
  else if (t p).child = c then
    if (t c).parent ≠ p then none
    else some (setChild (setParent t c 0) p (t c).sibling)
  else remSibling n t (t p).child c

/-- `ElementSet::CountSiblings`, eset.cpp L154-159. -/
def countSiblings : Nat → Tree → Nat → Option Nat
  | 0, _, _ => none
  | n + 1, t, cur =>
    if (t cur).sibling = 0 then some 1
    else match countSiblings n t (t cur).sibling with
      | none => none
      | some k => some (k + 1)

/-- `ElementSet::CountChildren`, eset.cpp L147-152. -/
def countChildren (n : Nat) (t : Tree) (p : Nat) : Option Nat :=
  if (t p).child = 0 then some 0 else countSiblings n t (t p).child

/-- Operations on the hierarchy. -/
inductive TOp
  | addChild (p c : Nat)
  | addSibling (s c : Nat)
  | remChild (p c : Nat)
  | remSibling (s c : Nat)

/-- One operation. -/
def texec (n : Nat) (t : Tree) : TOp → Option Tree
  | .addChild p c => addChild n t p c
  | .addSibling s c => addSibling n t s c
  | .remChild p c => remChild n t p c
  | .remSibling s c => remSibling n t s c

end Verif.Sets
