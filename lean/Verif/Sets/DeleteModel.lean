import Verif.Sets.TreeModel

/-!
# Model of the deletion of element sets

Source: `/repo/Source/Mesh/eset.cpp` L1725-1763 (`Clear`, `DeleteSet`, `DeleteSetTree`) and the part of `Mesh::Destroy` for sets,
`/repo/Source/Mesh/modify.cpp` L2186-2208.  Only the links between sets are modelled, and the sets that are destroyed.  The mesh is not
between `BeginModification` and `EndModification` (then `Mesh::Delete`, L2240-2258, hides the set).
-/

namespace Verif.Sets

/-- "while( eset->HaveChild() ) eset->RemChild(eset->GetChild())", modify.cpp L2202-2203. -/
def dropChildren : Nat → Tree → Nat → Option Tree
  | 0, _, _ => none
  | n + 1, t, x =>
    if (t x).child = 0 then some t
    else match remChild n t x (t x).child with
      | some t' => dropChildren n t' x
      | none => none

/-- "if( HaveParent() ) GetParent()->RemChild(self())", eset.cpp L1728 and L1745, modify.cpp L2200-2201. -/
def leaveParent (n : Nat) (t : Tree) (x : Nat) : Option Tree :=
  if (t x).parent = 0 then some t else remChild n t (t x).parent x

/-- `Mesh::Destroy` of a set, modify.cpp L2196-2207: the data of the set, also its links, is deleted. -/
def destroySet (n : Nat) (t : Tree) (x : Nat) : Option Tree :=
  match leaveParent n t x with
  | some t1 =>
    match dropChildren n t1 x with
    | some t2 => some fun y => if y = x then ⟨0, 0, 0⟩ else t2 y
    | none => none
  | none => none

/-- `ElementSet::DeleteSet`, eset.cpp L1736-1740, with `Clear`, L1725-1734. -/
def deleteSet (n : Nat) (t : Tree) (x : Nat) : Option Tree :=
  match leaveParent n t x with
  | some t1 => destroySet n t1 x
  | none => none

/-- The loop over children of `DeleteSetTree`, eset.cpp L1750-1758; `f` is the recursive call, which also returns what it
destroyed. -/
def childLoop (f : Tree → Nat → Option (Tree × List Nat)) : Nat → Tree → Nat → Option (Tree × List Nat)
  | 0, _, _ => none
  | n + 1, t, c =>
    if c = 0 then some (t, [])
    else match f (setSibling (setParent t c 0) c 0) c with
      | some (t1, d1) =>
        match childLoop f n t1 (t c).sibling with
        | some (t2, d2) => some (t2, d1 ++ d2)
        | none => none
      | none => none

/-- `ElementSet::DeleteSetTree`, eset.cpp L1742-1763: the links and the destroyed sets. -/
def deleteTree : Nat → Tree → Nat → Option (Tree × List Nat)
  | 0, _, _ => none
  | n + 1, t, x =>
    match leaveParent n t x with
    | some t1 =>
      match childLoop (deleteTree n) n (setChild t1 x 0) (t1 x).child with
      | some (t2, d) =>
        match destroySet n t2 x with
        | some t3 => some (t3, d ++ [x])
        | none => none
      | none => none
    | none => none

end Verif.Sets
