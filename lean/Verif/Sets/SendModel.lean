import Verif.Sets.TreeModel
import Verif.Parallel.Remove
import Mathlib.Data.List.Sort

/-!
# Model of marking sets and their elements for sending

Models `UnionSendTo` and `Element::SendTo` (`/repo/Source/Mesh/element.cpp` L2039-2065) and `SetSendTo`, `CollectProcessors`, `SynchronizeSetElements`,
`SynchronizeSetElementsWithOwner`, `SynchronizeSetChildren`, `SynchronizeSetParents` (`/repo/Source/Mesh/eset.cpp` L1765-1906).

Simplifications: the tags of processors and of processors to send to are functions of the handle; a `std::set` of ranks is an increasing list. The three forms of `SetSendTo` have the same body
and are one function. The elements of a set are the list that the iterator visits (C15).
-/

namespace Verif.Sets

open Verif.Parallel (setDiff)

/-- The turns of the loop of `std::set_union` in which the first range stands at `a`. -/
def setUnionAt (a : Int) (rest : List Int → List Int) : List Int → List Int
  | [] => a :: rest []
  | b :: m => if a < b then a :: rest (b :: m) else if b < a then b :: setUnionAt a rest m else a :: rest m

/-- `std::set_union` -/
def setUnion : List Int → List Int → List Int
  | [] => fun m => m
  | a :: l => setUnionAt a (setUnion l)

/-- `std::set::insert` of one rank -/
def insertRank (a : Int) : List Int → List Int
  | [] => [a]
  | b :: l => if a < b then a :: b :: l else if a = b then b :: l else b :: insertRank a l

/-- `std::set::insert` of a range, eset.cpp L1870; `std::set` of a range, L1787 -/
def insertAll (s : List Int) (l : List Int) : List Int := l.foldl (fun s a => insertRank a s) s

/-- What one processor knows: whether the mesh is parallel, its rank, and for each handle `ProcessorsTag()`, `OwnerTag()` and whether the status is `Owned`. -/
structure Known where
  parallel : Bool
  rank : Int
  procs : Nat → List Int
  owner : Nat → Int
  owned : Nat → Bool

/-- `SendtoTag()` -/
abbrev Sendto := Nat → List Int

/-- `sendto.replace(...)` -/
def Sendto.put (s : Sendto) (x : Nat) (l : List Int) : Sendto := fun y => if y = x then l else s y

/-- `UnionSendTo`, element.cpp L2039-2050 -/
def unionSendTo (k : Known) (cont : List Int) (s : Sendto) (x : Nat) : Sendto :=
  s.put x (setUnion (setDiff (fun a b => decide (a < b)) cont (k.procs x)) ((s x).insertionSort (· ≤ ·)))

/-- `Element::SendTo`, element.cpp L2052-2065 -/
def sendTo (k : Known) (cont : List Int) (s : Sendto) (x : Nat) : Sendto := if k.parallel then unionSendTo k cont s x else s

/-- The loop over children of eset.cpp L1832-1833 and L1874-1875 from `c` on; `f` is the recursive call. -/
def siblingLoop {σ : Type} (f : σ → Nat → Option σ) (t : Tree) : Nat → σ → Nat → Option σ
  | 0, _, _ => none
  | n + 1, s, c =>
    if c = 0 then some s
    else match f s c with
      | some s1 => siblingLoop f t n s1 (t c).sibling
      | none => none

/-- The recursion of `SetSendTo` (eset.cpp L1827-1839) and `CollectProcessors` (L1866-1881); `body` is what is done with each set. -/
def traverse {σ : Type} (body : σ → Nat → σ) (t : Tree) : Nat → Nat → σ → Nat → Option σ
  | 0, _, _, _ => none
  | n + 1, dir, s, x =>
    match (if dir &&& 1 ≠ 0 ∧ (t x).child ≠ 0 then siblingLoop (traverse body t n (dir &&& 1)) t n (body s x) (t x).child else some (body s x)) with
    | none => none
    | some s1 => if dir &&& 2 ≠ 0 ∧ (t x).parent ≠ 0 then traverse body t n (dir &&& 2) s1 (t x).parent else some s1

/-- `CollectProcessors` -/
def collect (k : Known) (t : Tree) (n dir : Nat) (x : Nat) : Option (List Int) := traverse (fun s y => insertAll s (k.procs y)) t n dir [] x

/-- `SetSendTo` -/
def setSendTo (k : Known) (t : Tree) (n dir : Nat) (procs : List Int) (s : Sendto) (x : Nat) : Option Sendto := traverse (sendTo k procs) t n dir s x

/-- `SynchronizeSetChildren`, eset.cpp L1882-1892 -/
def syncChildren (k : Known) (t : Tree) (n : Nat) (s : Sendto) (x : Nat) : Option Sendto :=
  if !k.parallel then some s
  else if k.owned x then some s
  else match collect k t n 1 x with
    | none => none
    | some procs => if procs = [] then some s else setSendTo k t n 1 procs s x

/-- `SynchronizeSetParents`, eset.cpp L1894-1906 -/
def syncParents (k : Known) (t : Tree) (n : Nat) (s : Sendto) (x : Nat) : Option Sendto :=
  if !k.parallel then some s
  else if k.owned x then some s
  else match collect k t n 0 x with
    | none => none
    | some procs => if procs = [] then some s else setSendTo k t n 2 procs s x

/-- `SynchronizeSetElements`, eset.cpp L1765-1799; `elems` are the elements of the set `x` -/
def syncElements (k : Known) (s : Sendto) (x : Nat) (elems : List Nat) : Sendto :=
  if !k.parallel then s
  else
    let sendSet := (insertAll (insertAll [] (s x)) (k.procs x)).filter fun q => q ≠ k.rank
    elems.foldl (sendTo k (k.procs x)) (s.put x sendSet)

/-- `SynchronizeSetElementsWithOwner`, eset.cpp L1800-1826 -/
def syncOwner (k : Known) (s : Sendto) (x : Nat) (elems : List Nat) : Sendto :=
  if !k.parallel then s
  else if k.owned x then s
  else
    let sendSet := insertRank (k.owner x) (insertAll [] (s x))
    elems.foldl (sendTo k sendSet) (s.put x sendSet)

end Verif.Sets
