import Verif.Sets.SortedModel

/-!
# Model of sets sorted by global IDs

Models the branches for `GLOBALID_COMPARATOR` of the functions of `/repo/Source/Mesh/eset.cpp` that add,
remove and look up elements, and `FindElementByGlobalID`; the comparison of points of
`/repo/Source/Mesh/comparator.cpp`. `gid` gives the global ID of an element; global IDs are numbered
separately for each type of element.

Not modelled: `FindElementByCentroid`, `HIERARCHY_COMPARATOR`.
-/

namespace Verif.Sets

/-- `GlobalIDComparator::operator()(HandleType, integer)`, inmost_mesh.h L3429 -/
def idLess (gid : Nat → Int) (a : Nat) (g : Int) : Bool := if a = 0 then false else decide (gid a < g)

/-- `GlobalIDComparator::operator()(HandleType, HandleType)`, inmost_mesh.h L3428 -/
def idLess2 (gid : Nat → Int) (a b : Nat) : Bool :=
  if a = 0 ∨ b = 0 then decide (a > b) else decide (gid a < gid b)

/-- `std::lower_bound` by an ID, eset.cpp L1468 and L1549 -/
def findIdPos (gid : Nat → Int) (s : ESet) (g : Int) : Nat :=
  lowerBound (fun i => idLess gid (s.lc.getD i 0) g) 0 s.sorted

/-- `std::lower_bound` by an element, eset.cpp L615 and L935 -/
def findElPos (gid : Nat → Int) (s : ESet) (e : Nat) : Nat :=
  lowerBound (fun i => idLess2 gid (s.lc.getD i 0) e) 0 s.sorted

/-- the loops over a part of the set, eset.cpp L1474-1476 and L1480-1482: 0 is the invalid element -/
def scan (gid : Nat → Int) (g : Int) : List Nat → Nat
  | [] => 0
  | x :: r => if x ≠ 0 ∧ gid x = g then x else scan gid g r

/-- `ElementSet::FindElementByGlobalID`, eset.cpp L1459-1485 -/
def findByGlobalID (gid : Nat → Int) (s : ESet) (g : Int) : Nat :=
  if s.cmp = .globalID then
    let p := findIdPos gid s g
    if p ≠ s.sorted then
      if s.lc.getD p 0 ≠ 0 ∧ gid (s.lc.getD p 0) = g then s.lc.getD p 0 else 0
    else scan gid g (s.lc.drop s.sorted)
  else scan gid g s.lc

/-- `ElementSet::FindHandle(h,true)` of a set sorted by global IDs, eset.cpp L1545-1557 -/
def findHandleId (gid : Nat → Int) (s : ESet) (e : Nat) : Bool :=
  let p := findIdPos gid s (gid e)
  if p ≠ s.sorted then s.lc[p]? == some e
  else (s.lc.drop s.sorted).any (· == e)

/-- `ElementSet::AddElement` of a set sorted by global IDs, eset.cpp L614-627 -/
def addId (gid : Nat → Int) (s : ESet) (e : Nat) : ESet :=
  let p := findElPos gid s e
  if p ≠ s.sorted ∧ s.lc[p]? = some e then s
  else { s with lc := s.lc.take p ++ e :: s.lc.drop p, sorted := s.sorted + 1 }

/-- `ElementSet::RemoveElement` of a set sorted by global IDs, eset.cpp L934-954 -/
def removeId (gid : Nat → Int) (s : ESet) (e : Nat) : ESet :=
  let p := findElPos gid s e
  if p ≠ s.sorted then
    if s.lc[p]? = some e then { s with lc := s.lc.set p 0, holes := p :: s.holes } else s
  else
    let r := removeTail e (s.lc.drop s.sorted) s.sorted s.holes
    { s with lc := s.lc.take s.sorted ++ r.1, holes := r.2 }

/-- `CentroidComparator::Compare`, comparator.cpp L5-17, over the rationals; the coordinates of the first
`GetDimensions()` axes are given -/
def compareC (eps : Rat) : List Rat → List Rat → Int
  | a :: r, b :: t => if max (a - b) (b - a) > eps then (if a > b then 1 else -1) else compareC eps r t
  | _, _ => 0

end Verif.Sets
