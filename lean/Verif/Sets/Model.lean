/-!
# Model of element arrays and element sets

Models `/repo/Source/Mesh/earray.cpp` L6-101 and the part of `/repo/Source/Mesh/eset.cpp`
that works on sets without a comparator.

Handles are natural numbers, `0` is `InvalidHandle()` (inmost_data.h L90).  Every function
of this file creates at most two private markers and releases them before it returns.
Markers are taken from the lowest free bit (mesh.cpp L2069-2088), so that the same two bits
serve every call; the state keeps, for these two bits, the elements on which they are set.
That a freshly created marker is set on no element unless a former user forgot to remove it
is property C03.  Marker operations on `InvalidHandle()` read outside of the storage
(`GetHandleElementNum(0) = -1`) and are the outcome `none`.

Simplifications: a set is used outside of mesh modification (no hidden elements); the array
`HighConn` of a set, `[parent, sibling, child, sorted, hole, hole, ...]`
(inmost_mesh.h L963-973), is kept as separate fields, the holes being listed starting from
the back of the array; parent, sibling and child are in `Verif/Sets/TreeModel.lean`.
-/

namespace Verif.Sets

/-- The elements on which one private marker is set. -/
abbrev Marks := Nat → Bool

/-- `Mesh::GetPrivateMarker`, inmost_mesh.h L2027. -/
def getMk (mk : Marks) (h : Nat) : Option Bool := if h = 0 then none else some (mk h)

/-- `Mesh::SetPrivateMarker`, inmost_mesh.h L2015. -/
def setMk (mk : Marks) (h : Nat) : Option Marks :=
  if h = 0 then none else some (fun x => if x = h then true else mk x)

/-- `Mesh::RemPrivateMarker`, inmost_mesh.h L2032. -/
def remMk (mk : Marks) (h : Nat) : Option Marks :=
  if h = 0 then none else some (fun x => if x = h then false else mk x)

/-- `ElementArray::SetPrivateMarker`, earray.cpp L88-93: does not skip invalid handles. -/
def setAll (mk : Marks) : List Nat → Option Marks
  | [] => some mk
  | x :: xs => match setMk mk x with
    | none => none
    | some mk' => setAll mk' xs

/-- `ElementArray::RemPrivateMarker`, earray.cpp L95-100. -/
def remAll (mk : Marks) : List Nat → Option Marks
  | [] => some mk
  | x :: xs => match remMk mk x with
    | none => none
    | some mk' => remAll mk' xs

/-- `Mesh::SetPrivateMarkerArray`, inmost_mesh.h L2022, and
`ElementSet::SetPrivateMarkerElements`, eset.cpp L209-227: skip invalid handles. -/
def setArr (mk : Marks) : List Nat → Marks
  | [] => mk
  | x :: xs => setArr (if x ≠ 0 then (fun y => if y = x then true else mk y) else mk) xs

/-- `Mesh::RemPrivateMarkerArray`, inmost_mesh.h L2039, and
`ElementSet::RemPrivateMarkerElements`, eset.cpp L247-265: skip invalid handles. -/
def remArr (mk : Marks) : List Nat → Marks
  | [] => mk
  | x :: xs => remArr (if x ≠ 0 then (fun y => if y = x then false else mk y) else mk) xs

/-! ## Element arrays -/

/-- The loop of `ElementArray::Unite`, earray.cpp L14-19, over the operand. -/
def uniteLoop : List Nat → List Nat → Marks → Option (List Nat × Marks)
  | [], c, mk => some (c, mk)
  | x :: hs, c, mk => match getMk mk x with
    | none => none
    | some true => uniteLoop hs c mk
    | some false => match setMk mk x with
      | none => none
      | some mk' => uniteLoop hs (c ++ [x]) mk'

/-- `ElementArray::Unite`, earray.cpp L7-23: array, operand, marker bits before the call;
returns the array and the marker bits after the call. -/
def arrUnite (c hs : List Nat) (mk : Marks) : Option (List Nat × Marks) :=
  if c = [] then some (hs, mk)
  else match setAll mk c with
    | none => none
    | some mk1 => match uniteLoop hs c mk1 with
      | none => none
      | some (c', mk2) => match remAll mk2 c' with
        | none => none
        | some mk3 => some (c', mk3)

/-- The in-place compaction loop, earray.cpp L35-42 (`want = false`) and L59-66
(`want = true`): keeps the elements whose marker equals `want`. -/
def compact (mk : Marks) (want : Bool) (c : List Nat) (m n : Nat) : Option (List Nat) :=
  if h : m < c.length then
    match getMk mk c[m] with
    | none => none
    | some b =>
      if b = want then compact mk want (c.set n c[m]) (m + 1) (n + 1)
      else compact mk want c (m + 1) n
  else some (c.take n)
termination_by c.length - m
decreasing_by all_goals (try simp only [List.length_set]); all_goals omega

/-- `ElementArray::Subtract`, earray.cpp L25-48. -/
def arrSubtract (c hs : List Nat) (mk : Marks) : Option (List Nat × Marks) :=
  if c = [] then some (c, mk)
  else match compact (setArr mk hs) false c 0 0 with
    | none => none
    | some c' => some (c', remArr (setArr mk hs) hs)

/-- `ElementArray::Intersect`, earray.cpp L49-72. -/
def arrIntersect (c hs : List Nat) (mk : Marks) : Option (List Nat × Marks) :=
  if c = [] then some (c, mk)
  else match compact (setArr mk hs) true c 0 0 with
    | none => none
    | some c' => some (c', remArr (setArr mk hs) hs)

/-! ## Element sets -/

/-- `ElementSet::ComparatorType`, inmost_mesh.h L974-979. -/
inductive Cmp | unsorted | globalID | centroid | hierarchy | handle
deriving DecidableEq, Repr

/-- `LowConn` of a set, the holes of `HighConn` (back of the array first), `hSorted` and
the comparator tag. -/
structure ESet where
  lc : List Nat
  holes : List Nat
  sorted : Nat
  cmp : Cmp
deriving DecidableEq, Repr

/-- A set after `Mesh::CreateSet`, mesh.cpp L1870-1888: no elements, `HighConn` is resized
to the four reserved entries, which are zero. -/
def ESet.empty : ESet := ⟨[], [], 0, .unsorted⟩

/-- Put an element into the hole at the back of `HighConn`, or at the end,
eset.cpp L601-606 and L648-653. -/
def place (s : ESet) (e : Nat) : Option ESet :=
  match s.holes with
  | p :: ps => if p < s.lc.length then some { s with lc := s.lc.set p e, holes := ps } else none
  | [] => some { s with lc := s.lc ++ [e] }

/-- `ElementSet::PutElement` of a set without comparator, eset.cpp L532-549 (the case `UNSORTED_COMPARATOR`). -/
def putElement (s : ESet) (e : Nat) : Option ESet := place s e

/-- `ElementSet::AddElement` of a set without comparator, eset.cpp L588-607. -/
def addElement (s : ESet) (e : Nat) : Option ESet :=
  if e ∈ s.lc then some s else place s e

/-- The loop of `ElementSet::AddElements` of a set without comparator, eset.cpp L644-656. -/
def addLoop (mk : Marks) : List Nat → ESet → Option ESet
  | [], s => some s
  | x :: hs, s => match getMk mk x with
    | none => none
    | some true => addLoop mk hs s
    | some false => match place s x with
      | none => none
      | some s' => addLoop mk hs s'

/-- `ElementSet::AddElements` of a set without comparator, eset.cpp L630-660. -/
def addElements (s : ESet) (hs : List Nat) (mk : Marks) : Option (ESet × Marks) :=
  match addLoop (setArr mk s.lc) hs s with
  | none => none
  | some s' => some (s', remArr (setArr mk s.lc) s'.lc)

/-- The loop of `ElementSet::RemoveElement` of a set without comparator,
eset.cpp L920-926; `i` is the position of the head of the list. -/
def removeAt (e : Nat) : Nat → List Nat → Option (Nat × List Nat)
  | _, [] => none
  | i, x :: xs =>
    if x = e then some (i, 0 :: xs)
    else match removeAt e (i + 1) xs with
      | none => none
      | some (p, ys) => some (p, x :: ys)

/-- `ElementSet::RemoveElement` of a set without comparator, eset.cpp L909-927. -/
def removeElement (s : ESet) (e : Nat) : ESet :=
  match removeAt e 0 s.lc with
  | none => s
  | some (p, lc) => { s with lc := lc, holes := p :: s.holes }

/-- The loops of `RemoveElements` (eset.cpp L966-973), `Subtract` (L1230-1237, L1250-1257)
and `Intersect` (L1270-1277, L1290-1297): the valid entries whose marker equals `want`
become holes; `i` is the position of the head of the list. -/
def eraseLoop (mk : Marks) (want : Bool) : Nat → List Nat → List Nat → List Nat × List Nat
  | _, [], hs => ([], hs)
  | i, x :: xs, hs =>
    if x ≠ 0 ∧ mk x = want then
      let r := eraseLoop mk want (i + 1) xs (i :: hs)
      (0 :: r.1, r.2)
    else
      let r := eraseLoop mk want (i + 1) xs hs
      (x :: r.1, r.2)

/-- The set after one of these loops. -/
def eraseMarked (mk : Marks) (want : Bool) (s : ESet) : ESet :=
  let r := eraseLoop mk want 0 s.lc s.holes
  { s with lc := r.1, holes := r.2 }

/-- `ElementSet::Clear`, eset.cpp L1725-1734 (the removal from the parent is in the tree
model).  The number of sorted elements is not reset. -/
def clearSet (s : ESet) : ESet := { s with lc := [], holes := [], cmp := .unsorted }

/-- `ElementSet::Size`, eset.cpp L1717-1723. -/
def size (s : ESet) : Nat := s.lc.length - s.holes.length

/-- `ElementSet::Empty`, eset.cpp L1709-1715. -/
def isEmpty (s : ESet) : Bool := s.lc.length - s.holes.length == 0

/-- The loop of `ElementSet::iterator::operator++`, eset.cpp L20-23: skip holes. -/
def skipHoles (lc : List Nat) (pos : Nat) : Nat :=
  if h : pos < lc.length then if lc[pos] = 0 then skipHoles lc (pos + 1) else pos else pos
termination_by lc.length - pos

/-- `for(it = s.Begin(); it != s.End(); ++it)`: the handles visited from position `pos` on;
`Begin` is `++iterator(-1)` (eset.cpp L1593-1598), `End` is at `lc.size()` (L1600-1605). -/
def visit (lc : List Nat) (pos : Nat) : List Nat :=
  if h : pos < lc.length then lc[pos] :: visit lc (max (pos + 1) (skipHoles lc (pos + 1))) else []
termination_by lc.length - pos
decreasing_by omega

/-- The elements enumerated by the iterators of a set. -/
def elements (s : ESet) : List Nat := visit s.lc (skipHoles s.lc 0)

/-- `ElementSet::Erase(iterator)`, eset.cpp L1615-1628: the iterator must be at a valid
element (`assert`). -/
def eraseAt (s : ESet) (pos : Nat) : Option ESet :=
  match s.lc[pos]? with
  | none => none
  | some x => if x = 0 then none
    else some { s with lc := s.lc.set pos 0, holes := pos :: s.holes }

/-- The loops of `ElementSet::Union`, eset.cpp L985-992 and L994-1001: append the valid
elements that are not marked and mark them. -/
def appendNew : List Nat → List Nat → Marks → List Nat × Marks
  | [], ret, mk => (ret, mk)
  | x :: xs, ret, mk =>
    if x ≠ 0 ∧ mk x = false then
      appendNew xs (ret ++ [x]) (fun y => if y = x then true else mk y)
    else appendNew xs ret mk

/-- `ElementSet::Union`, eset.cpp L978-1005 (other set) and L1007-1033 (array):
`hs` are the handles stored in the other set, or the array. -/
def unionArr (lc hs : List Nat) (mk : Marks) : Option (List Nat × Marks) :=
  let r1 := appendNew lc [] mk
  let r2 := appendNew hs r1.1 r1.2
  match remAll r2.2 r2.1 with
  | none => none
  | some mk' => some (r2.1, mk')

/-- `ElementSet::Difference`, eset.cpp L1035-1055 and L1057-1077. -/
def differenceArr (lc hs : List Nat) (mk : Marks) : Option (List Nat × Marks) :=
  let r := appendNew lc [] (setArr mk hs)
  match remAll (remArr r.2 hs) r.1 with
  | none => none
  | some mk' => some (r.1, mk')

/-- The loop of `ElementSet::Intersection`, eset.cpp L1087-1094, with the two markers. -/
def appendCommon (mk : Marks) : List Nat → List Nat → Marks → List Nat × Marks
  | [], ret, mk2 => (ret, mk2)
  | x :: xs, ret, mk2 =>
    if x ≠ 0 ∧ mk x = true ∧ mk2 x = false then
      appendCommon mk xs (ret ++ [x]) (fun y => if y = x then true else mk2 y)
    else appendCommon mk xs ret mk2

/-- `ElementSet::Intersection`, eset.cpp L1079-1100 and L1102-1123; returns the array and
both marker bits. -/
def intersectionArr (lc hs : List Nat) (mk mk2 : Marks) : Option (List Nat × Marks × Marks) :=
  let mk1 := setArr mk hs
  let r := appendCommon mk1 lc [] mk2
  match remAll r.2 r.1 with
  | none => none
  | some mk2' => some (r.1, remArr mk1 hs, mk2')

/-! ## Histories -/

/-- The element sets of a mesh and the bit of the first free private marker. -/
structure St where
  sets : Nat → ESet
  mark : Marks

/-- Update of one set. -/
def St.upd (st : St) (s : Nat) (e : ESet) : St :=
  { st with sets := fun t => if t = s then e else st.sets t }

/-- Operations on sets without comparator. -/
inductive Op
  | add (s e : Nat)
  | addMany (s : Nat) (hs : List Nat)
  | remove (s e : Nat)
  | removeMany (s : Nat) (hs : List Nat)
  | subtract (s o : Nat)
  | subtractArr (s : Nat) (hs : List Nat)
  | intersect (s o : Nat)
  | intersectArr (s : Nat) (hs : List Nat)
  | unite (s o : Nat)
  | eraseIt (s : Nat) (pos : Nat)
  | clear (s : Nat)

/-- `RemoveElements`, eset.cpp L957-976, and `Subtract` of an array, L1242-1260:
mark the array, erase, unmark the array. -/
def stEraseArr (st : St) (want : Bool) (s : Nat) (hs : List Nat) : St :=
  let mk1 := setArr st.mark hs
  let st1 := st.upd s (eraseMarked mk1 want (st.sets s))
  { st1 with mark := remArr mk1 hs }

/-- `Subtract` of a set, eset.cpp L1222-1240, and `Intersect` with a set, L1262-1280: mark
the elements of the other set, erase, unmark the elements the other set has then. -/
def stEraseSet (st : St) (want : Bool) (s o : Nat) : St :=
  let mk1 := setArr st.mark (st.sets o).lc
  let st1 := st.upd s (eraseMarked mk1 want (st.sets s))
  { st1 with mark := remArr mk1 (st1.sets o).lc }

/-- One operation. -/
def step (st : St) : Op → Option St
  | .add s e => (addElement (st.sets s) e).map (st.upd s)
  | .addMany s hs => match addElements (st.sets s) hs st.mark with
    | none => none
    | some (e, mk) => some { st.upd s e with mark := mk }
  | .remove s e => some (st.upd s (removeElement (st.sets s) e))
  | .removeMany s hs => some (stEraseArr st true s hs)
  | .subtract s o => some (stEraseSet st true s o)
  | .subtractArr s hs => some (stEraseArr st true s hs)
  | .intersect s o => some (stEraseSet st false s o)
  | .intersectArr s hs => some (stEraseArr st false s hs)
  | .unite s o => match addElements (st.sets s) (st.sets o).lc st.mark with
    | none => none
    | some (e, mk) => some { st.upd s e with mark := mk }
  | .eraseIt s pos => (eraseAt (st.sets s) pos).map (st.upd s)
  | .clear s => some (st.upd s (clearSet (st.sets s)))

/-- A history. -/
def run (st : St) : List Op → Option St
  | [] => some st
  | o :: os => match step st o with
    | none => none
    | some st' => run st' os

/-- All sets empty, no marker forgotten. -/
def St.init : St := ⟨fun _ => .empty, fun _ => false⟩

/-! ## Compaction -/

/-- `while( cend >= 0 && lc[cend] == InvalidHandle() ) --cend;` eset.cpp L1660 and L1672;
the argument is `cend + 1`, the result too. -/
def skipBack (lc : List Nat) : Nat → Nat
  | 0 => 0
  | n + 1 => if lc[n]? = some 0 then skipBack lc n else n + 1

/-- The loop of `ElementSet::ReorderEmpty` of a set without comparator, eset.cpp
L1661-1671; `c` is `cend + 1`.  Indexing outside of the array is `none`.
Simplification: after an element was moved (L1665-1669) the number `cend` is still above the
hole and `lc[cend]` is invalid, so that the next iteration decrements `cend`; the model does
both iterations at once.  As in the source the hole that was filled is not popped. -/
def reorderLoop (lc : List Nat) (holes : List Nat) (c : Nat) : Option (List Nat × Nat) :=
  match c, holes with
  | 0, _ => some (lc, 0)
  | c + 1, [] => some (lc, c + 1)
  | c + 1, p :: ps =>
    if c ≤ p then reorderLoop lc ps (c + 1)
    else match lc[c]? with
      | none => none
      | some x =>
        if x ≠ 0 then reorderLoop ((lc.set p x).set c 0) (p :: ps) c
        else reorderLoop lc (p :: ps) c
termination_by c + holes.length

/-- `ElementSet::ReorderEmpty` of a set without comparator, eset.cpp L1656-1675.  For
`cend = -1` the call `lc.resize(cend)` asks for `2^32 - 1` entries and is `none`. -/
def reorderUnsorted (s : ESet) : Option ESet :=
  match reorderLoop s.lc s.holes (skipBack s.lc s.lc.length) with
  | none => none
  | some (lc, c) => match skipBack lc c with
    | 0 => none
    | cend + 1 => some { s with lc := lc.take cend, holes := [] }

/-- The compaction loops of `ElementSet::ReorderEmpty` of a set with comparator, eset.cpp
L1685-1692 and L1694-1701: positions from `i` up to `last`, `j` is the next position to fill.
The entry is invalidated after it was copied, also if it was copied onto itself. -/
def shiftLoop (lc : List Nat) (i last j : Nat) : Option (List Nat × Nat) :=
  if i < last then
    match lc[i]? with
    | none => none
    | some x =>
      if x ≠ 0 then shiftLoop ((lc.set j x).set i 0) (i + 1) last (j + 1)
      else shiftLoop lc (i + 1) last j
  else some (lc, j)
termination_by last - i

/-- `ElementSet::ReorderEmpty` of a set with comparator, eset.cpp L1677-1706. -/
def reorderSorted (s : ESet) : Option ESet :=
  if s.holes = [] then some s
  else match shiftLoop s.lc 0 s.sorted 0 with
    | none => none
    | some (lc1, j1) => match shiftLoop lc1 s.sorted lc1.length j1 with
      | none => none
      | some (lc2, j2) => some { s with lc := lc2.take j2, holes := [], sorted := j1 }

/-- `ElementSet::ReorderEmpty`, eset.cpp L1651-1707. -/
def reorderEmpty (s : ESet) : Option ESet :=
  if s.cmp = .unsorted then reorderUnsorted s else reorderSorted s

end Verif.Sets
