import Verif.Sets.SortedModel

/-!
# Model of the union of sorted sets and of additions of arrays of elements

Source: `/repo/Source/Mesh/eset.cpp` L1126-1213 (`Unite` of sets with the same comparator), L721-783, L784-844 and L845-905
(`AddElements` of sets sorted by global numbers, by hierarchy and by centroids) and L559-586 (`PutElements`).

The comparison of two elements is a parameter.  The private marker is new in each of these functions and is set on exactly
the elements written to `merge`: "marked" is membership in what was written.  Handle 0 is `InvalidHandle()`.
-/

namespace Verif.Sets

/-- "now insertion checks for duplicates", eset.cpp L1145-1175, L733-751 and L796-812: `out` is what was written; the result is what is
written at the end and what is left of both ranges. -/
def mergeMarked (lt : Nat → Nat → Bool) (out it jt : List Nat) : List Nat × List Nat × List Nat :=
  match it, jt with
  | [], jt => (out, [], jt)
  | x :: it, [] => (out, x :: it, [])
  | x :: it, y :: jt =>
    if x = 0 ∨ x ∈ out then mergeMarked lt out it (y :: jt)
    else if y = 0 ∨ y ∈ out then mergeMarked lt out (x :: it) jt
    else if lt x y then mergeMarked lt (out ++ [x]) it (y :: jt)
    else mergeMarked lt (out ++ [y]) (x :: it) jt
termination_by it.length + jt.length

/-- The same loop for sets sorted by centroids, eset.cpp L857-873: after an element of the second range is written the
iterator of the first range is increased (L871). -/
def mergeSlip (lt : Nat → Nat → Bool) (out it jt : List Nat) : List Nat × List Nat × List Nat :=
  match it, jt with
  | [], jt => (out, [], jt)
  | x :: it, [] => (out, x :: it, [])
  | x :: it, y :: jt =>
    if x = 0 ∨ x ∈ out then mergeSlip lt out it (y :: jt)
    else if y = 0 ∨ y ∈ out then mergeSlip lt out (x :: it) jt
    else if lt x y then mergeSlip lt (out ++ [x]) it (y :: jt)
    else mergeSlip lt (out ++ [y]) it (y :: jt)
termination_by it.length + jt.length

/-- "attach rest" and "attach unsorted part", eset.cpp L1177-1190, L1194-1204 and the same loops of `AddElements`: up to the first
invalid handle or marked element; what is written and what is left. -/
def attachMarked (out : List Nat) : List Nat → List Nat × List Nat
  | [] => (out, [])
  | x :: it => if x ≠ 0 ∧ x ∉ out then attachMarked (out ++ [x]) it else (out, x :: it)

/-- `ElementSet::Unite(const ElementSet &)` of two sets with the same comparator, eset.cpp L1134-1212.  `none`: a sorted part that is
longer than the array.  (With different comparators, or without, it is `AddElements`, L1132-1133.) -/
def uniteSorted (lt : Nat → Nat → Bool) (s o : ESet) : Option ESet :=
  if s.lc.length < s.sorted ∨ o.lc.length < o.sorted then none
  else
    let r := mergeMarked lt [] (s.lc.take s.sorted) (o.lc.take o.sorted)
    let a := attachMarked r.1 r.2.1
    let b := attachMarked a.1 r.2.2
    let c := attachMarked b.1 (a.2 ++ s.lc.drop s.sorted)
    let d := attachMarked c.1 (b.2 ++ o.lc.drop o.sorted)
    some { s with lc := d.1, holes := [], sorted := b.1.length }

/-- The end of `AddElements`, eset.cpp L752-781, L813-842 and L874-903, from the result of the loop that merges. -/
def finishAdd (s : ESet) (r : List Nat × List Nat × List Nat) : ESet :=
  let a := attachMarked r.1 r.2.1
  let b := attachMarked a.1 r.2.2
  let c := attachMarked b.1 (a.2 ++ s.lc.drop s.sorted)
  { s with lc := c.1, holes := [], sorted := b.1.length }

/-- `ElementSet::AddElements` of a set sorted by global numbers or by hierarchy, eset.cpp L721-783 and L784-844, after sorting
the input. -/
def addMerge (lt : Nat → Nat → Bool) (s : ESet) (input : List Nat) : Option ESet :=
  if s.lc.length < s.sorted then none
  else some (finishAdd s (mergeMarked lt [] (s.lc.take s.sorted) input))

/-- `ElementSet::AddElements` of a set sorted by centroids, eset.cpp L845-905, after sorting the input. -/
def addCentroid (lt : Nat → Nat → Bool) (s : ESet) (input : List Nat) : Option ESet :=
  if s.lc.length < s.sorted then none
  else some (finishAdd s (mergeSlip lt [] (s.lc.take s.sorted) input))

/-- `ElementSet::PutElements` of a set without comparator, eset.cpp L566-578: all holes are filled, without a look at the
number of elements; `none` is an access outside of an array. -/
def putElements (s : ESet) : List Nat → Option ESet
  | [] =>
    match s.holes with
    | [] => some s
    | _ :: _ => none
  | e :: hs =>
    match s.holes with
    | [] => some { s with lc := s.lc ++ (e :: hs) }
    | p :: ps => if p < s.lc.length then putElements { s with lc := s.lc.set p e, holes := ps } hs else none

/-- `ElementSet::PutElements` of a set with comparator, eset.cpp L579-585. -/
def putElementsSorted (s : ESet) (hs : List Nat) : ESet := { s with lc := s.lc ++ hs }

end Verif.Sets
