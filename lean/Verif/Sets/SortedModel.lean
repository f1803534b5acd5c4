import Verif.Sets.Model
import Verif.Sort.Model

/-!
# Model of element sets with a comparator

Models the branches for `HANDLE_COMPARATOR` of the functions of
`/repo/Source/Mesh/eset.cpp` that add, remove and look up elements, and `SortSet` for
`HANDLE_COMPARATOR`, `GLOBALID_COMPARATOR` and `UNSORTED_COMPARATOR`.  `hSorted` is the length
of the sorted part of a set, behind it are the elements added by `PutElement`.

Not modelled: `CENTROID_COMPARATOR` and `HIERARCHY_COMPARATOR`.
-/

namespace Verif.Sets

open Verif.Sort (SortHandles SortByGlobalID)

/-- `std::lower_bound` as implemented by libstdc++ and libc++: `less i` is the comparison of
the element at position `i` with the value.  On ranges that are not partitioned by the
comparison the standard does not say what happens; the model does what these libraries do. -/
def lowerBound (less : Nat → Bool) (first len : Nat) : Nat :=
  if len = 0 then first
  else if less (first + len / 2) then lowerBound less (first + len / 2 + 1) (len - len / 2 - 1)
  else lowerBound less first (len / 2)
termination_by len
decreasing_by all_goals omega

/-- `std::lower_bound(lc.begin(),lc.begin()+sorted,e)` as a position. -/
def findPos (s : ESet) (e : Nat) : Nat :=
  lowerBound (fun i => decide (s.lc.getD i 0 < e)) 0 s.sorted

/-- `ElementSet::PutElement` of a set with comparator, eset.cpp L550-555. -/
def putSorted (s : ESet) (e : Nat) : ESet := { s with lc := s.lc ++ [e] }

/-- `ElementSet::AddElement` of a set with comparator, eset.cpp L608-627.  The positions of
holes in `HighConn` are not adjusted. -/
def addSorted (s : ESet) (e : Nat) : ESet :=
  let p := findPos s e
  if p ≠ s.sorted ∧ s.lc[p]? = some e then s
  else { s with lc := s.lc.take p ++ e :: s.lc.drop p, sorted := s.sorted + 1 }

/-- The loop over the unsorted part in `RemoveElement`, eset.cpp L949-954: positions from `i`
on, it does not stop at the first match. -/
def removeTail (e : Nat) : List Nat → Nat → List Nat → List Nat × List Nat
  | [], _, hs => ([], hs)
  | x :: xs, i, hs =>
    if x = e then
      let r := removeTail e xs (i + 1) (i :: hs)
      (0 :: r.1, r.2)
    else
      let r := removeTail e xs (i + 1) hs
      (x :: r.1, r.2)

/-- `ElementSet::RemoveElement` of a set with comparator, eset.cpp L928-954. -/
def removeSorted (s : ESet) (e : Nat) : ESet :=
  let p := findPos s e
  if p ≠ s.sorted then
    if s.lc[p]? = some e then { s with lc := s.lc.set p 0, holes := p :: s.holes } else s
  else
    let r := removeTail e (s.lc.drop s.sorted) s.sorted s.holes
    { s with lc := s.lc.take s.sorted ++ r.1, holes := r.2 }

/-- `ElementSet::FindHandle(h,true)` of a set with comparator, eset.cpp L1533-1544. -/
def findHandle (s : ESet) (e : Nat) : Bool :=
  let p := findPos s e
  if p ≠ s.sorted then s.lc[p]? == some e
  else (s.lc.drop s.sorted).any (· == e)

/-! ## AddElements -/

/-- "insert first element", eset.cpp L672-678: what is written, and the rest of both lists. -/
def mergeFirst (it jt : List Nat) : List Nat × List Nat × List Nat :=
  match it, jt with
  | [], jt => ([], [], jt)
  | x :: it, [] => ([], x :: it, [])
  | x :: it, y :: jt =>
    if x = 0 then mergeFirst it (y :: jt)
    else if y = 0 then mergeFirst (x :: it) jt
    else if x < y then ([x], it, y :: jt)
    else ([y], x :: it, jt)
termination_by it.length + jt.length

/-- "now insertion checks for duplicates", eset.cpp L680-686: what is written, the rest of both
lists, and `*mitprev`. -/
def mergeRest (prev : Nat) (it jt : List Nat) : List Nat × List Nat × List Nat × Nat :=
  match it, jt with
  | [], jt => ([], [], jt, prev)
  | x :: it, [] => ([], x :: it, [], prev)
  | x :: it, y :: jt =>
    if x = 0 ∨ x = prev then mergeRest prev it (y :: jt)
    else if y = 0 ∨ y = prev then mergeRest prev (x :: it) jt
    else if x < y then
      let r := mergeRest x it (y :: jt)
      (x :: r.1, r.2)
    else
      let r := mergeRest y (x :: it) jt
      (y :: r.1, r.2)
termination_by it.length + jt.length

/-- "attach rest", eset.cpp L688-694 and L695-701: the loop ends at the first invalid handle
and at the first element equal to the one before. -/
def attach (prev : Nat) : List Nat → List Nat × List Nat × Nat
  | [] => ([], [], prev)
  | x :: it =>
    if x ≠ 0 ∧ x ≠ prev then
      let r := attach x it
      (x :: r.1, r.2)
    else ([], x :: it, prev)

/-- "attach unsorted part with control for duplicates", eset.cpp L704-711, from where the
first list was left.  The marker is set on the elements merged so far. -/
def attachTail (out : List Nat) : List Nat → List Nat
  | [] => out
  | x :: it => if x ≠ 0 ∧ x ∉ out then attachTail (out ++ [x]) it else out

/-- The result of the three merging stages and the part of the first list that is left. -/
def mergeAll (prev : Nat) (it jt : List Nat) : List Nat × List Nat :=
  let r := mergeRest prev it jt
  let a := attach r.2.2.2 r.2.1
  let b := attach a.2.2 r.2.2.1
  (r.1 ++ a.1 ++ b.1, a.2.1)

/-- `ElementSet::AddElements` of a set sorted by handles, eset.cpp L661-719, after sorting the
input.  `*mitprev` before the first insertion is the zero the new array is filled with. -/
def mergeInto (s : ESet) (input : List Nat) : ESet :=
  let f := mergeFirst (s.lc.take s.sorted) input
  let m := mergeAll (f.1.headD 0) f.2.1 f.2.2
  let sorted := f.1 ++ m.1
  { s with lc := attachTail sorted (m.2 ++ s.lc.drop s.sorted), holes := [],
           sorted := sorted.length }

/-- `ElementSet::AddElements` of a set sorted by handles: `s'` is a possible result. -/
def AddElementsHandle (w : Nat) (s : ESet) (hs : List Nat) (s' : ESet) : Prop :=
  ∃ input, SortHandles w hs input ∧ s' = mergeInto s input

/-! ## SortSet -/

/-- The merge of the two parts in `SortSet`, eset.cpp L1344-1353 and L1422-1431: what is
written to `temp`. -/
def mergeParts (less : Nat → Nat → Bool) (it jt : List Nat) : List Nat :=
  match it, jt with
  | [], jt => jt.takeWhile (· ≠ 0)
  | x :: it, [] => (x :: it).takeWhile (· ≠ 0)
  | x :: it, y :: jt =>
    if x = 0 then mergeParts less it (y :: jt)
    else if y = 0 then mergeParts less (x :: it) jt
    else if less x y then x :: mergeParts less it (y :: jt)
    else y :: mergeParts less (x :: it) jt
termination_by it.length + jt.length

/-- The end of `SortSet` once the part from `hSorted` on is sorted: merge, the assertion on
the number of invalid handles (L1354-1355, L1432-1433), cut them, eset.cpp L1441-1449. -/
def finishSort (less : Nat → Nat → Bool) (c : Cmp) (s : ESet) (lc : List Nat) : Option ESet :=
  let n := lc.length - s.holes.length
  if 0 < s.sorted then
    let t := mergeParts less (lc.take s.sorted) (lc.drop s.sorted)
    if lc.length - t.length = s.holes.length then
      some ⟨(t ++ List.replicate (lc.length - t.length) 0).take n, [], n, c⟩
    else none
  else some ⟨lc.take n, [], n, c⟩

/-- "move invalid handles to the end", eset.cpp L1326-1334; positions from `i` on, `j` is the
next position to fill, `k` the number of invalid handles.  `j` starts at 0, not at
`start`. -/
def moveInvalid (lc : List Nat) (i j k : Nat) : List Nat × Nat :=
  if h : i < lc.length then
    if lc[i] ≠ 0 then moveInvalid ((lc.set j lc[i]).set i 0) (i + 1) (j + 1) k
    else moveInvalid lc (i + 1) j (k + 1)
  else (lc, k)
termination_by lc.length - i
decreasing_by all_goals (try simp only [List.length_set]); all_goals omega

/-- `ElementSet::SortSet`, eset.cpp L1308-1450: `r` is a possible outcome, `none` stands for
undefined behaviour or a failed assertion.  `hSorted` may exceed the length because `Clear`
does not reset it. -/
def SortSet (w : Nat) (gid : Nat → Int) (c : Cmp) (s : ESet) (r : Option ESet) : Prop :=
  match c with
  | .unsorted => r = some { s with sorted := 0, cmp := .unsorted }
  | .handle =>
    if s.sorted ≤ s.lc.length then
      ∃ p, SortHandles w (s.lc.drop s.sorted) p ∧
        r = finishSort (fun x y => decide (x < y)) .handle s (s.lc.take s.sorted ++ p)
    else r = none
  | .globalID =>
    if s.sorted ≤ s.lc.length then
      let m := if s.holes ≠ [] then moveInvalid s.lc s.sorted 0 0 else (s.lc, 0)
      let num := s.lc.length - s.sorted - m.2
      ∃ p, SortByGlobalID w gid ((m.1.drop s.sorted).take num) p ∧
        r = finishSort (fun x y => decide (gid x < gid y)) .globalID s
          (m.1.take s.sorted ++ p ++ m.1.drop (s.sorted + num))
    else r = none
  | _ => False

end Verif.Sets
