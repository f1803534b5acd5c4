/-
Model of the binary heaps of `Source/Misc/utils.h` (`BinaryHeap`, lines 36-122, and
`BinaryHeapCustom`, lines 124-226).  `BinaryHeapDense` of `Source/Headers/inmost_dense.h`,
lines 4689-4768, is the same text as `BinaryHeap` without `PeekHeap`, `Size` and `Empty`.

The vectors `heap` and `index` and the array of keys are functions on positions.  The
constructor makes `heap` and `index` of length `size_max+1`, and the keys have length
`size_max` (the caller's array in `BinaryHeap`, lines 74-77; `keys.resize(size_max)` in
`BinaryHeapCustom`, line 167).  A call that would leave these arrays is `none`; the loops
`bubbleUp` and `bubbleDown` only look at positions up to `size` (see the comments there).
`ENUMUNDEF` in `index` is `none`.
-/

namespace Verif.Heap

/-- `ENUMUNDEF`, the value left in a slot of `heap` that was given up (utils.h, line 99). -/
def undef : Nat := 4294967295

/-- The three comparisons of keys made by the loops.  In `BinaryHeap`: utils.h line 53
(`keys[heap[k/2]] > keys[heap[k]]`), line 65 (`keys[heap[j]] > keys[heap[j+1]]`) and line 67
(`keys[heap[k]] <= keys[heap[j]]`).  In `BinaryHeapCustom`: lines 142, 154, 156. -/
structure Cmp (R : Type) where
  /-- The upward loop goes on: key of the parent, key of the child. -/
  above : R → R → Bool
  /-- The second child is taken: key of the first child, key of the second one. -/
  right : R → R → Bool
  /-- The downward loop stops: key of the parent, key of the child. -/
  stop : R → R → Bool

/-- Comparisons of `BinaryHeap` (utils.h, lines 53, 65, 67). -/
def Cmp.plain {R : Type} [LE R] [LT R] [DecidableLE R] [DecidableLT R] : Cmp R where
  above p c := decide (p > c)
  right a b := decide (a > b)
  stop p c := decide (p ≤ c)

/-- Comparisons of `BinaryHeapCustom` with the comparator `less` (utils.h, lines 142, 154,
156). -/
def Cmp.custom {R : Type} (less : R → R → Bool) : Cmp R where
  above p c := !less p c
  right a b := !less a b
  stop p c := less p c

/-- The fields of `BinaryHeap` (utils.h, lines 38-41). -/
structure State (R : Type) where
  sizeMax : Nat
  size : Nat
  heap : Nat → Nat
  index : Nat → Option Nat
  keys : Nat → R

/-- Assignment to one cell of an array. -/
def put {α : Type} (f : Nat → α) (i : Nat) (v : α) : Nat → α :=
  fun j => if j = i then v else f j

variable {R : Type}

/-- `swap` (utils.h, lines 43-50; 132-139). -/
def swap (s : State R) (i j : Nat) : State R :=
  let t := s.heap i
  let h := put (put s.heap i (s.heap j)) j t
  { s with heap := h, index := put (put s.index (h i) (some i)) (h j) (some j) }

/-- Key of the item in a slot: `keys[heap[k]]`. -/
def State.at (s : State R) (k : Nat) : R := s.keys (s.heap k)

/-- `bubbleUp` (utils.h, lines 51-58; 140-147).  Slots read: `k` and `k/2 ≥ 1`. -/
def bubbleUp (c : Cmp R) (s : State R) (k : Nat) : State R :=
  if _h : 1 < k then
    if c.above (s.at (k / 2)) (s.at k) then bubbleUp c (swap s k (k / 2)) (k / 2) else s
  else s
termination_by k
decreasing_by omega

/-- The child chosen by `bubbleDown` (utils.h, lines 64-66; 153-155).  Slots read: `2k ≤ size`,
and `2k+1` only when `2k < size`. -/
def child (c : Cmp R) (s : State R) (k : Nat) : Nat :=
  if 2 * k < s.size ∧ c.right (s.at (2 * k)) (s.at (2 * k + 1)) = true then 2 * k + 1 else 2 * k

/-- `bubbleDown` (utils.h, lines 59-72; 148-161).  The slot 0 is not used by the heap, so the
loop is never entered with `k = 0`; with it the loop of the code would not advance, and the
model stops. -/
def bubbleDown (c : Cmp R) (s : State R) (k : Nat) : State R :=
  if _h : 2 * k ≤ s.size ∧ 0 < k then
    if c.stop (s.at k) (s.at (child c s k)) then s
    else bubbleDown c (swap s k (child c s k)) (child c s k)
  else s
termination_by s.size - k
decreasing_by
  have : (swap s k (child c s k)).size = s.size := rfl
  rw [this]
  have : k < child c s k := by unfold child; split <;> omega
  omega

/-- The constructor (utils.h, lines 74-83; 163-172). -/
def make (len : Nat) (keys : Nat → R) : State R where
  sizeMax := len
  size := 0
  heap := fun _ => 0
  index := fun _ => none
  keys := keys

/-- `PushHeap` (utils.h, lines 84-91; 173-180).  `heap[size]` needs `size ≤ size_max` after the
increment, `keys[i]` needs `i < size_max`. -/
def pushHeap (c : Cmp R) (s : State R) (i : Nat) (key : R) : Option (State R) :=
  if s.size + 1 ≤ s.sizeMax ∧ i < s.sizeMax then
    let n := s.size + 1
    some (bubbleUp c { s with size := n, index := put s.index i (some n),
                              heap := put s.heap n i, keys := put s.keys i key } n)
  else none

/-- `PopHeap` (utils.h, lines 92-101; 181-190); `none` in the second component is the result
`ENUMUNDEF`. -/
def popHeap (c : Cmp R) (s : State R) : State R × Option Nat :=
  if s.size = 0 then (s, none)
  else
    let min := s.heap 1
    let s1 := swap s 1 s.size
    let s2 := bubbleDown c { s1 with size := s.size - 1 } 1
    ({ s2 with index := put s2.index min none, heap := put s2.heap (s2.size + 1) undef },
      some min)

/-- `PeekHeap` (utils.h, lines 102-106; 191-195). -/
def peekHeap (s : State R) : Option Nat :=
  if s.size = 0 then none else some (s.heap 1)

/-- `DecreaseKey` (utils.h, lines 107-111; 196-200).  For an item that is not in the heap the
loop would start from the slot `ENUMUNDEF`, outside of the array. -/
def decreaseKey (c : Cmp R) (s : State R) (i : Nat) (key : R) : Option (State R) :=
  if i < s.sizeMax then
    match s.index i with
    | some p => some (bubbleUp c { s with keys := put s.keys i key } p)
    | none => none
  else none

/-- `BinaryHeapCustom::IncreaseKey` (utils.h, lines 201-205).  For an item that is not in the
heap `2*ENUMUNDEF` is computed modulo the word and is above `size`, so the loop is not
entered. -/
def increaseKey (c : Cmp R) (s : State R) (i : Nat) (key : R) : Option (State R) :=
  if i < s.sizeMax then
    match s.index i with
    | some p => some (bubbleDown c { s with keys := put s.keys i key } p)
    | none => some { s with keys := put s.keys i key }
  else none

/-- `BinaryHeapCustom::ChangeKey` (utils.h, lines 206-213): the new key is stored first and
is then compared with itself. -/
def changeKey (less : R → R → Bool) (s : State R) (i : Nat) (key : R) : Option (State R) :=
  if i < s.sizeMax then
    match s.index i with
    | some p =>
      let s1 := { s with keys := put s.keys i key }
      if !less (s1.keys i) key then some (bubbleUp (Cmp.custom less) s1 p)
      else some (bubbleDown (Cmp.custom less) s1 p)
    | none => none
  else none

/-- One turn of the loop of `BinaryHeap::Clear` (utils.h, line 114): the key of the item taken
out becomes the largest real. -/
def clearOne (c : Cmp R) (top : R) (s : State R) : State R :=
  match popHeap c s with
  | (s1, some i) => { s1 with keys := put s1.keys i top }
  | (s1, none) => s1

/-- `BinaryHeap::Clear` (utils.h, lines 112-115), `n` turns. -/
def clearLoop (c : Cmp R) (top : R) : Nat → State R → State R
  | 0, s => s
  | n + 1, s => clearLoop c top n (clearOne c top s)

/-- `BinaryHeap::Clear` (utils.h, lines 112-115): every turn takes one item out, so there are
`size` turns. -/
def clear (c : Cmp R) (top : R) (s : State R) : State R := clearLoop c top s.size s

/-- `BinaryHeapCustom::Clear` (utils.h, lines 216-219), `n` turns. -/
def clearCustom (c : Cmp R) : Nat → State R → State R
  | 0, s => s
  | n + 1, s => clearCustom c n (popHeap c s).1

/-- `Contains` (utils.h, lines 116-119; 220-223); `index` has length `size_max+1`. -/
def contains (s : State R) (i : Nat) : Option Bool :=
  if i ≤ s.sizeMax then some (s.index i).isSome else none

end Verif.Heap
