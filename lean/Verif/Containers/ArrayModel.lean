/-!
# Model of the dynamic array container

Models class `array` of `/repo/Source/Headers/container.hpp` L66-472.

The memory of an array is one heap block of cells.  A cell that was allocated but never
written is `none`.  Reading or writing outside the block, and reading an unwritten cell as
an element value, is undefined behaviour and is the outcome `none` of the operation.
The size type is 32-bit unsigned in `growth_formula`; sizes are natural numbers and every
operation has the precondition that sizes do not exceed `2^31` (stated in the theorems).
Elements are passed by value: the aliasing case `a.push_back(a[i])`, in which the source reads
the argument after freeing the old block, is modelled separately (`pushBackAlias`).
-/

namespace Verif.Containers

/-- `growth_formula`, container.hpp L151-164: bit smearing on 32 bits.
(The size type is `unsigned`, L69.) -/
def growthBV (n : BitVec 32) : BitVec 32 :=
  let v := n - 1
  let v := v ||| (v >>> 1)
  let v := v ||| (v >>> 2)
  let v := v ||| (v >>> 4)
  let v := v ||| (v >>> 8)
  let v := v ||| (v >>> 16)
  v + 1

/-- `growth_formula` on numbers. -/
def growth (n : Nat) : Nat := (growthBV (BitVec.ofNat 32 n)).toNat

/-- A heap block: cells, `none` when not yet written. -/
abbrev Block (α : Type) := List (Option α)

/-- The state of an `array`: `m_arr` (`none` is NULL) and `m_size` (L147-148). -/
structure Arr (α : Type) where
  arr : Option (Block α)
  size : Nat
deriving DecidableEq

/-- Default constructor, L203. -/
def Arr.empty (α : Type) : Arr α := ⟨none, 0⟩

/-- `new element[k]`. -/
def newBlock (α : Type) (k : Nat) : Block α := List.replicate k none

/-- `std::copy` / `std::copy_backward` of `n` cells from `src` on to `dst` on inside one block
(the member `copy`, L191-199, picks the direction such that overlapping ranges are copied
correctly).  Outside the block: undefined. -/
def moveCells (b : Block α) (src n dst : Nat) : Option (Block α) :=
  if src + n ≤ b.length ∧ dst + n ≤ b.length then
    some (b.take dst ++ (b.drop src).take n ++ b.drop (dst + n))
  else none

/-- `if( s ) copy(m_arr+src,m_arr+src+s,m_arr+dst)`, as in L352, L366, L388, L411, L435, L461. -/
def moveIf (b : Block α) (src s dst : Nat) : Option (Block α) :=
  if s ≠ 0 then moveCells b src s dst else some b

/-- `std::copy` of given values into a block at `dst`. -/
def writeCells (b : Block α) (dst : Nat) (xs : List α) : Option (Block α) :=
  if dst + xs.length ≤ b.length then
    some (b.take dst ++ xs.map some ++ b.drop (dst + xs.length))
  else none

/-- `realloc`, L166-181.  A NULL pointer may be passed with size 0. -/
def reallocArr (p : Option (Block α)) (old new : Nat) : Option (Option (Block α)) :=
  if growth new ≠ growth old then
    let tmp := newBlock α (growth new)
    let k := min old new
    let src : Block α := p.getD []
    if k ≤ src.length ∧ k ≤ tmp.length then
      some (some (src.take k ++ tmp.drop k))
    else none
  else some p

/-- `alloc`, L182-190. -/
def allocArr (α : Type) (n : Nat) : Block α := newBlock α (growth n)

/-- Constructor with a fill value, L204-209. -/
def Arr.mkFill (n : Nat) (c : α) : Option (Arr α) :=
  (writeCells (allocArr α n) 0 (List.replicate n c)).map fun b => ⟨some b, n⟩

/-- Constructor from a range, L210-216 (also the copy constructor L217-226 for nonempty
sources). -/
def Arr.mkRange (xs : List α) : Option (Arr α) :=
  (writeCells (allocArr α xs.length) 0 xs).map fun b => ⟨some b, xs.length⟩

/-- `clear`, L322-327. -/
def Arr.clear (_ : Arr α) : Arr α := ⟨none, 0⟩

/-- Read of element `n`, L228-247: asserts `n < m_size`. -/
def Arr.get (a : Arr α) (n : Nat) : Option α :=
  if n < a.size then
    match a.arr with
    | none => none
    | some b => (b[n]?).join
  else none

/-- Assignment to `a[n]`, L233-237: asserts `n < m_size`. -/
def Arr.set (a : Arr α) (n : Nat) (x : α) : Option (Arr α) :=
  if n < a.size then
    match a.arr with
    | none => none
    | some b => (writeCells b n [x]).map fun b => ⟨some b, a.size⟩
  else none

/-- `push_back`, L268-272. -/
def Arr.pushBack (a : Arr α) (e : α) : Option (Arr α) := do
  let p ← reallocArr a.arr a.size (a.size + 1)
  let b ← p
  let b ← writeCells b a.size [e]
  return ⟨some b, a.size + 1⟩

/-- `push_back(a[i])`, L268-272 with an argument that refers into the array itself: the
reference is read after the old block was freed if reallocation took place. -/
def Arr.pushBackAlias (a : Arr α) (i : Nat) : Option (Arr α) := do
  let e ← a.get i
  if growth (a.size + 1) ≠ growth a.size then none else a.pushBack e

/-- `pop_back`, L273-282: asserts `m_arr != NULL`. -/
def Arr.popBack (a : Arr α) : Option (Arr α) := do
  let _ ← a.arr
  if a.size > 0 then
    let p ← reallocArr a.arr a.size (a.size - 1)
    return ⟨p, a.size - 1⟩
  else return a.clear

/-- `resize`, L309-319. -/
def Arr.resize (a : Arr α) (n : Nat) (c : α) : Option (Arr α) := do
  if n > 0 then
    let p ← reallocArr a.arr a.size n
    let b ← p
    if a.size < n then
      let b ← writeCells b a.size (List.replicate (n - a.size) c)
      return ⟨some b, n⟩
    else return ⟨some b, n⟩
  else return a.clear

/-- `erase(pos)`, L345-357, with `pos = begin()+d`. -/
def Arr.erase (a : Arr α) (d : Nat) : Option (Arr α) := do
  if d < a.size then
    let b ← a.arr
    let s := a.size - 1 - d
    if a.size - 1 > 0 then
      let b ← moveIf b (d + 1) s d
      let p ← reallocArr (some b) (a.size - 1 + 1) (a.size - 1)
      return ⟨p, a.size - 1⟩
    else return a.clear
  else none

/-- `erase(b,e)`, L358-372, with `b = begin()+d`, `e = begin()+d+n`. -/
def Arr.eraseRange (a : Arr α) (d n : Nat) : Option (Arr α) := do
  if d + n ≤ a.size then
    let s := a.size - (d + n)
    if a.size - n > 0 then
      let b ← a.arr
      let b ← moveIf b (d + 1) s d
      let p ← reallocArr (some b) (a.size - n + n) (a.size - n)
      return ⟨p, a.size - n⟩
    else return a.clear
  else none

/-- `insert(pos,x)`, L373-393, with `pos = begin()+d`. -/
def Arr.insert (a : Arr α) (d : Nat) (x : α) : Option (Arr α) := do
  if d ≤ a.size then
    match a.arr with
    | none =>
      let b ← writeCells (allocArr α 1) 0 [x]
      return ⟨some b, 1⟩
    | some _ =>
      let s := a.size - d
      let p ← reallocArr a.arr a.size (a.size + 1)
      let b ← p
      let b ← moveIf b d s (d + 1)
      let b ← writeCells b d [x]
      return ⟨some b, a.size + 1⟩
  else none

/-- `insert(pos,first,last)`, L416-439; `insert(pos,n,x)`, L394-415, is the case of `n`
copies of `x`. -/
def Arr.insertRange (a : Arr α) (d : Nat) (xs : List α) : Option (Arr α) := do
  if d ≤ a.size then
    let n := xs.length
    if n > 0 then
      match a.arr with
      | none =>
        let b ← writeCells (allocArr α n) 0 xs
        return ⟨some b, n⟩
      | some _ =>
        let s := a.size - d
        let p ← reallocArr a.arr a.size (a.size + n)
        let b ← p
        let b ← moveIf b d s (d + n)
        let b ← writeCells b d xs
        return ⟨some b, a.size + n⟩
    else return a
  else none

/-- `replace(m_first,m_last,first,last)`, L440-465, with `m_first = begin()+d`,
`m_last = begin()+d+q`. -/
def Arr.replace (a : Arr α) (d q : Nat) (xs : List α) : Option (Arr α) := do
  if d + q ≤ a.size then
    let n := xs.length
    match a.arr with
    | none =>
      let b ← writeCells (allocArr α n) 0 xs
      return ⟨some b, n⟩
    | some b0 =>
      let s := a.size - (d + q)
      if n ≠ q then
        let newSize := a.size + n - q
        let p ← reallocArr (some b0) a.size newSize
        let b ← p
        let b ← moveIf b (d + q) s (d + n)
        let b ← writeCells b d xs
        return ⟨some b, newSize⟩
      else
        let b ← writeCells b0 d xs
        return ⟨some b, a.size⟩
  else none

/-- `assign(first,last)`, L466-470. -/
def Arr.assign (a : Arr α) (xs : List α) : Option (Arr α) := a.replace 0 a.size xs

/-- Operations of the container (argument: index of the iterator in the sequence). -/
inductive ArrOp (α : Type) where
  | set (n : Nat) (x : α)
  | pushBack (x : α)
  | popBack
  | resize (n : Nat) (c : α)
  | clear
  | erase (d : Nat)
  | eraseRange (d n : Nat)
  | insert (d : Nat) (x : α)
  | insertRange (d : Nat) (xs : List α)
  | replace (d q : Nat) (xs : List α)
  | assign (xs : List α)

/-- Execution of one operation. -/
def ArrOp.exec (a : Arr α) : ArrOp α → Option (Arr α)
  | .set n x => a.set n x
  | .pushBack x => a.pushBack x
  | .popBack => a.popBack
  | .resize n c => a.resize n c
  | .clear => some a.clear
  | .erase d => a.erase d
  | .eraseRange d n => a.eraseRange d n
  | .insert d x => a.insert d x
  | .insertRange d xs => a.insertRange d xs
  | .replace d q xs => a.replace d q xs
  | .assign xs => a.assign xs

/-- Execution of a history. -/
def runArr (a : Arr α) : List (ArrOp α) → Option (Arr α)
  | [] => some a
  | op :: ops => match op.exec a with
    | none => none
    | some a' => runArr a' ops

end Verif.Containers
