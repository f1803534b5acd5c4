import Verif.Dense.Loops

/-!
# Model of the conversion of integers in binary files, `io_converter` in Source/IO/io.hpp

A byte is a number below 256; `temp` (255 bytes, L91) is a function of the index.  Sizes are below 255.
-/

namespace Verif.Binary

open Verif.Dense (forRange updV)

/-- `iByteOrder`, io.hpp L84, without `iUnknown`. -/
inductive Order
  | little | big | middle
  deriving DecidableEq, Repr

/-- Exchange of two elements: `t = temp[i]; temp[i] = temp[j]; temp[j] = t`. -/
def exchange (temp : Nat → Nat) (i j : Nat) : Nat → Nat :=
  let t := temp i
  let temp := updV temp i (temp j)
  updV temp j t

/-- `flip_bytes(size)`, L92-100. -/
def flipBytes (size : Nat) (temp : Nat → Nat) : Nat → Nat :=
  forRange 0 (size >>> 1) (fun i temp => exchange temp i (size - 1 - i)) temp

/-- `for(k = 0; k < size; k+=2)` exchange of neighbours, L136-141 and L147-152: `(size + 1) / 2` passes. -/
def swapPairs (size : Nat) (temp : Nat → Nat) : Nat → Nat :=
  forRange 0 ((size + 1) / 2) (fun q temp => exchange temp (2 * q) (2 * q + 1)) temp

/-- `input & (BigEndian | LittleEndian)` -/
def Order.plain : Order → Bool
  | .little => true
  | .big => true
  | .middle => false

/-- `convert_endianess(size, input, output)`, L128-155. -/
def convertEndianess (size : Nat) (input output : Order) (temp : Nat → Nat) : Nat → Nat :=
  if input ≠ output then
    if input.plain && output.plain then flipBytes size temp
    else if input = .middle then
      let temp := swapPairs size temp
      if output = .little then flipBytes size temp else temp
    else if output = .middle then
      let temp := if input = .little then flipBytes size temp else temp
      swapPairs size temp
    else temp
  else temp

/-- The loop L489-490 for a reader that is not little-endian: `i` is an unsigned char, the bound is an `int`.  `none`: an access outside of
`temp` or of the value (or more than the given number of passes). -/
def copyHigh (lw sw mn : Nat) (temp : Nat → Nat) : Nat → Nat → (Nat → Nat) → Option (Nat → Nat)
  | 0, _, _ => none
  | f + 1, i, bytes =>
    if sw - mn ≤ i then
      if i < 255 ∧ sw ≤ i + lw ∧ i + lw - sw < lw then
        copyHigh lw sw mn temp f ((i + 255) % 256) (updV bytes (i + lw - sw) (temp i))
      else none
    else some bytes

/-- `read_iValue`, L480-492, and `read_iValue_uint64_t`, L494-506 (`lw` = 8): the bytes of the value.  `temp` starts with the bytes read. -/
def readIValue (lorder : Order) (lw : Nat) (sorder : Order) (sw : Nat) (temp : Nat → Nat) : Option (Nat → Nat) :=
  let bytes : Nat → Nat := fun _ => 0
  let temp := convertEndianess sw sorder lorder temp
  let mn := min lw sw
  if lorder = .little then some (forRange 0 mn (fun i bytes => updV bytes i (temp i)) bytes)
  else copyHigh lw sw mn temp 256 ((sw + 255) % 256) bytes

/-- `write_iByteOrder`, L393-405. -/
def writeOrder : Order → Nat
  | .little => 1
  | .big => 2
  | .middle => 3

/-- `read_iByteOrder`, L430-442; `none` is `iUnknown`. -/
def readOrder (c : Nat) : Option Order :=
  if c = 1 then some .little else if c = 2 then some .big else if c = 3 then some .middle else none

end Verif.Binary
