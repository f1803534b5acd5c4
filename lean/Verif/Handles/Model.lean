/-!
# Model of element types and element handles

Models `/repo/Source/Headers/inmost_data.h` L25-101.

`HandleType` is `INMOST_DATA_ENUM_TYPE`: 32-bit unsigned by default, 64-bit
when INMOST is configured with 64-bit integers
(`/repo/Source/Headers/inmost_common.h` L190-215).  The model is parametric in
the word width `w`; both configurations are instances.  `INMOST_DATA_INTEGER_TYPE`
is the signed type of the same width, represented by the same bit pattern and read
through `BitVec.toInt`.
-/

namespace Verif.Handles

/-- `ElementType` is an unsigned char bit mask (inmost_data.h L28). -/
abbrev ElementType := BitVec 8

/-- inmost_data.h L29-35. -/
def NONE : ElementType := 0x00#8
/-- inmost_data.h L30. -/
def NODE : ElementType := 0x01#8
/-- inmost_data.h L31. -/
def EDGE : ElementType := 0x02#8
/-- inmost_data.h L32. -/
def FACE : ElementType := 0x04#8
/-- inmost_data.h L33. -/
def CELL : ElementType := 0x08#8
/-- inmost_data.h L34. -/
def ESET : ElementType := 0x10#8
/-- inmost_data.h L35. -/
def MESH : ElementType := 0x20#8

/-- `OneType`, inmost_data.h L38.  `t-1` is computed in `int`; the result of the
`&` with `t` only depends on the low 8 bits. -/
def oneType (t : ElementType) : Bool := t != 0 && (t &&& (t - 1)) == 0

/-- `NextElementType`, inmost_data.h L41 (result truncated to unsigned char). -/
def nextElementType (t : ElementType) : ElementType := t <<< 1

/-- `PrevElementType`, inmost_data.h L42. -/
def prevElementType (t : ElementType) : ElementType := t >>> 1

/-- `ElementNum`, inmost_data.h L45-56: branch-free log2 on a 32-bit word with the
three masks `0xAAAAAAAA, 0xCCCCCCCC, 0xF0F0F0F0`. -/
def elementNum (t : ElementType) : BitVec 32 :=
  let v : BitVec 32 := t.zeroExtend 32
  let r : BitVec 32 := if v &&& 0xAAAAAAAA#32 ≠ 0 then 1 else 0
  let r := r ||| ((if v &&& 0xF0F0F0F0#32 ≠ 0 then (1 : BitVec 32) else 0) <<< 2)
  let r := r ||| ((if v &&& 0xCCCCCCCC#32 ≠ 0 then (1 : BitVec 32) else 0) <<< 1)
  r

/-- A handle of word width `w`, inmost_data.h L80. -/
abbrev Handle (w : Nat) := BitVec w

/-- `handle_etype_shift = sizeof(HandleType)*8 - handle_etype_bits`, L81-82. -/
def handleShift (w : Nat) : Nat := w - 3

/-- `handle_id_mask`, L83. -/
def handleIdMask (w : Nat) : BitVec w := (1#w <<< handleShift w) - 1#w

/-- `InvalidHandle`, L90. -/
def invalidHandle (w : Nat) : Handle w := 0#w

/-- `GetHandleID`, L91.  The result is converted to the signed integer type. -/
def getHandleID {w : Nat} (h : Handle w) : Int := ((h &&& handleIdMask w) - 1#w).toInt

/-- `GetHandleElementNum`, L92. -/
def getHandleElementNum {w : Nat} (h : Handle w) : Int := (h >>> handleShift w).toInt

/-- `GetHandleElementType`, L93: `1 << GetHandleElementNum(h)` truncated to unsigned char. -/
def getHandleElementType {w : Nat} (h : Handle w) : ElementType :=
  BitVec.ofNat 8 (1 <<< (getHandleElementNum h).toNat)

/-- `ComposeHandleNum`, L100.  The signed shift and sum of the source are computed
modulo `2^w` (two's complement); for `etypenum ≥ 4` the source relies on that as well. -/
def composeHandleNum {w : Nat} (etypenum : BitVec w) (id : Int) : Handle w :=
  if id = -1 then invalidHandle w
  else (etypenum <<< handleShift w) + (1#w + BitVec.ofInt w id)

/-- `ComposeHandle`, L94. -/
def composeHandle {w : Nat} (t : ElementType) (id : Int) : Handle w :=
  composeHandleNum ((elementNum t).setWidth w) id

/-- `ComposeCellHandle`, L95. -/
def composeCellHandle {w : Nat} (id : Int) : Handle w := composeHandle CELL id
/-- `ComposeFaceHandle`, L96. -/
def composeFaceHandle {w : Nat} (id : Int) : Handle w := composeHandle FACE id
/-- `ComposeEdgeHandle`, L97. -/
def composeEdgeHandle {w : Nat} (id : Int) : Handle w := composeHandle EDGE id
/-- `ComposeNodeHandle`, L98. -/
def composeNodeHandle {w : Nat} (id : Int) : Handle w := composeHandle NODE id
/-- `ComposeSetHandle`, L99. -/
def composeSetHandle {w : Nat} (id : Int) : Handle w := composeHandle ESET id

/-- `isValidHandle`, L101. -/
def isValidHandle {w : Nat} (h : Handle w) : Bool := h != 0

end Verif.Handles
