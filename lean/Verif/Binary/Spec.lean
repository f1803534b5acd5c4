import Verif.Binary.Model
import Mathlib.Algebra.BigOperators.Group.Finset.Basic

/-!
# How machines store unsigned integers

`address o w k` is the offset of the byte with weight `256^k` in an integer of `w` bytes on a machine with byte order `o`.  Middle-endian machines (as the
constant `MIDDLE_ENDIAN_BYTE_ORDER` describes them) store pairs of bytes from the highest to the lowest, with the low byte of each pair first.
-/

namespace Verif.Binary

/-- The other element of the pair `2q`, `2q+1`. -/
def partner (a : Nat) : Nat := if a % 2 = 0 then a + 1 else a - 1

/-- The offset of the byte with weight `256^k`. -/
def address : Order → Nat → Nat → Nat
  | .little, _, k => k
  | .big, w, k => w - 1 - k
  | .middle, w, k => partner (w - 1 - k)

/-- `m` is the memory of the value `v` with `w` bytes (`write_iValue`, io.hpp L473-478, writes this memory to the file). -/
def Holds (o : Order) (w : Nat) (m : Nat → Nat) (v : Nat) : Prop := ∀ k, k < w → m (address o w k) = v / 256 ^ k % 256

/-- The value in the memory `m`. -/
def value (o : Order) (w : Nat) (m : Nat → Nat) : Nat := ∑ k ∈ Finset.range w, m (address o w k) * 256 ^ k

/-- Widths that machines with this byte order have. -/
def WidthOk (o : Order) (w : Nat) : Prop := 0 < w ∧ w < 255 ∧ (o = .middle → w % 2 = 0)

end Verif.Binary
