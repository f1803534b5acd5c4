/-!
# Model of the sorting of handles

Models `/repo/Source/Mesh/comparator.cpp` L83-169 (`SortByGlobalID`) and L171-267
(`SortHandles`).  Long arrays are sorted by a radix sort on bytes, short ones by `std::sort`.
The number of bytes of a handle and of an integer is `w`, 4 or 8; the source has one copy of
the code for each, which differ in the number of passes and in the length from which on the
radix sort is used.  The source reads bytes through `unsigned char *`; the model assumes a
little-endian machine, byte `j` of `x` is `x / 256^j % 256`.

Handles are natural numbers below `256^w`, `0` is `InvalidHandle()`.  Counters are
`unsigned int`, 32 bits wide.  Writing outside of an array is `none`.
-/

namespace Verif.Sort


/-- `unsigned int`. -/
abbrev U32 := BitVec 32

/-- `reinterpret_cast<unsigned char *>(&x)[j]`. -/
def byte (x j : Nat) : Nat := x / 256 ^ j % 256

/-- One histogram: `memset` to zero, comparator.cpp L96, and `++b[rec[j]]`, L97-104. -/
def hist (key : Nat → Nat) : List Nat → Nat → U32
  | [], _ => 0
  | x :: xs, k => if k = key x then hist key xs k + 1 else hist key xs k

/-- `tsum = b[i] + sum; b[i] = sum - 1; sum = tsum;` for `i` from `i` on, `n` times,
comparator.cpp L106-112. -/
def prefixSums : Nat → Nat → U32 → (Nat → U32) → Nat → U32
  | 0, _, _, b => b
  | n + 1, i, sum, b =>
    prefixSums n (i + 1) (b i + sum) (fun k => if k = i then sum - 1 else b k)

/-- `for (i = 0; i < num; i++) dst[++b[key(src[i])]] = src[i];` comparator.cpp L113-116. -/
def scatter (key : Nat → Nat) : List Nat → (Nat → U32) → List Nat → Option (List Nat)
  | [], _, dst => some dst
  | x :: xs, b, dst =>
    let pos := b (key x) + 1
    if pos.toNat < dst.length then
      scatter key xs (fun k => if k = key x then pos else b k) (dst.set pos.toNat x)
    else none

/-- The passes over the bytes: the two buffers change roles after each pass.  All histograms
are taken of the array before the first pass.  `val` is the number whose bytes are read: the
handle itself or its global ID. -/
def passes (val : Nat → Nat) (orig : List Nat) : List Nat → List Nat → List Nat → Option (List Nat × List Nat)
  | [], src, dst => some (src, dst)
  | j :: js, src, dst =>
    let key := fun x => byte (val x) j
    match scatter key src (prefixSums 256 0 0 (hist key orig)) dst with
    | none => none
    | some dst' => passes val orig js dst' src

/-- The radix sort: `w` passes, `w` is even so that the last pass writes to the array of the
caller; `tmp(num)` is zero-initialised. -/
def radix (val : Nat → Nat) (w : Nat) (a : List Nat) : Option (List Nat) :=
  match passes val a (List.range w) a (List.replicate a.length 0) with
  | none => none
  | some (r, _) => some r

/-- `ENUMUNDEF`, the largest number of `w` bytes. -/
def enumUndef (w : Nat) : Nat := 256 ^ w - 1

/-- The radix branch of `SortHandles`, comparator.cpp L173-210 and L211-265. -/
def radixHandles (w : Nat) (a : List Nat) : Option (List Nat) :=
  match radix id w (a.map fun x => if x = 0 then enumUndef w else x) with
  | none => none
  | some r => some (r.map fun x => if x = enumUndef w then 0 else x)

/-- `std::sort(first,last,comp)`: the result is a permutation in which no element precedes
one that compares less.  The standard does not fix the order of equivalent elements. -/
def StdSort (less : Nat → Nat → Prop) (a b : List Nat) : Prop :=
  b.Perm a ∧ b.Pairwise fun x y => ¬ less y x

/-- `Mesh::SortHandles`, comparator.cpp L171-267: `b` is a possible result for `a`. -/
def SortHandles (w : Nat) (a b : List Nat) : Prop :=
  if 8 * w < a.length then radixHandles w a = some b else StdSort (· < ·) a b

/-- `Mesh::GlobalIDComparator`, inmost_mesh.h L3428. -/
def globalIDLess (gid : Nat → Int) (a b : Nat) : Prop :=
  if a = 0 ∨ b = 0 then b < a else gid a < gid b

/-- The bytes of the global ID, a signed number of `w` bytes in two's complement, read as an
unsigned number.  `GlobalID(InvalidHandle())` is undefined; callers pass elements. -/
def gidBits (w : Nat) (gid : Nat → Int) (h : Nat) : Nat := (gid h % 256 ^ w).toNat

/-- `Mesh::SortByGlobalID`, comparator.cpp L83-169: `b` is a possible result for `a`. -/
def SortByGlobalID (w : Nat) (gid : Nat → Int) (a b : List Nat) : Prop :=
  if 16 * w < a.length then
    (∀ x ∈ a, x ≠ 0) ∧ radix (gidBits w gid) w a = some b
  else StdSort (globalIDLess gid) a b

end Verif.Sort
