import Verif.Pmf.Model
import Mathlib.Data.List.Sort

/-!
# Model of files of several processors

Source: `Source/IO/mesh_pmf_file.cpp`, SavePMF L431-580 (parts of all processors in one file), LoadPMF L635-942
(distribution of parts), L1677-1754 (owners and processors of elements).

Simplifications.
* A part is the stream that one processor writes (`Verif.Pmf.body`), as it is.
* `floor(double/double)` of numbers below 2^32 is the integer quotient.
* Collective calls (`MPI_Gather`, `MPI_Scatter`, `MPI_Allgatherv`) are their results; messages arrive.
* `std::binary_search` in a sorted range is membership.
-/

namespace Verif.Pmf
open Verif.Binary

/-- The file of several processors, L444-498 (`parallel_file_strategy == 1`), L501-579. -/
def pfile (o : Order) (parts : List Bytes) : Bytes :=
  [0x10] ++ [writeOrder o, 8] ++ mem o 8 parts.length ++ (parts.map fun p => p.length).flatMap (mem o 8) ++ parts.flatten

/-- The header of the file, L657-697, L801-827: sizes of parts, and the bytes that follow. -/
def pheader (file : Bytes) : Option (List Nat × Bytes) :=
  match file with
  | 0x10 :: b => match rConv b with
    | none => none
    | some (c, b) => match rI 8 c b with
      | none => none
      | some (n, b) => rMany (rI 8 c) n b
  | _ => none

/-- The loops L713-719, L852-857: sums of `c` sizes for `k` processors, and the sizes that are left. -/
def accum (c : Nat) : Nat → List Nat → List Nat × List Nat
  | 0, s => ([], s)
  | k + 1, s => ((s.take c).sum :: (accum c k (s.drop c)).1, (accum c k (s.drop c)).2)

/-- `recvsizes` of `q` processors, L699-723, L840-861. -/
def recvSizes (q : Nat) (sizes : List Nat) : List Nat :=
  if sizes.length ≤ q then sizes ++ List.replicate (q - sizes.length) 0
  else
    let c := sizes.length / q
    (accum c (q - 1) sizes).1 ++ [(accum c (q - 1) sizes).2.sum]

/-- `offsets`, L730-732, L874-897. -/
def offsetsFrom (off : Nat) : List Nat → List Nat
  | [] => []
  | r :: rs => off :: offsetsFrom (off + r) rs

/-- `while( shift != recvsize )` with messages of at most `cmax` (INT_MAX) bytes, L762-768, L884-896, L913-925. -/
def chunks (cmax : Nat) (b : Bytes) : Nat → Nat → Nat → Bytes
  | 0, _, _ => []
  | f + 1, off, size => if size = 0 then [] else
      (b.drop off).take (min cmax size) ++ chunks cmax b f (off + min cmax size) (size - min cmax size)

/-- The bytes at `off` with `size` bytes. -/
def fetch (cmax : Nat) (b : Bytes) (off size : Nat) : Bytes := chunks cmax b size off size

/-- The stream `in` of processor `k` of `q`, `parallel_file_strategy == 1`, L637-774. -/
def stream1 (cmax q k : Nat) (file : Bytes) : Option Bytes :=
  match pheader file with
  | none => none
  | some (sizes, rest) =>
    let off := file.length - rest.length
    match (recvSizes q sizes)[k]?, (offsetsFrom off (recvSizes q sizes))[k]? with
    | some r, some o => some (fetch cmax file o r)
    | _, _ => none

/-- The stream `in` of processor `k` of `q`, `parallel_file_strategy == 0`, L776-942.  Processor 0 writes its own
bytes at L871, and again at L933 if it has sent something. -/
def stream0 (cmax q k : Nat) (file : Bytes) : Option Bytes :=
  match pheader file with
  | none => none
  | some (sizes, rest) =>
    let rs := recvSizes q sizes
    let buffer := rest.take sizes.sum
    match rs[k]?, (offsetsFrom 0 rs)[k]? with
    | some r, some o =>
      let own := fetch cmax buffer o r
      if k = 0 then
        if (rs.drop 1).any fun r => decide (r ≠ 0) then some (own ++ own) else some own
      else some own
    | _, _ => none

/-! ## Owners -/

/-- `std::sort` -/
def sortN (l : List Nat) : List Nat := l.insertionSort (· ≤ ·)

/-- `std::unique` -/
def uniq : List Nat → List Nat
  | [] => []
  | [a] => [a]
  | a :: b :: l => if a = b then uniq (b :: l) else a :: uniq (b :: l)

/-- What `LoadPMF` knows about an element: `tag_owner`, `tag_processors`. -/
structure Copy where
  owner : Nat
  procs : List Nat
  deriving DecidableEq

/-- `Element::Owned`, `Shared`, `Ghost`. -/
inductive Status | owned | shared | ghost
  deriving DecidableEq, Repr

/-- L1715-1726, L1727-1739: the number of a processor of the file becomes the number of the processor that read it.
`read k` is `myprocs` of processor `k`. -/
def newRank (read : List (List Nat)) (me o : Nat) : Nat :=
  if o ∈ read.getD me [] then me
  else match read.findIdx? fun l => decide (o ∈ l) with
    | some k => k
    | none => o

/-- `restore_state`, L1686: some processor has read more than one part. -/
def restoreState (read : List (List Nat)) : Bool := read.any fun l => decide (1 < l.length)

/-- L1710-1751 for a new element on processor `me`; `st` is the status from the file. -/
def remap (read : List (List Nat)) (me : Nat) (c : Copy) (st : Status) : Copy × Status :=
  if restoreState read then
    if read.getD me [] ≠ [] then
      let o := newRank read me c.owner
      let v := uniq (sortN (c.procs.map (newRank read me)))
      (⟨o, v⟩, if me = o then (if v.length = 1 then .owned else .shared) else .ghost)
    else (c, st)
  else (c, st)

end Verif.Pmf
