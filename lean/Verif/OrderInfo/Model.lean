import Mathlib.Data.List.Sort
import Mathlib.Data.List.Perm.Basic

/-!
# Model of `Solver::OrderInfo`, Source/Solver/OrderInfo.cpp

A distributed matrix has `size` processes; the process `k` owns the rows `gtp k ≤ i < gtp (k+1)` (`global_to_proc`).  What is simplified:

* The preparation of the intervals (L93-177: renumbering of processes and resolution of overlapping intervals) is not modelled here: the intervals are
  contiguous and start with 0.
* Matrix elements are exact numbers, indices do not overflow.
* `PrepareMatrix` is modelled process by process between its collective operations (`MPI_Allreduce`, `MPI_Waitall` of all messages of an iteration): the only effect of the
  schedule is the order in which requests of other processes arrive (`MPI_ANY_SOURCE`, L294), which is arbitrary.  The sizes and the contents of rows that are sent
  separately (L382-457) are delivered as rows.
* `Update` and `Accumulate` are modelled with single messages, see `Exchange`.
-/

namespace Verif.OrderInfo

/-- `std::lower_bound(begin, end, x)` on a sorted array: the position of the first element that is not less than `x`. -/
def lowerBound (l : List Nat) (x : Nat) : Nat := l.findIdx (fun a => decide (x ≤ a))

/-- `global_to_proc` as an array of `size + 1` numbers. -/
def gtpList (size : Nat) (gtp : Nat → Nat) : List Nat := (List.range (size + 1)).map gtp

/-- `GetProcessor(gind)`, OrderInfo.cpp L630-638; `none` is the failed assertion. -/
def getProcessor (size : Nat) (gtp : Nat → Nat) (gind : Nat) : Option Nat :=
  let l := gtpList size gtp
  let find := lowerBound l gind
  match l[find]? with
  | none => none
  | some v => if v = gind ∧ find + 1 ≠ l.length then some find else some (find - 1)

/-- A row of the matrix: indices and values. -/
abbrev Row (K : Type) := List (Nat × K)

/-- The variables of `PrepareMatrix` on one process. -/
structure PSt (K : Type) where
  /-- `global_to_local`: pairs (global, local), in the order of insertion. -/
  map : List (Nat × Nat)
  /-- `ext_pos` -/
  ext : Nat
  /-- `local_start` -/
  start : Nat
  /-- `local_end` -/
  stop : Nat
  /-- the rows of the matrix -/
  rows : Nat → Row K
  /-- `vector_exchange_recv` -/
  recv : List (Nat × List Nat)
  /-- `vector_exchange_send` -/
  send : List (Nat × List Nat)

variable {K : Type}

/-- `global_to_local.find(i)` -/
def lookup (m : List (Nat × Nat)) (i : Nat) : Option Nat := (m.find? (fun e => e.1 == i)).map (·.2)

/-- The treatment of one index, L209-218.  `global_to_local[ind]` inserts 0 if the index is new. The list is `current_global_to_local`. -/
def scanIndex (lb le : Nat) (last : Bool) (s : List (Nat × Nat) × Nat × List (Nat × Nat)) (ind : Nat) :
    List (Nat × Nat) × Nat × List (Nat × Nat) :=
  if ind < lb ∨ ind ≥ le then
    if (lookup s.1 ind).getD 0 = 0 then
      (s.1.filter (fun e => e.1 != ind) ++ [(ind, s.2.1)], s.2.1 + 1, if last then s.2.2 else s.2.2 ++ [(ind, s.2.1)])
    else s
  else s

/-- The loop over rows and entries, L203-220. -/
def scan (lb le : Nat) (last : Bool) (s : PSt K) : List (Nat × Nat) × Nat × List (Nat × Nat) :=
  ((List.range' s.start (s.stop - s.start)).flatMap (fun k => (s.rows k).map (·.1))).foldl (scanIndex lb le last) (s.map, s.ext, [])

/-- The sorted list of global indices for which data is requested, L221-228: at the last iteration the keys of the map, before it the new indices.  (`std::sort` sorts
pairs, the first components are distinct.) -/
def requested (lb le : Nat) (last : Bool) (s : PSt K) : List Nat :=
  let r := scan lb le last s
  ((if last then r.1 else r.2.2).map (·.1)).mergeSort (fun a b => decide (a ≤ b))

/-- The loop over processes, L243-270: the part of the indices below the end of the interval of the process. -/
def recvLoop (gtp : Nat → Nat) : List Nat → List Nat → List (Nat × List Nat)
  | [], _ => []
  | proc :: procs, cur =>
    let mine := cur.takeWhile (fun i => decide (i < gtp (proc + 1)))
    let rest := cur.dropWhile (fun i => decide (i < gtp (proc + 1)))
    if mine = [] then recvLoop gtp procs rest else (proc, mine) :: recvLoop gtp procs rest

/-- `vector_exchange_recv`, L236-271. -/
def buildRecv (size : Nat) (gtp : Nat → Nat) (cur : List Nat) : Option (List (Nat × List Nat)) :=
  match cur.head?, cur.getLast? with
  | some a, some b =>
    match getProcessor size gtp a, getProcessor size gtp b with
    | some pb, some pe => some (recvLoop gtp (List.range' pb (pe + 1 - pb)) cur)
    | _, _ => none
  | _, _ => some []

/-- What other processes request from the process `q`, L286-302: pairs (process, indices). -/
def requests (size : Nat) (R : Nat → List (Nat × List Nat)) (q : Nat) : List (Nat × List Nat) :=
  (List.range size).flatMap fun p => (R p).filterMap fun e => if e.1 = q then some (p, e.2) else none

/-- The received rows are put to their places, L466-475: `m[global_to_local[r]] = row`. -/
def putRows (m : List (Nat × Nat)) (source : Nat → Nat → Row K) (recv : List (Nat × List Nat)) (rows : Nat → Row K) : Nat → Row K :=
  recv.foldl (fun rows e => e.2.foldl (fun rows r => fun k => if k = (lookup m r).getD 0 then source e.1 r else rows k) rows) rows

/-- The change of column indices at the last iteration, L317-329. -/
def renumber (m : List (Nat × Nat)) (r : Row K) : Row K := r.map fun e => ((lookup m e.1).getD e.1, e.2)

/-- The end of an iteration that is not the last, L380-476. -/
def finishMiddle (lb le : Nat) (s : PSt K) (R : List (Nat × List Nat)) (source : Nat → Nat → Row K) : PSt K :=
  let r := scan lb le false s
  { map := r.1, ext := r.2.1, start := s.stop, stop := r.2.1, rows := putRows r.1 source R s.rows, recv := R, send := [] }

/-- The end of the last iteration, L314-379: rows are renumbered, as well as the indices in `vector_exchange_recv`. -/
def finishLast (lb le : Nat) (s : PSt K) (R Sd : List (Nat × List Nat)) : PSt K :=
  let r := scan lb le true s
  { map := r.1, ext := r.2.1, start := s.start, stop := s.stop,
    rows := fun k => if lb ≤ k ∧ k < s.stop then renumber r.1 (s.rows k) else s.rows k,
    recv := R.map fun e => (e.1, e.2.map fun g => (lookup r.1 g).getD 0), send := Sd }

/-- One iteration on all processes, L199-478.  `R` is `vector_exchange_recv` with global indices, `Sd` is `vector_exchange_send`: what other processes requested, in
the order of arrival. -/
def Iter (size : Nat) (gtp : Nat → Nat) (last : Bool) (S S' : Nat → PSt K) : Prop :=
  ∃ R Sd : Nat → List (Nat × List Nat),
    (∀ p, p < size → buildRecv size gtp (requested (gtp p) (gtp (p + 1)) last (S p)) = some (R p)) ∧
    (∀ p, p < size → (Sd p).Perm (requests size R p)) ∧
    (∀ p, p < size → S' p =
      if last then finishLast (gtp p) (gtp (p + 1)) (S p) (R p) (Sd p)
      else finishMiddle (gtp p) (gtp (p + 1)) (S p) (R p) (fun q r => (S q).rows r))

/-- The state before the first iteration, L188-198; `A` is the matrix with global indices; a process has
only its own rows. -/
def start (gtp : Nat → Nat) (A : Nat → Row K) (p : Nat) : PSt K :=
  { map := [], ext := gtp (p + 1), start := gtp p, stop := gtp (p + 1),
    rows := fun k => if gtp p ≤ k ∧ k < gtp (p + 1) then A k else [], recv := [], send := [] }

/-- `overlap` iterations, then the last one. -/
def Iters (size : Nat) (gtp : Nat → Nat) : Nat → (Nat → PSt K) → (Nat → PSt K) → Prop
  | 0, S, S' => Iter size gtp true S S'
  | n + 1, S, S' => ∃ S1, Iter size gtp false S S1 ∧ Iters size gtp n S1 S'

/-- The outcomes of `PrepareMatrix(m, overlap)` on all processes. -/
def Prepare (size : Nat) (gtp : Nat → Nat) (A : Nat → Row K) (overlap : Nat) (S' : Nat → PSt K) : Prop :=
  Iters size gtp overlap (start gtp A) S'

/-- `extended_indexes`, L369-372: the global index of the local position `le + i`. -/
def extended (s : PSt K) (le : Nat) (i : Nat) : Option Nat := (s.map.find? (fun e => e.2 == le + i)).map (·.1)

/-- `RestoreMatrix`, L486-510, for one row: `initial_matrix_end` is `le`.  Indices that are out of the range of `extended_indexes` only cause a
message. -/
def restoreRow (s : PSt K) (le : Nat) (r : Row K) : Row K :=
  r.map fun e => if e.1 ≥ le then ((extended s le (e.1 - le)).getD e.1, e.2) else e

end Verif.OrderInfo
