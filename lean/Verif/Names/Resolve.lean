import Verif.Names.Model

/-!
# Model of `Mesh::ResolveSets`

Models `/repo/Source/Mesh/parallel.cpp` L7369-7499, from the gathering of the names to the owner and the status
of every set.  The processes call it together, so one call is a function of the states of all processes.

Simplifications.  `MPI_Allgather` and `MPI_Allgatherv` deliver the contributions of all processes in
the order of ranks; a buffer is a list of bytes; a read past its end is the outcome `none`, as is a
failed assertion; `map_names` is a function that is the empty vector where nothing was inserted.  `RecomputeParallelStorage`
and `AssignGlobalID`, L7501-7508, are not modelled.
-/

namespace Verif.Names

/-- `Mesh::Hidden`. -/
def Sets.isHidden (S : Sets) (h : Nat) : Bool := S.hide && S.hidden h

/-- `set_names_send`, parallel.cpp L7387-7391. -/
def sendNames (S : Sets) : Reg → List Nat
  | [] => []
  | (k, h) :: r => if S.isHidden h then sendNames S r else k ++ 0 :: sendNames S r

/-- `std::string name(beg_ptr)`: the bytes before the first zero. -/
def cstr : List Nat → Option Str
  | [] => none
  | b :: bs => if b = 0 then some [] else match cstr bs with
    | none => none
    | some s => some (b :: s)

/-- `displs`, L7399-7404. -/
def displs : Nat → List Nat → List Nat
  | d, [] => [d]
  | d, s :: ss => d :: displs (d + s) ss

/-- `map_names[name].push_back(k)`. -/
def pushRank (M : Str → List Nat) (n : Str) (k : Nat) : Str → List Nat :=
  fun m => if m = n then M m ++ [k] else M m

/-- The inner loop, L7417-7423, with at most `fuel` steps left. -/
def readNames (buf : List Nat) (k : Nat) : Nat → Nat → Nat → (Str → List Nat) → Option (Str → List Nat)
  | 0, beg, en, M => if beg < en then none else some M
  | fuel + 1, beg, en, M =>
    if beg < en then
      match cstr (buf.drop beg) with
      | none => none
      | some n => readNames buf k fuel (beg + (n.length + 1)) en (pushRank M n k)
    else some M

/-- The outer loop over ranks `k`, L7413-7424; `ds` and `ss` are `displs` and `size_recv` from `k` on. -/
def readRanks (buf : List Nat) : Nat → List Nat → List Nat → (Str → List Nat) → Option (Str → List Nat)
  | k, d :: ds, s :: ss, M =>
    match readNames buf k s d (d + s) M with
    | none => none
    | some M' => readRanks buf (k + 1) ds ss M'
  | _, _, _, M => some M

/-- `map_names` after the exchange, L7377-7425. -/
def mapNames (P : List Sets) : Option (Str → List Nat) :=
  let bufs := P.map fun S => sendNames S S.reg
  readRanks bufs.flatten 0 (displs 0 (bufs.map List.length)) (bufs.map List.length) fun _ => []

/-- `Element::Status` as far as `ResolveSets` sets it. -/
inductive Status
  | owned | shared | ghost
  deriving DecidableEq, Repr

/-- The data of a set that `ResolveSets` writes: `tag_processors`, `tag_owner`, status. -/
structure Par where
  procs : List Nat
  owner : Nat
  status : Status
  deriving DecidableEq, Repr

/-- The data of one set, L7457-7484. -/
def resolveSet (rank : Nat) (procs : List Nat) : Option Par :=
  match procs with
  | [] => none
  | [p] => if p = rank then some ⟨[p], rank, .owned⟩ else none
  | p :: q :: r => some ⟨p :: q :: r, p, if p = rank then .shared else .ghost⟩

/-- The loop over `set_search`, L7449-7499. -/
def resolveLoop (S : Sets) (rank : Nat) (M : Str → List Nat) : Reg → (Nat → Par) → Option (Nat → Par)
  | [], D => some D
  | (k, h) :: r, D =>
    if S.isHidden h then resolveLoop S rank M r D
    else match resolveSet rank (M k) with
      | none => none
      | some p => resolveLoop S rank M r fun g => if g = h then p else D g

/-- `ResolveSets` on the process with this rank; `D` is the data of its sets before. -/
def resolveSets (P : List Sets) (S : Sets) (rank : Nat) (D : Nat → Par) : Option (Nat → Par) :=
  match mapNames P with
  | none => none
  | some M => resolveLoop S rank M S.reg D

end Verif.Names
