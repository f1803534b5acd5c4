import Verif.Transfer.Model

/-!
# Model of the exchange of marked elements as ghosts

Source: `Source/Mesh/parallel.cpp` (ExchangeMarked L5914-6295 with `action == AGhost`, InformElementsOwners
L3574-3653, RecomputeParallelStorage L6296-6311, GatherParallelStorage L3741-3799, SortParallelStorage
L6553-6652).

Each processor sends the elements with a processor in `SENDTO_PROCESSORS` to that processor, receives what is sent
to it, tells the owners of what it received, and takes the lists of processors from the owners.

Simplifications.
* PrepareReceiveInner and ExchangeBuffersInner: every message is received once, by the processor it is for.
  The order of arrival is arbitrary.  Packing on a processor precedes all unpacking on it (L5965-5994 before
  L6114, L3592-3606 before L3618), so that a message depends only on the state of its sender before.
* Sets are left out; the debug checks CheckProcsSorted, CheckGhostSharedCount, CheckCentroids, CheckOwners,
  CheckProcessors only report.
* `sendto` is the content of the tag `SENDTO_PROCESSORS`, which is removed (L5959).
-/

namespace Verif.Transfer

open Verif.Topology

variable {V : Type}

/-- The elements of a type in the order of `BeginElement`. -/
def elemsOf (T : Topo) (t : Nat) : List El :=
  ((List.range (T.last t)).map fun i => (⟨t, i⟩ : El)).filter T.alive

/-- `send_elements[q][t]` (parallel.cpp L5950-5958). -/
def chosen (S : Side V) (sendto : El → List Nat) (q t : Nat) : List El :=
  (elemsOf S.T t).flatMap fun e => ((sendto e).filter fun k => k == q).map fun _ => e

/-- `assert( *kt >= 0 && *kt < GetProcessorsNumber() )` (parallel.cpp L5956). -/
def sendtoOk (n : Nat) (S : Side V) (sendto : El → List Nat) : Bool :=
  (List.range 4).all fun t => (elemsOf S.T t).all fun e => (sendto e).all fun k => decide (k < n)

/-- The non-empty entries of `send_elements`, by increasing processor, without the processor itself
(parallel.cpp L5957, L5975). -/
def outbox (n me : Nat) (S : Side V) (sendto : El → List Nat) : List (Nat × (Nat → List El)) :=
  ((List.range n).filter fun q => q != me && (List.range 4).any fun t => !(chosen S sendto q t).isEmpty).map
    fun q => (q, chosen S sendto q)

/-- The loop over the destinations (parallel.cpp L5974-5987, L3594-3605). -/
def packAll (me : Nat) (byNum : Nat → Bool) (tags : Bool) :
    List (Nat × (Nat → List El)) → Side V → Option (Side V × List (Nat × Msg V))
  | [], S => some (S, [])
  | (q, sel) :: l, S => match pack me q byNum tags (gather S byNum q sel) S with
    | none => none
    | some (S1, M) => match packAll me byNum tags l S1 with
      | none => none
      | some (S2, ms) => some (S2, (q, M) :: ms)

/-- First part of ExchangeMarked (parallel.cpp L5948-5994). -/
def sendMarked (n me : Nat) (byNum : Nat → Bool) (sendto : El → List Nat) (S : Side V) :
    Option (Side V × List (Nat × Msg V)) :=
  if sendtoOk n S sendto then packAll me byNum true (outbox n me S sendto) S else none

/-- The messages for `q`, with their senders. -/
def mail (n : Nat) (box : Nat → List (Nat × Msg V)) (q : Nat) : List (Nat × Msg V) :=
  (List.range n).flatMap fun p => ((box p).filter fun m => m.1 == q).map fun m => (p, m.2)

/-- `std::lower_bound` finds the processor (parallel.cpp L6130-6131). -/
def foundProc (q : Nat) (l : List Nat) : Bool := (l.dropWhile fun p => decide (p < q)).head? == some q

/-- A received element (parallel.cpp L6125-6136); the second component is `send_elements`, as the list of
what was appended to it. -/
def arriveOne (me : Nat) (st : Side V × List (Int × El)) (x : El) : Side V × List (Int × El) :=
  if st.1.owner x = (me : Int) then st
  else if foundProc me (st.1.procs x) then st
  else ({ st.1 with procs := set1 st.1.procs x (addProc me (st.1.procs x)) }, st.2 ++ [(st.1.owner x, x)])

/-- The elements received, by type. -/
def received (out : Nat → List (El × Bool)) : List El := (out 0 ++ (out 1 ++ (out 2 ++ out 3))).map Prod.fst

/-- The loop over the messages (parallel.cpp L6114-6139). -/
def takeMarked (me : Nat) (dup : Bool) (pick : Topo → Nat → Nat) :
    List (Nat × Msg V) → Side V × List (Int × El) → Option (Side V × List (Int × El))
  | [], st => some st
  | (p, M) :: ms, st => match unpack me p dup pick M st.1 with
    | none => none
    | some (R, out) => takeMarked me dup pick ms ((received out).foldl (arriveOne me) (R, st.2))

/-- `send_elements` of the second round. -/
def informBox (n : Nat) (told : List (Int × El)) : List (Nat × (Nat → List El)) :=
  ((List.range n).filter fun (o : Nat) => told.any fun x => x.1 == (o : Int)).map fun (o : Nat) =>
    (o, fun t => (told.filter fun x => x.1 == (o : Int) && x.2.ty == t).map Prod.snd)

/-- First part of InformElementsOwners (parallel.cpp L3584-3614); a message to a processor that does not exist
is an error of MPI. -/
def sendInform (n me : Nat) (told : List (Int × El)) (S : Side V) : Option (Side V × List (Nat × Msg V)) :=
  if told.all fun x => decide (0 ≤ x.1 ∧ x.1 < (n : Int)) then packAll me (fun _ => false) false (informBox n told) S
  else none

/-- An element named by `src` (parallel.cpp L3629-3642); `exit(-1)` if it is new. -/
def informOne (me src : Nat) (R : Side V) (x : El) : Option (Side V) :=
  if R.owner x = -1 then none
  else some { R with
    procs := set1 R.procs x (addProc src (R.procs x))
    status := set1 R.status x (if R.owner x = (me : Int) then .shared else .ghost) }

/-- Loop over the elements received. -/
def informEach (me src : Nat) : List El → Side V → Option (Side V)
  | [], R => some R
  | x :: xs, R => match informOne me src R x with
    | none => none
    | some R1 => informEach me src xs R1

/-- Second part of InformElementsOwners (parallel.cpp L3618-3645). -/
def takeInform (me : Nat) (dup : Bool) (pick : Topo → Nat → Nat) :
    List (Nat × Msg V) → Side V → Option (Side V)
  | [], R => some R
  | (p, M) :: ms, R => match unpack me p dup pick M R with
    | none => none
    | some (R1, out) => match informEach me p (received out) R1 with
      | none => none
      | some R2 => takeInform me dup pick ms R2

/-- `assert(*vit >= 0 && *vit < mpisize)`, `assert(proc >= 0 && proc < mpisize)` (parallel.cpp L3771, L3785). -/
def storageOk (n : Nat) (S : Side V) : Bool :=
  (List.range 4).all fun t => (elemsOf S.T t).all fun e =>
    match S.status e with
    | .shared => (S.procs e).all fun k => decide (k < n)
    | .ghost => decide (0 ≤ S.owner e ∧ S.owner e < (n : Int))
    | _ => true

/-- RecomputeParallelStorage: the stored lists, sorted (parallel.cpp L6296-6311, L3751-3797). -/
def recompute (n me : Nat) (S : Side V) : Option (Side V) :=
  if storageOk n S then some { S with
    sh := fun q t => sortNum S.num ((elemsOf S.T t).flatMap fun e =>
      if S.status e = .shared then ((S.procs e).filter fun v => v == q && v != me).map fun _ => e else [])
    gh := fun o t => sortNum S.num ((elemsOf S.T t).filter fun e => S.status e == .ghost && S.owner e == o) }
  else none

/-- The same local number in the model of ExchangeData. -/
def toP (e : El) : Parallel.El := ⟨e.ty, e.id⟩

/-- What ExchangeData works on: tag number 0 is the list of processors. -/
def view (S : Side V) : Parallel.Local Nat where
  elems := (List.range 4).flatMap fun t => (elemsOf S.T t).map toP
  status := fun e => S.status ⟨e.ty, e.id⟩
  owner := fun e => (S.owner ⟨e.ty, e.id⟩).toNat
  procs := fun e => S.procs ⟨e.ty, e.id⟩
  key := fun e => S.num ⟨e.ty, e.id⟩
  sel := fun _ => true
  data := fun _ e => some (S.procs ⟨e.ty, e.id⟩)

/-- `tag_processors`: a dense tag of variable size on all elements. -/
def procsTag : Parallel.TagInfo where
  size := none
  defd := fun _ => true
  sparse := fun _ => false

/-- `ExchangeData(tag_processors,ESET|CELL|FACE|EDGE|NODE,0)` (parallel.cpp L6276); the model of C60. -/
def procsCall (n : Nat) : Parallel.Call Nat := Parallel.exchangeCall n [(0, procsTag)] fun _ => true

/-- The mesh with the list of processors after ExchangeData. -/
def setProcs (S : Side V) (L : Parallel.Local Nat) : Side V :=
  { S with procs := fun e => (L.data 0 (toP e)).getD [] }

/-- What happens in a call: states of the processors after the parts of ExchangeMarked, messages, orders of
arrival, elements whose owners are told, and the run of the last ExchangeData. -/
structure Trace (V : Type) where
  sent : Nat → Side V
  box : Nat → List (Nat × Msg V)
  order : Nat → List (Nat × Msg V)
  got : Nat → Side V
  told : Nat → List (Int × El)
  sent' : Nat → Side V
  box' : Nat → List (Nat × Msg V)
  order' : Nat → List (Nat × Msg V)
  got' : Nat → Side V
  stored : Nat → Side V
  events : List Parallel.Event
  sys : Parallel.Sys Nat

/-- The call, on processors that hold `W` before and `W'` after (parallel.cpp L5914-6295). -/
structure Exchange (n : Nat) (byNum : Nat → Bool) (dup : Bool) (pick : Topo → Nat → Nat)
    (sendto : Nat → El → List Nat) (W W' : Nat → Side V) (X : Trace V) : Prop where
  send : ∀ p, p < n → sendMarked n p byNum (sendto p) (W p) = some (X.sent p, X.box p)
  arrive : ∀ q, q < n → (X.order q).Perm (mail n X.box q)
  take : ∀ q, q < n → takeMarked q dup pick (X.order q) (X.sent q, []) = some (X.got q, X.told q)
  send' : ∀ p, p < n → sendInform n p (X.told p) (X.got p) = some (X.sent' p, X.box' p)
  arrive' : ∀ q, q < n → (X.order' q).Perm (mail n X.box' q)
  take' : ∀ q, q < n → takeInform q dup pick (X.order' q) (X.sent' q) = some (X.got' q)
  store : ∀ p, p < n → recompute n p (X.got' p) = some (X.stored p)
  run : Parallel.Run (procsCall n) (fun p => view (X.stored p)) X.events X.sys
  done : Parallel.Done (procsCall n) X.sys
  result : ∀ p, p < n → W' p = setProcs (X.stored p) (X.sys.loc p)

end Verif.Transfer
