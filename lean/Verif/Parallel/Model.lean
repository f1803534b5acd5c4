/-!
# Model of the exchange of tag data between processors

Source: `Source/Mesh/parallel.cpp` (DefaultUnpack L280-313, UnpackSyncMarkerOR/XOR/AND L652-669,
SynchronizeMarker L692-767, TotalNumberOf L779-791, Enumerate L847-874, AssignGlobalID L2665-2741,
ComputeSharedProcs L2743-2789, PackTagData L3098-3217, UnpackTagData L3259-3394,
ExchangeDataInnerBegin L3397-3571, ExchangeDataInnerEnd L3655-3737, GatherParallelStorage L3741-3804,
ExchangeData L3806-3830, ReduceData L3881-3906, ExchangeBuffersInner L5596-5684,
FinishRequests L5848-5897, SortParallelStorage L6553-6649), `Source/Headers/inmost_mesh.h`
(Status L312-316, exch_recv_reqs_t L2287-2306, GlobalIDComparator L3421-3430).

A processor holds local copies of elements.  `V` is a scalar of a tag; a value of a tag on an element
is a list of scalars, or nothing if a sparse tag is not set.

Simplifications.
* `MPI_Pack`/`MPI_Unpack` of the three vectors of a packet is the identity on lists.  Tags whose
  scalars have a variable number of bytes (`DATA_VARIABLE`) or are references are left out.
* The flags of a tag (size, types on which it is defined, types on which it is sparse) are the same
  on all processors, so `CreateTag` in UnpackTagData L3287-3290 is never needed.
* The stored lists `shared_elements`, `ghost_elements` are what GatherParallelStorage computes.
* `key` is what the lists are sorted by: the global number (or, without global numbers, the
  rank of the centroid).  `std::sort` is an insertion sort; which of two elements with equal keys comes
  first is not specified by the library, and the theorems ask for different keys.
* MPI: a message sent is received by the matching receive, unchanged; messages from different
  senders arrive in any order.
-/

namespace Verif.Parallel

/-- A local copy of an element: type number (0 node, 1 edge, 2 face, 3 cell, 4 set) and local number. -/
structure El where
  ty : Nat
  id : Nat
  deriving DecidableEq, Repr

/-- `Element::Status` (inmost_mesh.h L312-316). -/
inductive Status where
  | any | owned | shared | ghost
  deriving DecidableEq, Repr

/-- Flags of a tag: `size = none` is `ENUMUNDEF`; `defd`, `sparse` are `isDefinedByDim`, `isSparseByDim`. -/
structure TagInfo where
  size : Option Nat
  defd : Nat → Bool
  sparse : Nat → Bool

/-- What a processor stores.  `elems` is the order of `BeginElement`; `status`, `owner`, `procs` are
the tags SharedTag, OwnerTag, ProcessorsTag; `sel` says whether the marker `select` is set (constantly
true if `select` is 0); `data k e` is the value of the `k`-th tag of the mesh on `e`. -/
structure Local (V : Type) where
  elems : List El
  status : El → Status
  owner : El → Nat
  procs : El → List Nat
  key : El → Int
  sel : El → Bool
  data : Nat → El → Option (List V)

/-- One step of an insertion sort by `key`. -/
def insertBy (key : El → Int) (e : El) : List El → List El
  | [] => [e]
  | x :: l => if key e ≤ key x then e :: x :: l else x :: insertBy key e l

/-- SortParallelStorage (parallel.cpp L6553-6649) on one list: `std::sort` with GlobalIDComparator. -/
def sortBy (key : El → Int) : List El → List El
  | [] => []
  | e :: l => insertBy key e (sortBy key l)

variable {V : Type}

/-- `shared_elements[q][i]` on processor `me` after GatherParallelStorage (parallel.cpp L3760-3775)
and SortParallelStorage. -/
def sharedList (mask : Nat → Bool) (me : Nat) (L : Local V) (q i : Nat) : List El :=
  sortBy L.key (L.elems.flatMap fun e =>
    if mask e.ty && e.ty == i && L.status e == .shared then
      ((L.procs e).filter fun v => v == q && v != me).map fun _ => e
    else [])

/-- `ghost_elements[q][i]` (parallel.cpp L3776-3787). -/
def ghostList (mask : Nat → Bool) (L : Local V) (q i : Nat) : List El :=
  sortBy L.key (L.elems.filter fun e =>
    mask e.ty && e.ty == i && L.status e == .ghost && L.owner e == q)

/-- What PackTagData writes for a tag: `pack_types[0]`, `array_size_send`, `array_data_send`
(parallel.cpp L3203-3205). -/
structure Packet (V : Type) where
  types : List Nat
  sizes : List Nat
  vals : List V

/-- The size of a record is written if the tag has no fixed size (parallel.cpp L3160, L3191). -/
def addSize (T : TagInfo) (n : Nat) (s : List Nat) : List Nat :=
  match T.size with
  | none => n :: s
  | some _ => s

/-- Loop over the elements of a type on which the tag is sparse (parallel.cpp L3134-3163); returns the
number of records, and what is appended to the two arrays. -/
def packSparse (T : TagInfo) (sel : El → Bool) (d : El → Option (List V)) :
    Nat → List El → Nat × List Nat × List V
  | _, [] => (0, [], [])
  | j, e :: es =>
    let r := packSparse T sel d (j + 1) es
    match sel e, d e with
    | true, some x =>
      (r.1 + 1, j :: addSize T x.length r.2.1, x ++ r.2.2)
    | _, _ => r

/-- Loop over the elements of a type on which the tag is dense (parallel.cpp L3170-3193).  A dense tag
has a value on every element (C07). -/
def packDense (T : TagInfo) (sel : El → Bool) (d : El → Option (List V)) :
    List El → List Nat × List V
  | [] => ([], [])
  | e :: es =>
    let r := packDense T sel d es
    if sel e then
      let x := (d e).getD []
      (addSize T x.length r.1, x ++ r.2)
    else r

/-- One type in PackTagData (parallel.cpp L3121-3197); the number of records of a sparse tag precedes
them (L3132-3133, L3140). -/
def packType (T : TagInfo) (sel : El → Bool) (d : El → Option (List V)) (i : Nat) (els : List El) :
    List Nat × List V :=
  if T.sparse i then
    let r := packSparse T sel d 0 els
    (r.1 :: r.2.1, r.2.2)
  else packDense T sel d els

/-- The types packed: in the mask and defined (parallel.cpp L3121). -/
def packTypes (T : TagInfo) (mask : Nat → Bool) : List Nat :=
  (List.range 6).filter fun i => mask i && T.defd i

/-- PackTagData (parallel.cpp L3098-3217). -/
def packTag (T : TagInfo) (mask : Nat → Bool) (sel : El → Bool) (d : El → Option (List V))
    (els : Nat → List El) : Packet V where
  types := packTypes T mask
  sizes := (packTypes T mask).flatMap fun i => (packType T sel d i (els i)).1
  vals := (packTypes T mask).flatMap fun i => (packType T sel d i (els i)).2

/-- `ReduceOperation` (inmost_mesh.h L2279): from the value of the tag on the element and the received
scalars to the new value; `none` is a failed assertion. -/
abbrev Op (V : Type) := TagInfo → El → Option (List V) → List V → Option (Option (List V))

/-- DefaultUnpack (parallel.cpp L280-313). -/
def defaultUnpack : Op V := fun T e d data =>
  if data.length = 0 then
    if T.defd e.ty then
      if T.sparse e.ty then some none
      else match T.size with
        | none => some (some [])
        | some _ => none
    else some d
  else
    match d with
    | none =>
      match T.size with
      | none => some (some data)
      | some n => if n = data.length then some (some data) else none
    | some x =>
      if data.length ≠ x.length then
        match T.size with
        | none => some (some data)
        | some _ => none
      else some (some data)

/-- Assignment to one element. -/
def setAt (d : El → Option (List V)) (e : El) (r : Option (List V)) : El → Option (List V) :=
  fun x => if x = e then r else d x

/-- Size of a record (parallel.cpp L3308-3313, L3345-3350). -/
def recSize (T : TagInfo) (sizes : List Nat) : Option (Nat × List Nat) :=
  match T.size with
  | some n => some (n, sizes)
  | none =>
    match sizes with
    | [] => none
    | a :: s => some (a, s)

/-- Unpacking of a record (parallel.cpp L3328-3334, L3365-3371). -/
def unpackRec (T : TagInfo) (op : Op V) (e : El) (a : Nat) (d : El → Option (List V)) (vals : List V) :
    Option ((El → Option (List V)) × List V) :=
  if a = 0 then some (d, vals)
  else if vals.length < a then none
  else
    match op T e (d e) (vals.take a) with
    | none => none
    | some r => some (setAt d e r, vals.drop a)

/-- Loop over the records of a sparse tag (parallel.cpp L3301-3336). -/
def unpackSparse (T : TagInfo) (sel : El → Bool) (op : Op V) (els : List El) :
    Nat → (El → Option (List V)) → List Nat → List V →
      Option ((El → Option (List V)) × List Nat × List V)
  | 0, d, sizes, vals => some (d, sizes, vals)
  | c + 1, d, sizes, vals =>
    match sizes with
    | [] => none
    | j :: s =>
      match els[j]? with
      | none => none
      | some e =>
        if sel e then
          match recSize T s with
          | none => none
          | some (a, s') =>
            match unpackRec T op e a d vals with
            | none => none
            | some (d', vals') => unpackSparse T sel op els c d' s' vals'
        else none

/-- Loop over the elements for a dense tag (parallel.cpp L3341-3375). -/
def unpackDense (T : TagInfo) (sel : El → Bool) (op : Op V) :
    List El → (El → Option (List V)) → List Nat → List V →
      Option ((El → Option (List V)) × List Nat × List V)
  | [], d, sizes, vals => some (d, sizes, vals)
  | e :: es, d, sizes, vals =>
    if sel e then
      match recSize T sizes with
      | none => none
      | some (a, s') =>
        match unpackRec T op e a d vals with
        | none => none
        | some (d', vals') => unpackDense T sel op es d' s' vals'
    else unpackDense T sel op es d sizes vals

/-- One type in UnpackTagData (parallel.cpp L3283-3380). -/
def unpackType (T : TagInfo) (sel : El → Bool) (op : Op V) (i : Nat) (els : List El)
    (d : El → Option (List V)) (sizes : List Nat) (vals : List V) :
    Option ((El → Option (List V)) × List Nat × List V) :=
  if T.sparse i then
    match sizes with
    | [] => none
    | c :: s => unpackSparse T sel op els c d s vals
  else unpackDense T sel op els d sizes vals

/-- The loop over types in UnpackTagData. -/
def unpackTypes (T : TagInfo) (sel : El → Bool) (op : Op V) (els : Nat → List El) :
    List Nat → (El → Option (List V)) → List Nat → List V → Option (El → Option (List V))
  | [], d, _, _ => some d
  | i :: is, d, sizes, vals =>
    match unpackType T sel op i (els i) d sizes vals with
    | none => none
    | some (d', s', v') => unpackTypes T sel op els is d' s' v'

/-- UnpackTagData (parallel.cpp L3259-3394). -/
def unpackTag (T : TagInfo) (sel : El → Bool) (op : Op V) (els : Nat → List El) (m : Packet V)
    (d : El → Option (List V)) : Option (El → Option (List V)) :=
  unpackTypes T sel op els ((List.range 6).filter fun i => m.types.contains i) d m.sizes m.vals

/-- A collective call: number of processors, tags (number in `Local.data` and flags), mask of types,
operation, and whether data goes from ghosts to owners (ReduceData) or back (ExchangeData). -/
structure Call (V : Type) where
  n : Nat
  tags : List (Nat × TagInfo)
  mask : Nat → Bool
  reduce : Bool
  op : Op V

/-- ExchangeData (parallel.cpp L3806-3830). -/
def exchangeCall (n : Nat) (tags : List (Nat × TagInfo)) (mask : Nat → Bool) : Call V where
  n := n
  tags := tags
  mask := mask
  reduce := false
  op := defaultUnpack

/-- ReduceData (parallel.cpp L3881-3906). -/
def reduceCall (n : Nat) (tags : List (Nat × TagInfo)) (mask : Nat → Bool) (op : Op V) : Call V where
  n := n
  tags := tags
  mask := mask
  reduce := true
  op := op

/-- The argument `from`: `shared_elements` in ExchangeData L3822, `ghost_elements` in ReduceData L3897. -/
def fromList (C : Call V) (me : Nat) (L : Local V) (q i : Nat) : List El :=
  if C.reduce then ghostList C.mask L q i else sharedList C.mask me L q i

/-- The argument `to`. -/
def toList (C : Call V) (me : Nat) (L : Local V) (q i : Nat) : List El :=
  if C.reduce then sharedList C.mask me L q i else ghostList C.mask L q i

/-- `send_size`, `recv_size` (parallel.cpp L3436-3466). -/
def listSize (C : Call V) (L : Local V) (els : Nat → List El) : Nat :=
  ((List.range 5).map fun i => if C.mask i then ((els i).filter L.sel).length else 0).sum

/-- The processors to which a message is sent (parallel.cpp L3503-3519). -/
def sendTo (C : Call V) (me : Nat) (L : Local V) : List Nat :=
  (List.range C.n).filter fun q => q != me && listSize C L (fromList C me L q) != 0

/-- The processors from which a message is awaited (parallel.cpp L3523-3544). -/
def recvFrom (C : Call V) (me : Nat) (L : Local V) : List Nat :=
  (List.range C.n).filter fun q => q != me && listSize C L (toList C me L q) != 0

/-- The message for `q`: a packet per tag (parallel.cpp L3513-3514). -/
def message (C : Call V) (me : Nat) (L : Local V) (q : Nat) : List (Packet V) :=
  C.tags.map fun t => packTag t.2 C.mask L.sel (L.data t.1) (fromList C me L q)

/-- The receive buffer is large enough: with tags of known size only, it was allocated for
`6+2*recv_size` sizes and `recv_size*size` scalars per tag (parallel.cpp L3527-3540); otherwise its
size was communicated (L3556-3560). -/
def fits (C : Call V) (me : Nat) (L : Local V) (q : Nat) (m : List (Packet V)) : Bool :=
  let n := listSize C L (toList C me L q)
  (C.tags.any fun t => t.2.size.isNone) ||
    ((C.tags.zip m).all fun x =>
      decide (x.2.sizes.length ≤ 6 + 2 * n) && decide (x.2.vals.length ≤ n * x.1.2.size.getD 0))

/-- Assignment to the values of one tag. -/
def setTag (d : Nat → El → Option (List V)) (k : Nat) (r : El → Option (List V)) :
    Nat → El → Option (List V) :=
  fun k' => if k' = k then r else d k'

/-- The loop over tags for a received message (parallel.cpp L3699-3703). -/
def unpackTags (sel : El → Bool) (op : Op V) (els : Nat → List El) :
    List (Nat × TagInfo) → List (Packet V) → (Nat → El → Option (List V)) →
      Option (Nat → El → Option (List V))
  | [], _, d => some d
  | _ :: _, [], _ => none
  | (k, T) :: ts, m :: ms, d =>
    match unpackTag T sel op els m (d k) with
    | none => none
    | some r => unpackTags sel op els ts ms (setTag d k r)

/-- What processor `me` does with the message `m` of `q` (parallel.cpp L3677-3704). -/
def receive (C : Call V) (me : Nat) (L : Local V) (q : Nat) (m : List (Packet V)) : Option (Local V) :=
  if fits C me L q m then
    match unpackTags L.sel C.op (toList C me L q) C.tags m L.data with
    | none => none
    | some d => some { L with data := d }
  else none

/-- State of the whole computation: what the processors store, which of them have posted their sends and
receives, the messages on the way (`net q p` from `q` to `p`), and the senders each processor still
waits for. -/
structure Sys (V : Type) where
  loc : Nat → Local V
  begun : Nat → Bool
  net : Nat → Nat → Option (List (Packet V))
  wait : Nat → List Nat

/-- What happens next: processor `p` runs ExchangeDataInnerBegin, or `MPI_Waitsome` of processor `p`
reports the message of `q` and `p` unpacks it. -/
inductive Event where
  | start (p : Nat)
  | deliver (p q : Nat)
  deriving DecidableEq, Repr

/-- Outcome of an event: it cannot happen now; an assertion fails; it happens. -/
inductive Res (α : Type) where
  | blocked
  | failed
  | ok (a : α)

/-- Initial state of a collective call. -/
def initSys (G : Nat → Local V) : Sys V where
  loc := G
  begun := fun _ => false
  net := fun _ _ => none
  wait := fun _ => []

/-- ExchangeDataInnerBegin (parallel.cpp L3397-3571) and one turn of the loop of ExchangeDataInnerEnd
(L3675-3705). -/
def step (C : Call V) (S : Sys V) : Event → Res (Sys V)
  | .start p =>
    if p < C.n ∧ S.begun p = false then
      .ok { S with
        begun := fun x => if x = p then true else S.begun x
        net := fun x q => if x = p then
          (if q ∈ sendTo C p (S.loc p) then some (message C p (S.loc p) q) else none) else S.net x q
        wait := fun x => if x = p then recvFrom C p (S.loc p) else S.wait x }
    else .blocked
  | .deliver p q =>
    if S.begun p ∧ q ∈ S.wait p then
      match S.net q p with
      | none => .blocked
      | some m =>
        match receive C p (S.loc p) q m with
        | none => .failed
        | some L =>
          .ok { S with
            loc := fun x => if x = p then L else S.loc x
            net := fun x y => if x = q ∧ y = p then none else S.net x y
            wait := fun x => if x = p then (S.wait p).erase q else S.wait x }
    else .blocked

/-- A sequence of events that happen, from the initial state. -/
inductive Run (C : Call V) (G : Nat → Local V) : List Event → Sys V → Prop where
  | nil : Run C G [] (initSys G)
  | snoc {tr S ev S'} : Run C G tr S → step C S ev = .ok S' → Run C G (tr ++ [ev]) S'

/-- Every processor has left the collective call. -/
def Done (C : Call V) (S : Sys V) : Prop :=
  ∀ p, p < C.n → S.begun p = true ∧ S.wait p = []

end Verif.Parallel
