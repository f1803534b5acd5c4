import Verif.Topology.Model
import Verif.Parallel.Model

/-!
# Model of the transfer of elements to another processor

Source: `Source/Mesh/parallel.cpp` (FindSharedGhost L3221-3255, PackElementsEnumerate L3957-3968,
PackElementsGather L3979-4156, PackElementsData L4158-4803, UnpackElementsData L4806-5590).

A processor gathers the elements to be sent to a destination together with what they are built of, and
packs them: nodes by their global number and coordinates, edges, faces and cells by the positions of
their lower elements in the lists sent, or, if the destination is known to have the element, by owner and
global number.  The receiver looks for each element and creates those it does not have.

Simplifications.
* `num e` stands for what an element is recognised by: the global number, or for nodes without
  global numbers the coordinates.  The model reads `num` of nodes, and of elements of other types
  only where the program reads `GlobalID`.
* `MPI_Pack` and `MPI_Unpack` are the identity on lists.  `val` stands for all tags sent
  except the owner, the list of processors and the number (`GLOBAL_ID`); such a tag is assigned as a whole
  (PackTagData, UnpackTagData and DefaultUnpack are the subject of C60).
* The status is not sent (`PROTECTED_STATUS`).
* Sets, and elements added because of references in tags (L3998-4060, L4104-4135), are left out.
* The mesh is not being modified, so that no element is hidden.
* The numbers a freshly created record holds are overwritten by the data received: `num`, `procs`,
  `val` of a new element are left as they are by its creation.
-/

namespace Verif.Transfer

open Verif.Topology

/-- A processor: connectivity, what elements are recognised by, the tags `OwnerTag`, `ProcessorsTag`,
`SharedTag`, the other tags, and the stored lists `shared_elements`, `ghost_elements`. -/
structure Side (V : Type) where
  T : Topo
  num : El → Nat
  owner : El → Int
  procs : El → List Nat
  status : El → Parallel.Status
  val : El → V
  sh : Nat → Nat → List El
  gh : Int → Nat → List El

variable {V : Type}

/-! ## The sender -/

/-- The element is sent by its number: `pack_by_gids && HaveGlobalID(type)` is `byNum`, and the
destination is in the list of processors (parallel.cpp L4070-4075, L4243-4248, L4352-4357, L4441-4446). -/
def Side.known (S : Side V) (byNum : Nat → Bool) (dest : Nat) (e : El) : Bool :=
  byNum e.ty && (S.procs e).contains dest

/-- `if( !GetMarker(x,busy) ) push_back(x), SetMarker(x,busy)` (parallel.cpp L4081-4085, L4092-4096);
an element has the marker if and only if it is in a list. -/
def addNew (l : List El) (x : El) : List El := if l.contains x then l else l ++ [x]

/-- Body of the loop of PackElementsGather (parallel.cpp L4066-4100). -/
def gatherOne (S : Side V) (byNum : Nat → Bool) (dest t : Nat) (sel : Nat → List El) (e : El) :
    Nat → List El :=
  if S.known byNum dest e then sel else
  let sel1 := set1 sel (t - 1) ((S.T.low e).foldl addNew (sel (t - 1)))
  if t = 3 ∧ S.T.cn = true then set1 sel1 0 ((S.T.high e).foldl addNew (sel1 0)) else sel1

/-- One type (parallel.cpp L4063-4101). -/
def gatherType (S : Side V) (byNum : Nat → Bool) (dest t : Nat) (sel : Nat → List El) : Nat → List El :=
  (sel t).foldl (gatherOne S byNum dest t) sel

/-- PackElementsGather (parallel.cpp L3979-4156): cells, then faces, then edges. -/
def gather (S : Side V) (byNum : Nat → Bool) (dest : Nat) (sel : Nat → List El) : Nat → List El :=
  gatherType S byNum dest 1 (gatherType S byNum dest 2 (gatherType S byNum dest 3 sel))

/-- PackElementsEnumerate (parallel.cpp L3957-3968) on one list. -/
def enumFrom : Nat → List El → (El → Option Nat) → El → Option Nat
  | _, [], pos => pos
  | i, e :: es, pos => enumFrom (i + 1) es (set1 pos e (some i))

/-- PackElementsEnumerate. -/
def positions (sel : Nat → List El) : El → Option Nat :=
  enumFrom 0 (sel 3) (enumFrom 0 (sel 2) (enumFrom 0 (sel 1) (enumFrom 0 (sel 0) fun _ => none)))

/-- The position of `x`; the assertions of parallel.cpp L4280-4282 (L4379-4381, L4469-4471,
L4489-4491): the element has one, and is found there. -/
def place (pos : El → Option Nat) (l : List El) (x : El) : Option Int :=
  match pos x with
  | none => none
  | some i => if l[i]? = some x then some (i : Int) else none

/-- Positions of the elements of an array. -/
def places (pos : El → Option Nat) (l : List El) : List El → Option (List Int)
  | [] => some []
  | x :: xs => match place pos l x, places pos l xs with
    | some i, some is => some (i :: is)
    | _, _ => none

/-- Entry of `low_conn_size` and entries of `low_conn_nums` for one element (parallel.cpp L4240-4287,
L4349-4387, L4439-4477); `none` is `ENUMUNDEF`. -/
def packOne (S : Side V) (byNum : Nat → Bool) (dest : Nat) (pos : El → Option Nat) (prev : List El)
    (e : El) : Option (Option Nat × List Int) :=
  if S.known byNum dest e then some (none, [S.owner e, (S.num e : Int)]) else
  match places pos prev (S.T.low e) with
  | none => none
  | some c => some (some c.length, c)

/-- `low_conn_size` and `low_conn_nums` of a type. -/
def packConn (S : Side V) (byNum : Nat → Bool) (dest : Nat) (pos : El → Option Nat) (prev : List El) :
    List El → Option (List (Option Nat) × List Int)
  | [] => some ([], [])
  | e :: es => match packOne S byNum dest pos prev e, packConn S byNum dest pos prev es with
    | some (k, c), some (ks, cs) => some (k :: ks, c ++ cs)
    | _, _ => none

/-- `high_conn_size` and `high_conn_nums` of the cells (parallel.cpp L4450, L4478-4498). -/
def packHigh (S : Side V) (byNum : Nat → Bool) (dest : Nat) (pos : El → Option Nat) (nodes : List El) :
    List El → Option (List Nat × List Int)
  | [] => some ([], [])
  | e :: es =>
    match (if S.known byNum dest e then some [] else places pos nodes (S.T.high e)),
      packHigh S byNum dest pos nodes es with
    | some c, some (ks, cs) => some (c.length :: ks, c ++ cs)
    | _, _ => none

/-- `lower_bound` and `insert` in the sorted list of processors (parallel.cpp L4191-4193). -/
def addProc (q : Nat) : List Nat → List Nat
  | [] => [q]
  | p :: ps => if p < q then p :: addProc q ps else if p = q then p :: ps else q :: p :: ps

/-- What happens to an element sent: an own element becomes shared with the destination
(parallel.cpp L4187-4203, L4303-4317, L4390-4403, L4500-4513). -/
def touch (me dest : Nat) (S : Side V) (e : El) : Side V :=
  if S.owner e = (me : Int) then
    { S with procs := set1 S.procs e (addProc dest (S.procs e)), status := set1 S.status e .shared }
  else S

/-- Values of the tags sent. -/
structure Rec (V : Type) where
  num : Nat
  owner : Int
  procs : List Nat
  val : V

/-- The values on an element. -/
def Side.tags (S : Side V) (e : El) : Rec V := ⟨S.num e, S.owner e, S.procs e, S.val e⟩

/-- A message: numbers of the nodes; per type `low_conn_size`, `low_conn_nums`; `high_conn_size`,
`high_conn_nums`; per type `marked_for_data`; the tags of the elements marked, or nothing if the list of
tags is empty. -/
structure Msg (V : Type) where
  nodes : List Nat
  size : Nat → List (Option Nat)
  nums : Nat → List Int
  hsize : List Nat
  hnums : List Int
  marked : Nat → Nat
  data : Option (Nat → List (Rec V))

/-- The elements for which the tags are sent: those the destination does not own (parallel.cpp L4205-4211,
L4318-4324, L4404-4410, L4514-4520). -/
def marks (dest : Nat) (S : Side V) (l : List El) : List El := l.filter fun e => S.owner e != (dest : Int)

/-- PackElementsData (parallel.cpp L4158-4803) on processor `me`; the tags are packed after all elements
have been visited (L4737-4785).  Every element is in the list once, so that `known` is asked before the list
of processors changes.  `tags` says whether the list of tags contains all tags (ExchangeMarked) or is
empty (InformElementsOwners). -/
def pack (me dest : Nat) (byNum : Nat → Bool) (tags : Bool) (sel : Nat → List El) (S : Side V) :
    Option (Side V × Msg V) :=
  let pos := positions sel
  match packConn S byNum dest pos (sel 0) (sel 1), packConn S byNum dest pos (sel 1) (sel 2),
    packConn S byNum dest pos (sel 2) (sel 3),
    (if S.T.cn then packHigh S byNum dest pos (sel 0) (sel 3) else some ([], [])) with
  | some c1, some c2, some c3, some h =>
    let S' := (sel 0 ++ sel 1 ++ sel 2 ++ sel 3).foldl (touch me dest) S
    some (S', {
      nodes := (sel 0).map S.num
      size := fun t => if t = 1 then c1.1 else if t = 2 then c2.1 else c3.1
      nums := fun t => if t = 1 then c1.2 else if t = 2 then c2.2 else c3.2
      hsize := h.1
      hnums := h.2
      marked := fun t => (marks dest S (sel t)).length
      data := if tags then some fun t => (marks dest S (sel t)).map S'.tags else none })
  | _, _, _, _ => none

/-! ## The receiver -/

/-- One step of an insertion sort by number. -/
def insertNum (num : El → Nat) (e : El) : List El → List El
  | [] => [e]
  | x :: l => if num e ≤ num x then e :: x :: l else x :: insertNum num e l

/-- `std::sort` with GlobalIDComparator or CentroidComparator. -/
def sortNum (num : El → Nat) : List El → List El
  | [] => []
  | e :: l => insertNum num e (sortNum num l)

/-- `old_nodes` (parallel.cpp L4820-4850): all nodes, sorted. -/
def oldNodes (R : Side V) : List El :=
  sortNum R.num (((List.range (R.T.last 0)).map fun i => (⟨0, i⟩ : El)).filter R.T.alive)

/-- `std::lower_bound` and the comparison of the number found (parallel.cpp L4889-4899, L4905-4917, L3236-3238,
L3249-3251). -/
def lookup (num : El → Nat) (l : List El) (g : Nat) : Option El :=
  match (l.dropWhile fun x => num x < g).head? with
  | none => none
  | some x => if num x = g then some x else none

/-- FindSharedGhost (parallel.cpp L3221-3255) on processor `me`. -/
def findSharedGhost (R : Side V) (me src t : Nat) (owner : Int) (g : Nat) : Option El :=
  if owner = (me : Int) then lookup R.num (R.sh src t) g else lookup R.num (R.gh owner t) g

/-- A new element: status ghost, owner -1 (parallel.cpp L4934-4943, L5025-5035, L5117-5125, L5254-5262). -/
def newEl (R : Side V) (T' : Topo) (x : El) : Side V :=
  { R with T := T', status := set1 R.status x .ghost, owner := set1 R.owner x (-1) }

/-- A node of the message (parallel.cpp L4877-4954); `pick` chooses the number of a new element.  The last component
says that the element is marked for data. -/
def nodeStep (me : Nat) (pick : Topo → Nat → Nat) (old : List El) (R : Side V) (g : Nat) :
    Option (Side V × El × Bool) :=
  match lookup R.num old g with
  | some x => some (R, x, R.owner x != (me : Int))
  | none => match R.T.createNode (pick R.T 0) with
    | none => none
    | some T' => some (newEl R T' ⟨0, pick R.T 0⟩, ⟨0, pick R.T 0⟩, true)

/-- An entry of the arrays of a type: an owner and a number, or positions of lower elements. -/
inductive Item where
  | byNum (owner num : Int)
  | conn (idx : List Int)

/-- Reading `low_conn_size` and `low_conn_nums` with the variable `shift` (parallel.cpp L4993-5017, L5088-5110,
L5214-5236). -/
def decode : List (Option Nat) → List Int → Option (List Item)
  | [], _ => some []
  | none :: ks, o :: g :: ns => match decode ks ns with
    | some its => some (.byNum o g :: its)
    | none => none
  | none :: _, _ => none
  | some k :: ks, ns => if ns.length < k then none else match decode ks (ns.drop k) with
    | some its => some (.conn (ns.take k) :: its)
    | none => none

/-- Reading `high_conn_size` and `high_conn_nums` with `shift_high` (parallel.cpp L5237-5247): only for cells sent
with their faces. -/
def decodeHigh : List Item → List Nat → List Int → Option (List (Item × List Int))
  | [], _, _ => some []
  | .byNum o g :: its, _ :: ks, ns => match decodeHigh its ks ns with
    | some r => some ((.byNum o g, []) :: r)
    | none => none
  | .conn c :: its, k :: ks, ns => if ns.length < k then none else match decodeHigh its ks (ns.drop k) with
    | some r => some ((.conn c, ns.take k) :: r)
    | none => none
  | _ :: _, [], _ => none

/-- `selems[t][i]` with the assertion that the position is in range (parallel.cpp L5013-5015, L5107-5109,
L5232-5234, L5242-5244). -/
def elAt (l : List El) (i : Int) : Option El := if 0 ≤ i then l[i.toNat]? else none

/-- The elements at several positions. -/
def elsAt (l : List El) : List Int → Option (List El)
  | [] => some []
  | i :: is => match elAt l i, elsAt l is with
    | some x, some xs => some (x :: xs)
    | _, _ => none

/-- An element sent with its lower elements `es` and, for cells, nodes `ns`: search by FindSharedAdjacency, creation
(parallel.cpp L5018-5048, L5111-5164, L5248-5272). -/
def connStep (me : Nat) (dup : Bool) (pick : Topo → Nat → Nat) (t : Nat) (es ns : List El) (R : Side V) :
    Option (Side V × El × Bool) :=
  match R.T.findShared es with
  | none => none
  | some (some u) => some (R, u, R.owner u != (me : Int))
  | some none => match R.T.create dup t (pick R.T t) es ns with
    | some (T', some u, true) => some (newEl R T' u, u, true)
    | _ => none

/-- An element of the message (parallel.cpp L4990-5049, L5085-5167, L5211-5274); `prev` are the elements one type
below, `nodes` the nodes of the message. -/
def upStep (me src : Nat) (dup : Bool) (pick : Topo → Nat → Nat) (t : Nat) (prev nodes : List El) (R : Side V) :
    Item × List Int → Option (Side V × El × Bool)
  | (.byNum o g, _) => match findSharedGhost R me src t o g.toNat with
    | none => none
    | some u => some (R, u, R.owner u != (me : Int))
  | (.conn idx, hidx) => match elsAt prev idx, elsAt nodes hidx with
    | some es, some ns => connStep me dup pick t es ns R
    | _, _ => none

/-- Loop over the entries. -/
def runSteps {A : Type} (f : Side V → A → Option (Side V × El × Bool)) :
    List A → Side V → Option (Side V × List (El × Bool))
  | [], R => some (R, [])
  | a :: as, R => match f R a with
    | none => none
    | some (R1, x, b) => match runSteps f as R1 with
      | none => none
      | some (R2, l) => some (R2, (x, b) :: l)

/-- `assert(marked_for_data == marked_remote)` (parallel.cpp L4966, L5062, L5180, L5287). -/
def checked (n : Nat) (r : Option (Side V × List (El × Bool))) : Option (Side V × List (El × Bool)) :=
  match r with
  | none => none
  | some (R, l) => if (l.filter fun p => p.2).length = n then some (R, l) else none

/-- The entries of a type. -/
def items (M : Msg V) (cn : Bool) (t : Nat) : Option (List (Item × List Int)) :=
  match decode (M.size t) (M.nums t) with
  | none => none
  | some its => if t = 3 ∧ cn = true then decodeHigh its M.hsize M.hnums else some (its.map fun i => (i, []))

/-- One type: edges L4977-5070, faces L5072-5191, cells L5193-5296 of parallel.cpp. -/
def level (me src : Nat) (dup : Bool) (pick : Topo → Nat → Nat) (M : Msg V) (t : Nat) (prev nodes : List El)
    (R : Side V) : Option (Side V × List (El × Bool)) :=
  match items M R.T.cn t with
  | none => none
  | some its => checked (M.marked t) (runSteps (upStep me src dup pick t prev nodes) its R)

/-- UnpackTagData for the elements marked, in their order (parallel.cpp L5525-5570). -/
def putTags : List (El × Bool) → List (Rec V) → Side V → Option (Side V)
  | [], [], R => some R
  | [], _ :: _, _ => none
  | (_, false) :: l, d, R => putTags l d R
  | (_, true) :: _, [], _ => none
  | (x, true) :: l, r :: d, R => putTags l d { R with
      num := set1 R.num x r.num, owner := set1 R.owner x r.owner,
      procs := set1 R.procs x r.procs, val := set1 R.val x r.val }

/-- The tags of all types. -/
def putAll (out : Nat → List (El × Bool)) (data : Nat → List (Rec V)) (R : Side V) : Option (Side V) :=
  match putTags (out 0) (data 0) R with
  | none => none
  | some R1 => match putTags (out 1) (data 1) R1 with
    | none => none
    | some R2 => match putTags (out 2) (data 2) R2 with
      | none => none
      | some R3 => putTags (out 3) (data 3) R3

/-- Elements found or created, per type, with marks. -/
def outs (l0 l1 l2 l3 : List (El × Bool)) : Nat → List (El × Bool) := fun t =>
  if t = 0 then l0 else if t = 1 then l1 else if t = 2 then l2 else if t = 3 then l3 else []

/-- UnpackElementsData (parallel.cpp L4806-5590) on processor `me` of a message of `src`; the result contains the
elements received, per type. -/
def unpack (me src : Nat) (dup : Bool) (pick : Topo → Nat → Nat) (M : Msg V) (R : Side V) :
    Option (Side V × (Nat → List (El × Bool))) :=
  match checked (M.marked 0) (runSteps (nodeStep me pick (oldNodes R)) M.nodes R) with
  | none => none
  | some (R0, l0) =>
    let nodes := l0.map Prod.fst
    match level me src dup pick M 1 nodes nodes R0 with
    | none => none
    | some (R1, l1) => match level me src dup pick M 2 (l1.map Prod.fst) nodes R1 with
      | none => none
      | some (R2, l2) => match level me src dup pick M 3 (l2.map Prod.fst) nodes R2 with
        | none => none
        | some (R3, l3) => match M.data with
          | none => some (R3, outs l0 l1 l2 l3)
          | some d => match putAll (outs l0 l1 l2 l3) d R3 with
            | none => none
            | some R4 => some (R4, outs l0 l1 l2 l3)

end Verif.Transfer
