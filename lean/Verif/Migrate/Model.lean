import Verif.Transfer.Exchange
import Verif.Parallel.Remove
import Verif.Layers.Model

/-!
# Model of the redistribution of the mesh

Source: `Source/Mesh/parallel.cpp` (RedistUnpack L368-378, determine_my_procs_high L1382-1399, ExchangeMarked L5914-6294 with
`action == AMigrate`, Redistribute L6919-7309), `Source/Mesh/element.cpp` (UnionSendTo, SendTo L2040-2065).

The user gives every cell a new owner.  Redistribute finds out which processors need each cell, face, edge and node,
sends the elements to processors that do not have them, deletes what is not needed any more and sets the new owners.

Simplifications.
* Sets and tags with references are left out (L7141-7168, L7194-7246, L7260-7265, RemoveLinksToDeletedElements);
  the two collective calls of L7169-7170 stay.
* The new owners are natural numbers.  Entries of the maps from processors that do not exist are left out: such a processor
  makes the assertion in ExchangeMarked fail (L5956).
* No temporary tags and no content of `SENDTO_PROCESSORS` before the call; the mesh is not being modified.
* A marker used in a loop is the list of the elements that have it.
* `layers` is not negative.
-/

namespace Verif.Migrate

open Verif.Topology Verif.Transfer Verif.Layers

variable {V : Type}

/-! ## ExchangeMarked(AMigrate) -/

/-- The tags of an element with `TEMPORARY_NEW_OWNER` and `TEMPORARY_NEW_PROCESSORS` (parallel.cpp L6925-6927), which are sent
like the other tags. -/
structure Pay (V : Type) where
  val : V
  owner : Nat
  procs : List Nat

/-- `std::binary_search(procs.begin(),procs.end(),mpirank)` fails on a list that is not empty (parallel.cpp L6074-6076). -/
def doomed (me : Nat) (S : Side (Pay V)) (e : El) : Bool :=
  !(S.val e).procs.isEmpty && !foundProc me (S.val e).procs

/-- One element of the loop that deletes (parallel.cpp L6096-6101). -/
def dropOne (flip : Topo → El → Bool) (del : El → Bool) (T : Topo) (e : El) : Option Topo :=
  if T.alive e && del e then T.delete flip e else some T

/-- The loop over a type (parallel.cpp L6094-6102). -/
def dropType (flip : Topo → El → Bool) (del : El → Bool) (T : Topo) (t : Nat) : Option Topo :=
  forEach (dropOne flip del) (elemsOf T t) T

/-- Deletion of the elements that do not stay (parallel.cpp L6067-6105): cells, faces, edges, nodes. -/
def drop (flip : Topo → El → Bool) (me : Nat) (S : Side (Pay V)) : Option (Side (Pay V)) :=
  match forEach (dropType flip (doomed me S)) [3, 2, 1, 0] S.T with
  | none => none
  | some T => some { S with T := T }

/-- The loop over the messages (parallel.cpp L6114-6139). -/
def takeMoved (me : Nat) (dup : Bool) (pick : Topo → Nat → Nat) : List (Nat × Msg V) → Side V → Option (Side V)
  | [], R => some R
  | (p, M) :: ms, R => match unpack me p dup pick M R with
    | none => none
    | some (R', _) => takeMoved me dup pick ms R'

/-- New owners, lists of processors and statuses (parallel.cpp L6214-6243; `dely_delete` is false, L5917). -/
def assign (me : Nat) (S : Side (Pay V)) : Side (Pay V) :=
  { S with
    owner := fun e => if S.T.alive e && !(S.val e).procs.isEmpty then ((S.val e).owner : Int) else S.owner e
    procs := fun e => if S.T.alive e && !(S.val e).procs.isEmpty then (S.val e).procs else S.procs e
    status := fun e => if S.T.alive e && !(S.val e).procs.isEmpty then
        if (S.val e).owner = me then if (S.val e).procs.length = 1 then .owned else .shared else .ghost
      else S.status e }

/-- States of the processors during the call, messages and orders of arrival. -/
structure Trace (V : Type) where
  sent : Nat → Side (Pay V)
  box : Nat → List (Nat × Msg (Pay V))
  left : Nat → Side (Pay V)
  order : Nat → List (Nat × Msg (Pay V))
  got : Nat → Side (Pay V)

/-- ExchangeMarked(AMigrate) (parallel.cpp L5914-6294): elements are not sent by number (L5980-5982); there is no second
round. -/
structure MoveMarked (n : Nat) (dup : Bool) (pick : Topo → Nat → Nat) (flip : Topo → El → Bool)
    (sendto : Nat → El → List Nat) (W W' : Nat → Side (Pay V)) (X : Trace V) : Prop where
  send : ∀ p, p < n → sendMarked n p (fun _ => false) (sendto p) (W p) = some (X.sent p, X.box p)
  drop : ∀ p, p < n → drop flip p (X.sent p) = some (X.left p)
  arrive : ∀ q, q < n → (X.order q).Perm (mail n X.box q)
  take : ∀ q, q < n → takeMoved q dup pick (X.order q) (X.left q) = some (X.got q)
  store : ∀ p, p < n → recompute n p (assign p (X.got p)) = some (W' p)

/-! ## Redistribute -/

/-- `std::set_union` (parallel.cpp L375, L1394): the turns of the loop in which the first range stands at `a`. -/
def setUnionAt (a : Nat) (rest : List Nat → List Nat) : List Nat → List Nat
  | [] => a :: rest []
  | b :: m => if a < b then a :: rest (b :: m) else if b < a then b :: setUnionAt a rest m else a :: rest m

/-- `std::set_union` of sorted ranges of integers, as used in parallel.cpp L375 and L1394. -/
def setUnion : List Nat → List Nat → List Nat
  | [] => fun m => m
  | a :: l => setUnionAt a (setUnion l)

/-- RedistUnpack (parallel.cpp L368-378): nothing is done with an empty list. -/
def redistUnpack : Parallel.Op Nat := Parallel.listOp setUnion

/-- determine_my_procs_high (parallel.cpp L1382-1399); `res` is the content of `result` before the call, which stays if
there are no upper elements. -/
def highProcs (S : Side V) (np : El → List Nat) (res : List Nat) (e : El) : List Nat :=
  match S.T.high e with
  | [] => res
  | u :: us => (u :: us).foldl (fun r u => setUnion r (np u)) []

/-- The tags `TEMPORARY_NEW_OWNER`, `TEMPORARY_NEW_PROCESSORS`, and `result` (parallel.cpp L6925-6930). -/
structure Tags where
  own : El → Nat
  np : El → List Nat
  res : List Nat

/-- One element below cells (parallel.cpp L6947-6965; without the owner L7117-7124, L7180-7187). -/
def passOne (me : Nat) (setOwn : Bool) (S : Side V) (X : Tags) (e : El) : Tags :=
  let r := highProcs S X.np X.res e
  match r with
  | [] => ⟨if setOwn then set1 X.own e me else X.own, set1 X.np e [me], r⟩
  | a :: l => ⟨if setOwn then set1 X.own e a else X.own, set1 X.np e (a :: l), r⟩

/-- Faces, edges, nodes (parallel.cpp L6940-6975, L7113-7126, L7176-7189). -/
def pass (me : Nat) (setOwn : Bool) (S : Side V) (X : Tags) : Tags :=
  (elemsOf S.T 2 ++ elemsOf S.T 1 ++ elemsOf S.T 0).foldl (passOne me setOwn S) X

/-- `push_back(new_owner)` for the cells (parallel.cpp L6937-6938); the other lists are empty. -/
def startNp (S : Side V) (own : El → Nat) (e : El) : List Nat :=
  if e.ty = 3 && S.T.alive e then [own e] else []

/-- `TEMPORARY_NEW_OWNER`: one integer (parallel.cpp L6925). -/
def ownerTag : Parallel.TagInfo where
  size := some 1
  defd := fun _ => true
  sparse := fun _ => false

/-- `ExchangeData(tag_new_owner,mask,0)` (parallel.cpp L6932, L6977) takes the values `a` to `b`. -/
def Swap (n : Nat) (mask : Nat → Bool) (W : Nat → Side V) (a b : Nat → El → Nat) : Prop :=
  ∃ G1, Parallel.Collective (Parallel.exchangeCall n [(0, ownerTag)] mask)
      (Parallel.tagged 0 (fun p e => some [a p ⟨e.ty, e.id⟩]) fun p => look Nat (W p)) G1 ∧
    ∀ p, p < n → ∀ e, (W p).T.alive e = true → (G1 p).data 0 (toP e) = some [b p e]

/-- `ReduceData(tag_new_processors,mask,0,RedistUnpack)` and `ExchangeData(tag_new_processors,mask,0)` (parallel.cpp L6986-6987,
L7108-7109, L7129-7130, L7136-7137, L7169-7170, L7190-7191) take the values `a` to `b`. -/
def Merge (n : Nat) (mask : Nat → Bool) (W : Nat → Side V) (a b : Nat → El → List Nat) : Prop :=
  ∃ G1 G2, Parallel.Collective (Parallel.reduceCall n [(0, procsTag)] mask redistUnpack)
      (Parallel.tagged 0 (fun p e => some (a p ⟨e.ty, e.id⟩)) fun p => look Nat (W p)) G1 ∧
    Parallel.Collective (Parallel.exchangeCall n [(0, procsTag)] mask) G1 G2 ∧
    ∀ p, p < n → ∀ e, (W p).T.alive e = true → (G2 p).data 0 (toP e) = some (b p e)

/-- `skin_faces` (parallel.cpp L6992-7000). -/
def splitFaces (np : El → List Nat) : List El → List (Nat × El)
  | [] => []
  | f :: fs => match np f with
    | [a, b] => (a, f) :: (b, f) :: splitFaces np fs
    | _ => splitFaces np fs

/-- `redistribute_skin[q]` for a bridge of type `t` (parallel.cpp L7001-7023). -/
def splitSkin (S : Side V) (t : Nat) (np : El → List Nat) (q : Nat) : Option (List El) :=
  if t = 2 then some (ofProc (splitFaces np (elemsOf S.T 2)) q)
  else visit S t [] (ofProc (splitFaces np (elemsOf S.T 2)) q)

/-- Marking of cells for a processor: the lists, the marker `busy`, and the layer. -/
structure Mark where
  np : El → List Nat
  busy : List El
  layer : List El

/-- The loop over cells (parallel.cpp L7042-7054, L7081-7095). -/
def markCells (q : Nat) : Mark → List El → Mark
  | m, [] => m
  | m, c :: cs =>
    if m.busy.contains c then markCells q m cs
    else if foundProc q (m.np c) then markCells q { m with busy := m.busy ++ [c] } cs
    else markCells q ⟨set1 m.np c (addProc q (m.np c)), m.busy ++ [c], m.layer ++ [c]⟩ cs

/-- The first layer for `q` (parallel.cpp L7037-7056). -/
def markFirst (S : Side V) (q : Nat) : Mark → List El → Option Mark
  | m, [] => some m
  | m, b :: bs => match adj S 3 b with
    | none => none
    | some l => markFirst S q (markCells q m l) bs

/-- The elements of the bridge type of a cell (parallel.cpp L7076-7098). -/
def markBridge (S : Side V) (q : Nat) : Mark → List El → Option Mark
  | m, [] => some m
  | m, j :: js =>
    if m.busy.contains j then markBridge S q m js
    else match adj S 3 j with
      | none => none
      | some l =>
        let m' := markCells q m l
        markBridge S q { m' with busy := m'.busy ++ [j] } js

/-- The next layer for `q` (parallel.cpp L7070-7102). -/
def markNext (S : Side V) (t q : Nat) : Mark → List El → Option Mark
  | m, [] => some m
  | m, c :: cs => match adj S t c with
    | none => none
    | some l => match markBridge S q m l with
      | none => none
      | some m' => markNext S t q m' cs

/-- The first layer for the processors of a list (parallel.cpp L7034-7058); processors without
skin have nothing to mark. -/
def firstAll (S : Side V) (t : Nat) (np0 : El → List Nat) :
    List Nat → (El → List Nat) → Option ((El → List Nat) × (Nat → List El))
  | [], np => some (np, fun _ => [])
  | q :: qs, np => match splitSkin S t np0 q with
    | none => none
    | some sk => match markFirst S q ⟨np, [], []⟩ sk with
      | none => none
      | some m => match firstAll S t np0 qs m.np with
        | none => none
        | some (np', L) => some (np', set1 L q m.layer)

/-- The next layer for the processors of a list (parallel.cpp L7066-7103). -/
def nextAll (S : Side V) (t : Nat) (old : Nat → List El) :
    List Nat → (El → List Nat) → Option ((El → List Nat) × (Nat → List El))
  | [], np => some (np, fun _ => [])
  | q :: qs, np => match markNext S t q ⟨np, old q, []⟩ (old q) with
    | none => none
    | some m => match nextAll S t old qs m.np with
      | none => none
      | some (np', L) => some (np', set1 L q m.layer)

/-- The loop over the remaining layers (parallel.cpp L7061-7105). -/
def moreLayers (S : Side V) (n t : Nat) : Nat → (Nat → List El) → (El → List Nat) → Option (El → List Nat)
  | 0, _, np => some np
  | k + 1, old, np => match nextAll S t old (List.range n) np with
    | none => none
    | some (np', L) => moreLayers S n t k L np'

/-- All layers (parallel.cpp L6989-7107); `layers` is not 0. -/
def markLayers (S : Side V) (n t layers : Nat) (np : El → List Nat) : Option (El → List Nat) :=
  match firstAll S t np (List.range n) np with
  | none => none
  | some (np', L) => moreLayers S n t (layers - 1) L np'

/-- Types of elements: the masks CELL, FACE and FACE|EDGE|NODE of the collective calls (parallel.cpp L6932, L6977, L6986). -/
def isCell (t : Nat) : Bool := t == 3
def isFace (t : Nat) : Bool := t == 2
def isLow (t : Nat) : Bool := t < 3

/-- The part of Redistribute for layers (parallel.cpp L6980-7138): `X` are the tags before, `Y` after. -/
def Widen (n t layers : Nat) (W : Nat → Side V) (X Y : Nat → Tags) : Prop :=
  if layers = 0 ∨ t = 4 then
    ∃ np, Merge n isLow W (fun p => (X p).np) np ∧ ∀ p, p < n → Y p = { X p with np := np p }
  else
    ∃ np1 np2 np3 np4, Merge n isFace W (fun p => (X p).np) np1 ∧
      (∀ p, p < n → markLayers (W p) n t layers (np1 p) = some (np2 p)) ∧
      Merge n isCell W np2 np3 ∧
      Merge n isLow W (fun p => (pass p false (W p) { X p with np := np3 p }).np) np4 ∧
      ∀ p, p < n → Y p = { pass p false (W p) { X p with np := np3 p } with np := np4 p }

/-- New owners and processors of all elements (parallel.cpp L6925-7192), from the new owners `new` of the cells; the bridge `t` is
4 for NONE. -/
def Plan (n t layers : Nat) (W : Nat → Side V) (new own : Nat → El → Nat) (np : Nat → El → List Nat) : Prop :=
  ∃ (own1 : Nat → El → Nat) (Y : Nat → Tags) (np1 : Nat → El → List Nat),
    Swap n isCell W new own1 ∧
    Swap n isLow W (fun p => (pass p true (W p) ⟨own1 p, startNp (W p) (own1 p), []⟩).own) own ∧
    Widen n t layers W (fun p => pass p true (W p) ⟨own1 p, startNp (W p) (own1 p), []⟩) Y ∧
    Merge n (fun _ => true) W (fun p => (Y p).np) np1 ∧
    Merge n isLow W (fun p => (pass p false (W p) { Y p with np := np1 p }).np) np

/-- A processor with the temporary tags (parallel.cpp L6925-6927). -/
def load (S : Side V) (own : El → Nat) (np : El → List Nat) : Side (Pay V) :=
  { S with val := fun e => ⟨S.val e, own e, np e⟩ }

/-- DeleteTag of the temporary tags (parallel.cpp L7302-7303). -/
def unload (S : Side (Pay V)) : Side V := { S with val := fun e => (S.val e).val }

/-- `SendTo(new_processors)` for own elements (parallel.cpp L7266-7267, element.cpp L2040-2065); `sendto` is
empty before. -/
def sendNew (me : Nat) (S : Side (Pay V)) (e : El) : List Nat :=
  if S.owner e = (me : Int) then Parallel.setDiff (fun a b => decide (a < b)) (S.val e).procs (S.procs e) else []

/-- Redistribute (parallel.cpp L6919-7309) with the bridge `t` and the number of layers the mesh remembers; `new` is the
tag `TEMPORARY_NEW_OWNER` on cells given by the user. -/
def Redistribute (n t layers : Nat) (dup : Bool) (pick : Topo → Nat → Nat) (flip : Topo → El → Bool) (new : Nat → El → Nat)
    (W W' : Nat → Side V) : Prop :=
  (t < 3 ∨ t = 4) ∧ ∃ own np Z X, Plan n t layers W new own np ∧
    MoveMarked n dup pick flip (fun p => sendNew p (load (W p) (own p) (np p))) (fun p => load (W p) (own p) (np p)) Z X ∧
    ∀ p, p < n → W' p = unload (Z p)

end Verif.Migrate
