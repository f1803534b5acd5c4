import Verif.Transfer.Exchange
import Verif.Layers.Collect

/-!
# Model of the construction of layers of ghost cells

Source: `Source/Mesh/parallel.cpp` (UnpackOnSkin L316-325, UnpackSkin L328-352, ComputeSharedSkinSet L2860-3095,
ExchangeGhost L6693-6878), `Source/Mesh/face.cpp` (BackCell L8-31, FrontCell L32-57).

Each processor finds the faces between its cells and cells of other processors, takes the elements of the
bridge type on them, and marks the cells at these elements for the other processor; after ExchangeMarked the
cells at the elements of the bridge type of the cells of the last layer are the next layer.

Simplifications.
* `marker` is 0 and `delete_ghost` is false.
* The numbers of the cells exist (`HaveGlobalID(CELL)`); `num` is the number.
* The integers of `TEMPORARY_COMPUTE_SHARED_SKIN_SET` are kept as pairs of a number and an owner.
* A marker used in a loop is the list of the elements that have it.
* The mesh is not being modified, so that no element is hidden.
-/

namespace Verif.Layers

open Verif.Topology Verif.Transfer

variable {V : Type}

/-- `getAdjElements(type)`. -/
def adj (S : Side V) (t : Nat) (e : El) : Option (List El) := S.T.getAdj e (fun i => i == t) [0, 1, 2, 3]

/-- Loop of UnpackSkin (parallel.cpp L332-350): pairs with a number that is not there yet are appended. -/
def skinMerge : List (Nat × Nat) → List (Nat × Nat) → List (Nat × Nat)
  | arr, [] => arr
  | arr, v :: vs => if arr.any fun w => w.1 == v.1 then skinMerge arr vs else skinMerge (arr ++ [v]) vs

/-- UnpackSkin (parallel.cpp L328-352).  `IntegerArray` makes an empty array if there is none
(MGetSparseLink, inmost_mesh.h L1358-1369). -/
def skinUnpack : Parallel.Op (Nat × Nat) := Parallel.listOp skinMerge

/-- UnpackOnSkin (parallel.cpp L316-325): `push_back(recv[0])`. -/
def onSkinUnpack : Parallel.Op Nat := Parallel.listOp fun arr x => arr ++ x.take 1

/-- What the collective calls work on. -/
def look (A : Type) (S : Side V) : Parallel.Local A where
  elems := (List.range 4).flatMap fun t => (elemsOf S.T t).map toP
  status := fun e => S.status ⟨e.ty, e.id⟩
  owner := fun e => (S.owner ⟨e.ty, e.id⟩).toNat
  procs := fun e => S.procs ⟨e.ty, e.id⟩
  key := fun e => S.num ⟨e.ty, e.id⟩
  sel := fun _ => true
  data := fun _ _ => none

/-- The numbers and owners of the cells at a face that is shared or a ghost (parallel.cpp L2874-2887);
outer `none`: the assertion L2883. -/
def skinOf (n : Nat) (S : Side V) (e : El) : Option (Option (List (Nat × Nat))) :=
  if e.ty = 2 ∧ (S.status e = .ghost ∨ S.status e = .shared) then
    match adj S 3 e with
    | none => none
    | some l =>
      if l.all fun c => decide (0 ≤ S.owner c ∧ S.owner c < (n : Int)) then
        some (some (l.map fun c => (S.num c, (S.owner c).toNat)))
      else none
  else some none

/-- The condition on the statuses of BackCell and FrontCell (parallel.cpp L2939-2954). -/
def skinFlag (S : Side V) : List El → Bool
  | [] => false
  | [c1] => S.status c1 == .owned || S.status c1 == .shared
  | c1 :: c2 :: _ =>
    (S.status c1 == .ghost && S.status c2 == .shared) || (S.status c2 == .ghost && S.status c1 == .shared) ||
    (S.status c1 == .owned && S.status c2 == .ghost) || (S.status c2 == .owned && S.status c1 == .ghost)

/-- The first owner that is not the processor itself (parallel.cpp L2958-2970); `none`: the assertion L2961. -/
def firstOther (n me : Nat) : List (Nat × Nat) → Option (Option Nat)
  | [] => some none
  | v :: vs => if v.2 < n then if v.2 ≠ me then some (some v.2) else firstOther n me vs else none

/-- A face of the skin, and for which processor (parallel.cpp L2929-2971); `d` is the content of the tag;
outer `none`: the assertions L2938, L2961. -/
def skinFace (n me : Nat) (S : Side V) (d : List (Nat × Nat)) (f : El) : Option (Option Nat) :=
  if S.status f = .owned then some none
  else if S.T.high f = [] then some none
  else if d.length < 2 then some none
  else if d.length ≠ 2 then none
  else if skinFlag S (S.T.high f) then firstOther n me d
  else some none

/-- `skin_faces`: the faces with the processors, in the order they are found (parallel.cpp L2927-2972). -/
def skinFaces (n me : Nat) (S : Side V) (d : El → List (Nat × Nat)) : List El → Option (List (Nat × El))
  | [] => some []
  | f :: fs => match skinFace n me S (d f) f, skinFaces n me S d fs with
    | some none, some l => some l
    | some (some o), some l => some ((o, f) :: l)
    | _, _ => none

/-- `skin_faces[q]`. -/
def ofProc (l : List (Nat × El)) (q : Nat) : List El := (l.filter fun x => x.1 == q).map Prod.snd

/-- `all_visited`: the elements of the bridge type on the faces (parallel.cpp L3036-3051). -/
def visit (S : Side V) (t : Nat) : List El → List El → Option (List El)
  | acc, [] => some acc
  | acc, f :: fs => match adj S t f with
    | none => none
    | some l => visit S t (l.foldl addNew acc) fs

/-- `bridge` (parallel.cpp L3063-3077); `none`: the assertion L3068. -/
def bridgeOf (n me : Nat) (vis : List El) (os : El → List Nat) : Option (Nat → List El) :=
  if vis.all fun e => (os e).all fun p => decide (p < n) then
    some fun q => vis.flatMap fun e => ((os e).filter fun p => p == q && p != me).map fun _ => e
  else none

/-- ComputeSharedSkinSet (parallel.cpp L2860-3095) on all processors: `bridge p q` is the result on processor `p`
for `q`. -/
def SkinSet (n t : Nat) (W : Nat → Side V) (bridge : Nat → Nat → List El) : Prop :=
  ∃ (init : Nat → Parallel.El → Option (List (Nat × Nat))) (G2 : Nat → Parallel.Local (Nat × Nat)) (sf : Nat → List (Nat × El)),
    (∀ p, p < n → ∀ e, (W p).T.alive e = true → skinOf n (W p) e = some (init p (toP e))) ∧
    Parallel.CollectRun n 0 (fun i => i == 2) skinUnpack init (fun p => look _ (W p)) G2 ∧
    (∀ p, p < n → skinFaces n p (W p) (fun e => ((G2 p).data 0 (toP e)).getD []) (elemsOf (W p).T 2) = some (sf p)) ∧
    if t = 2 then ∀ p, p < n → bridge p = ofProc (sf p)
    else ∃ (vis : Nat → List El) (G4 : Nat → Parallel.Local Nat),
      (∀ p, p < n → visit (W p) t [] ((List.range n).flatMap (ofProc (sf p))) = some (vis p)) ∧
      Parallel.CollectRun n 0 (fun i => i == t) onSkinUnpack
        (fun p e => if (vis p).contains (⟨e.ty, e.id⟩ : El) then some [p] else none) (fun p => look _ (W p)) G4 ∧
      ∀ p, p < n → bridgeOf n p (vis p) (fun e => ((G4 p).data 0 (toP e)).getD []) = some (bridge p)

/-- The loop over cells: those without the marker `busy` get it, and are added to the layer if `take` holds
(parallel.cpp L6735-6755, L6794-6810).  The state is the marker and the layer. -/
def sweep (take : El → Bool) : List El × List El → List El → List El × List El
  | st, [] => st
  | st, c :: cs =>
    if st.1.contains c then sweep take st cs
    else sweep take (st.1 ++ [c], if take c then st.2 ++ [c] else st.2) cs

/-- The first layer for processor `p` (parallel.cpp L6730-6757). -/
def firstLayer (S : Side V) (p : Nat) : List El × List El → List El → Option (List El × List El)
  | st, [] => some st
  | st, b :: bs => match adj S 3 b with
    | none => none
    | some l => firstLayer S p (sweep (fun c => S.owner c != (p : Int)) st l) bs

/-- The elements of the bridge type of a cell (parallel.cpp L6789-6813). -/
def nextBridge (S : Side V) (p : Nat) : List El × List El → List El → Option (List El × List El)
  | st, [] => some st
  | st, j :: js =>
    if st.1.contains j then nextBridge S p st js
    else match adj S 3 j with
      | none => none
      | some l =>
        let st' := sweep (fun _ => S.owner j != (p : Int)) st l
        nextBridge S p (st'.1 ++ [j], st'.2) js

/-- The next layer for processor `p` from the cells of the last one (parallel.cpp L6784-6814). -/
def nextLayer (S : Side V) (t p : Nat) : List El × List El → List El → Option (List El × List El)
  | st, [] => some st
  | st, c :: cs => match adj S t c with
    | none => none
    | some l => match nextBridge S p st l with
      | none => none
      | some st' => nextLayer S t p st' cs

/-- The content of `SENDTO_PROCESSORS`: the processors, increasing, for which the cell is in the layer
and which are not in its list (parallel.cpp L6744-6749, L6800-6805). -/
def sendtoOf (n : Nat) (S : Side V) (cur : Nat → List El) (e : El) : List Nat :=
  (List.range n).filter fun p => (cur p).contains e && !foundProc p (S.procs e)

/-- The loop over the layers (parallel.cpp L6766-6825): `k` layers remain, the next one is `cur p q` on processor `p`
for `q`. -/
def Rest (n t : Nat) (byNum : Nat → Bool) (dup : Bool) (pick : Topo → Nat → Nat) :
    Nat → (Nat → Nat → List El) → (Nat → Side V) → (Nat → Side V) → Prop
  | 0, _, W, W' => ∀ p, p < n → W' p = W p
  | k + 1, cur, W, W' => ∃ W1 X, Exchange n byNum dup pick (fun p => sendtoOf n (W p) (cur p)) W W1 X ∧
    if k = 0 then ∀ p, p < n → W' p = W1 p
    else ∃ cur' : Nat → Nat → List El × List El,
      (∀ p, p < n → ∀ q, nextLayer (W1 p) t q (cur p q, []) (cur p q) = some (cur' p q)) ∧
      Rest n t byNum dup pick k (fun p q => (cur' p q).2) W1 W'

/-- ExchangeGhost with `marker = 0`, `delete_ghost = false` (parallel.cpp L6693-6878), for a bridge of type `t`; other bridges
throw an exception (L6709-6712). -/
def ExchangeGhost (n t : Nat) (byNum : Nat → Bool) (dup : Bool) (pick : Topo → Nat → Nat) (layers : Nat)
    (W W' : Nat → Side V) : Prop :=
  t < 3 ∧ ∃ bridge, SkinSet n t W bridge ∧ ∃ cur : Nat → Nat → List El × List El,
    (∀ p, p < n → ∀ q, firstLayer (W p) q ([], []) (bridge p q) = some (cur p q)) ∧
    Rest n t byNum dup pick layers (fun p q => (cur p q).2) W W'

end Verif.Layers
