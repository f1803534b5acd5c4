import Verif.Parallel.Agreed

/-!
# Model of RemoveGhost and RemoveGhostElements

Source: `Source/Mesh/parallel.cpp`, DeleteUnpack L356-366, RemoveGhost L2312-2510, RemoveGhostElements L2512-2662.

Ghosts are deleted, first cells, then the faces, edges and nodes on which nothing stands any more, and the other
processors that have the element are told.  `low p e` is the array LowConn of `e` on processor `p`.

Simplifications.  The mesh has no hidden elements and is not being modified, so Delete destroys.  HighConn is
what LowConn says (C11, C47), and Delete of an element deletes what stands on it (C47).  Deleting a set does not
concern other elements.  The tag TEMPORARY_DELETE_GHOST_TAG is cleared between the passes: values on elements of
other types are not looked at.  `GlobalIDComparator` or `CentroidComparator` compare the keys.  The collective calls
use the stored lists; in the model they compute them, and `C95_partition_partial` says that this is the same.
RemoveLinksToDeletedElements (C91) and the numbers of layers L2506-2507 are left out.
-/

namespace Verif.Parallel

/-- What a processor stores: its part of the mesh, `shared_elements[q][i]` and `ghost_elements[q][i]`. -/
structure Part where
  L : Local Nat
  sh : Nat → Nat → List El
  gh : Nat → Nat → List El

/-- The parts of the mesh alone. -/
def meshOf (W : Nat → Part) : Nat → Local Nat := fun p => (W p).L

/-- The turns of the loop of `std::set_difference` in which the first range stands at `a`. -/
def setDiffAt {α : Type} (lt : α → α → Bool) (a : α) (rest : List α → List α) : List α → List α
  | [] => a :: rest []
  | b :: m => if lt a b then a :: rest (b :: m) else if lt b a then setDiffAt lt a rest m else rest m

/-- `std::set_difference`. -/
def setDiff {α : Type} (lt : α → α → Bool) : List α → List α → List α
  | [] => fun _ => []
  | a :: l => setDiffAt lt a (setDiff lt l)

/-- `std::sort` of ranks (L2433, L2560). -/
def insertRank (a : Nat) : List Nat → List Nat
  | [] => [a]
  | b :: l => if a ≤ b then a :: b :: l else b :: insertRank a l

def sortRanks : List Nat → List Nat
  | [] => []
  | a :: l => insertRank a (sortRanks l)

/-- DeleteUnpack (L356-366). -/
def deleteUnpack : Op Nat := fun _ _ d x =>
  match x with
  | [] => some d
  | _ => some (some (d.getD [] ++ x))

/-- The temporary tag (L2322, L2517): integers, variable length, sparse on all types of the pass. -/
def delTag : TagInfo := ⟨none, fun i => i < 5, fun i => i < 5⟩

/-- `nbAdjElements(NextElementType(mask))` (L2413, L2421, L2546): the number of elements standing on `e`. -/
def upper (low : El → List El) (L : Local Nat) (e : El) : Nat :=
  (L.elems.filter fun x => (low x).contains e).length

/-- Delete takes away an element of `D`, and what stands on a deleted element; sets do not stand on anything,
so three steps lead to all of it. -/
def doomed (low : El → List El) (D : List El) : Nat → El → Bool
  | 0, x => D.contains x
  | k + 1, x => D.contains x || (low x).any (doomed low D k)

/-- The loop of Delete over `delete_elements` (L2404, L2501, L2649). -/
def removeEls (low : El → List El) (D : List El) (L : Local Nat) : Local Nat :=
  { L with elems := L.elems.filter fun x => !doomed low D 3 x }

/-- GlobalIDComparator, CentroidComparator. -/
def keyLt (L : Local Nat) (a b : El) : Bool := decide (L.key a < L.key b)

/-- `std::sort` of `del` and `set_difference` with the stored list `l` (L2352-2391, L2449-2488, L2593-2634). -/
def takeOut (L : Local Nat) (l del : List El) : List El := setDiff (keyLt L) l (sortBy L.key del)

/-- `procs` without `del_procs` (L2438-2441, L2580-2583). -/
def lessProcs (procs del : List Nat) : List Nat := setDiff (fun a b => decide (a < b)) procs (sortRanks del)

/-- The loop over the cells in RemoveGhost and what follows it (L2324-2404) on processor `me`; `mk` is the marker,
constantly true without a marker. -/
def cellsOut (me : Nat) (low : El → List El) (mk : El → Bool) (P : Part) : Part :=
  let dead := P.L.elems.filter fun e => e.ty == 3 && mk e && P.L.status e == .ghost
  let upd := fun e => e.ty == 3 && mk e && P.L.status e == .shared
  { L := removeEls low dead { P.L with
      status := fun e => if upd e then .owned else P.L.status e
      procs := fun e => if upd e then [me] else P.L.procs e }
    sh := fun q i => if i = 3 then
        takeOut P.L (P.sh q i) (P.L.elems.flatMap fun e => if upd e then
          ((P.L.procs e).filter fun v => v == q && v != me).map fun _ => e else [])
      else P.sh q i
    gh := fun q i => if i = 3 then takeOut P.L (P.gh q i) (dead.filter fun e => P.L.owner e == q) else P.gh q i }

/-- The loop over the elements of type `t` after the exchange and what follows it (RemoveGhost L2417-2502,
RemoveGhostElements L2553-2651) on processor `me`.  `gone` is the condition for deletion, `L` the mesh after the
exchange, `P` the part before; `onlyShared` is the condition L2574 of RemoveGhostElements. -/
def finish (me t k : Nat) (low : El → List El) (gone : El → Bool) (onlyShared : Bool) (L : Local Nat) (P : Part) : Part :=
  let dead := L.elems.filter fun e => e.ty == t && L.status e != .owned && gone e
  let upd := fun e => e.ty == t && L.status e != .owned && !gone e && (L.data k e).isSome
  let del := fun e => (L.data k e).getD []
  { L := removeEls low dead { L with
      procs := fun e => if upd e then lessProcs (L.procs e) (del e) else L.procs e
      status := fun e => if upd e && lessProcs (L.procs e) (del e) == [me] then .owned else L.status e }
    sh := fun q i => if i = t then
        takeOut L (P.sh q i) (L.elems.flatMap fun e => if upd e && (!onlyShared || L.status e == .shared) then
          ((sortRanks (del e)).filter fun v => v == q).map fun _ => e else [])
      else P.sh q i
    gh := fun q i => if i = t then takeOut L (P.gh q i) (dead.filter fun e => L.owner e == q) else P.gh q i }

/-- The tag with the values of a pass: the own rank on the elements `want`. -/
def withDel (k : Nat) (want : Nat → El → Bool) (W : Nat → Part) : Nat → Local Nat := fun p =>
  { (W p).L with
    sel := fun _ => true
    data := setTag (W p).L.data k fun e => if want p e then some [p] else none }

/-- A pass: tag, ReduceData, ExchangeData, and the loop over the elements. -/
def Pass (n k t : Nat) (low : Nat → El → List El) (want : Nat → El → Bool) (gone : Nat → Local Nat → El → Bool)
    (onlyShared : Bool) (W W' : Nat → Part) : Prop :=
  ∃ G1 G2, Collective (reduceCall n [(k, delTag)] (fun i => i == t) deleteUnpack) (withDel k want W) G1 ∧
    Collective (exchangeCall n [(k, delTag)] fun i => i == t) G1 G2 ∧
    W' = fun p => finish p t k (low p) (gone p (G2 p)) onlyShared (G2 p) (W p)

/-- The elements of type `t` that are neither owned nor shared and have nothing above (L2409-2414, L2540-2548). -/
def bare (t : Nat) (low : Nat → El → List El) (W : Nat → Part) (p : Nat) (e : El) : Bool :=
  (W p).L.elems.contains e && e.ty == t && (W p).L.status e != .owned && (W p).L.status e != .shared &&
    upper (low p) (W p).L e == 0

/-- A turn of the loop over faces, edges, nodes in RemoveGhost (L2407-2503). -/
def LowOut (n k t : Nat) (low : Nat → El → List El) : (W W' : Nat → Part) → Prop := fun W =>
  Pass n k t low (bare t low W) (fun p L e => L.status e == .ghost && upper (low p) L e == 0) false W

/-- RemoveGhost (L2312-2510) on `n` processors. -/
def RemoveGhost (n k : Nat) (low : Nat → El → List El) (mk : Nat → El → Bool) (W W' : Nat → Part) : Prop :=
  ∃ B C, LowOut n k 2 low (fun p => cellsOut p (low p) (mk p) (W p)) B ∧ LowOut n k 1 low B C ∧ LowOut n k 0 low C W'

/-- The handles of the argument that are counted and tagged in the pass for type `t` (L2527-2532). -/
def asked (t : Nat) (req : Nat → List El) (W : Nat → Part) (p : Nat) : List El :=
  (req p).filter fun e => e.ty == t && (W p).L.status e == .ghost

/-- A turn of the loop of RemoveGhostElements (L2523-2653); `Integrate` adds up the counts of the processors
(L2536). -/
def ElementsOut (n k t : Nat) (low : Nat → El → List El) (req : Nat → List El) (W W' : Nat → Part) : Prop :=
  if 3 ≤ t ∧ ((List.range n).map fun p => (asked t req W p).length).sum = 0 then W' = W
  else Pass n k t low (fun p e => (asked t req W p).contains e || (decide (t < 3) && bare t low W p e))
    (fun p L e => L.status e == .ghost && (sortRanks ((L.data k e).getD [])).contains p) true W W'

/-- RemoveGhostElements (L2512-2662) on `n` processors; processor `p` passes the handles `req p`. -/
def RemoveGhostElements (n k : Nat) (low : Nat → El → List El) (req : Nat → List El) (W W' : Nat → Part) : Prop :=
  ∃ A B C D, ElementsOut n k 4 low req W A ∧ ElementsOut n k 3 low req A B ∧ ElementsOut n k 2 low req B C ∧
    ElementsOut n k 1 low req C D ∧ ElementsOut n k 0 low req D W'

end Verif.Parallel
