import Verif.Parallel.Sync

/-!
# Model of EquilibrateGhost

Source: `Source/Mesh/parallel.cpp`, OperationMinDistance L422-438, OperationMinOwner L440-446,
EquilibrateGhost L448-650.

Shared cells and ghosts go to the processor whose owned cells are nearest, then faces, edges and nodes follow their
cells.  `near p c` is `BridgeAdjacencies2Cell(bridge)` of the cell `c` on processor `p`, `high p e` is the array
HighConn.

Simplifications.  The mesh has no hidden elements.  Integers are unbounded, but INT_MAX is the number it is.
The storage of lists (RecomputeParallelStorage) is computed anew in every call, as in the rest of the model.
The messages for an owner that is not among the processors (L559-565) are not part of the model; `C85_cells`
says that there are none.
-/

namespace Verif.Parallel

/-- INT_MAX. -/
def intMax : Int := 2147483647

/-- `tag[c][0]`; a record of a sparse tag that is not there is created with zeros. -/
def ownAt (d : El → Option (List Int)) (c : El) : Int := ((d c).getD [0, 0]).getD 0 0

/-- `tag[c][1]`. -/
def distAt (d : El → Option (List Int)) (c : El) : Int := ((d c).getD [0, 0]).getD 1 0

/-- The first loop over cells (L465-485): the queue and the tag. -/
def seeds (L : Local Int) (near : El → List El) :
    List El → List El × (El → Option (List Int)) → List El × (El → Option (List Int))
  | [], s => s
  | c :: cs, (q, d) =>
    if L.status c = .owned then seeds L near cs (q, d)
    else match (near c).find? fun x => L.status x == .owned with
      | none => seeds L near cs (q, setAt d c (some [-1, intMax]))
      | some x => seeds L near cs (q ++ [c], setAt d c (some [(L.owner x : Int), 1]))

/-- The loop over the neighbours of a cell with the tag `(o,k)` (L500-509). -/
def relax (L : Local Int) (o k : Int) :
    List El → List El × (El → Option (List Int)) → List El × (El → Option (List Int))
  | [], s => s
  | x :: xs, (q, d) =>
    if L.status x = .owned then relax L o k xs (q, d)
    else if distAt d x > k + 1 then relax L o k xs (q ++ [x], setAt d x (some [o, k + 1]))
    else relax L o k xs (q, d)

/-- The loop over the queue (L490-510).  `none`: the assertion L494 fails, or the loop makes more turns than the
first argument says. -/
def bfs (L : Local Int) (near : El → List El) :
    Nat → Int → List El → (El → Option (List Int)) → Option (El → Option (List Int))
  | 0, _, _, _ => none
  | _ + 1, _, [], d => some d
  | f + 1, cur, c :: q, d =>
    if cur > distAt d c then none
    else
      let s := relax L (ownAt d c) (distAt d c) (near c) (q, d)
      bfs L near f (if cur < distAt d c then cur + 1 else cur) s.1 s.2

/-- The cells of a processor. -/
def cellsOf (L : Local Int) : List El := L.elems.filter fun e => e.ty == 3

/-- The tag after L510 on one processor.  There are at most as many turns as cells. -/
def distances (L : Local Int) (near : El → List El) : Option (El → Option (List Int)) :=
  let s := seeds L near (cellsOf L) ([], fun _ => none)
  bfs L near ((cellsOf L).length + 1) 1 s.1 s.2

/-- OperationMinDistance (L422-438). -/
def minDistance : Op Int := fun _ _ d x =>
  match d.getD [0, 0], x with
  | [o, k], [o', k'] =>
    if k' < k then some (some [o', k'])
    else if k' = k ∧ o' < o then some (some [o', k'])
    else some (some [o, k])
  | _, _ => none

/-- OperationMinOwner (L440-446). -/
def minOwner : Op Int := fun _ _ d x =>
  match d.getD [0], x with
  | [o], [o'] => some (some [min o o'])
  | _, _ => none

/-- The tag TEMPORARY_OWNER_DISTANCE_TAG (L458). -/
def distTag : TagInfo := ⟨some 2, fun i => i == 3, fun i => i == 3⟩

/-- The tag TEMPORARY_NEW_OWNER (L588). -/
def ownTag : TagInfo := ⟨some 1, fun i => i < 3, fun i => i < 3⟩

/-- The mesh with values `d` of the tag `k`, without the marker `select`. -/
def withTag (k : Nat) (d : Nat → El → Option (List Int)) (G : Nat → Local Int) : Nat → Local Int := fun p =>
  { G p with sel := fun _ => true, data := setTag (G p).data k (d p) }

/-- The assignment of owners and status from the first number of a tag: cells L547-574, other types
L615-634.  `skip` is the value that means "no new owner"; the other types are tested for a change
of the owner (L624). -/
def setOwners (k t : Nat) (skip : Int) (me : Nat) (L : Local Int) : Local Int :=
  { L with
    owner := fun e => if e.ty = t ∧ L.status e ≠ .owned ∧ ownAt (L.data k) e ≠ skip ∧
        (t = 3 ∨ (L.owner e : Int) ≠ ownAt (L.data k) e) then
      (ownAt (L.data k) e).toNat else L.owner e
    status := fun e => if e.ty = t ∧ L.status e ≠ .owned ∧ ownAt (L.data k) e ≠ skip ∧
        (t = 3 ∨ (L.owner e : Int) ≠ ownAt (L.data k) e) then
      (if (me : Int) = ownAt (L.data k) e then .shared else .ghost) else L.status e }

/-- The part for cells (L458-582) on `n` processors. -/
def CellStage (n k : Nat) (near : Nat → El → List El) (G G' : Nat → Local Int) : Prop :=
  ∃ d : Nat → El → Option (List Int), (∀ p, p < n → distances (G p) (near p) = some (d p)) ∧
    ∃ G1 G2, Collective (reduceCall n [(k, distTag)] (fun i => i == 3) minDistance) (withTag k d G) G1 ∧
      Collective (exchangeCall n [(k, distTag)] fun i => i == 3) G1 G2 ∧
      G' = fun p => setOwners k 3 (-1) p (G2 p)

/-- The least owner of the upper elements (L603-607). -/
def leastOwner (L : Local Int) : List El → Int
  | [] => intMax
  | x :: xs => min (L.owner x : Int) (leastOwner L xs)

/-- The tag before the exchange (L593-610): the loop takes the minimum from the first to the last upper element. -/
def ownersOf (t : Nat) (high : El → List El) (L : Local Int) (e : El) : Option (List Int) :=
  if e.ty = t ∧ L.status e ≠ .owned then some [leastOwner L (high e)] else none

/-- One pass of the loop over faces, edges and nodes (L589-640). -/
def LowStage (n k t : Nat) (high : Nat → El → List El) (G G' : Nat → Local Int) : Prop :=
  ∃ G1 G2, Collective (reduceCall n [(k, ownTag)] (fun i => i == t) minOwner)
      (withTag k (fun p => ownersOf t (high p) (G p)) G) G1 ∧
    Collective (exchangeCall n [(k, ownTag)] fun i => i == t) G1 G2 ∧
    G' = fun p => setOwners k t intMax p (G2 p)

/-- EquilibrateGhost (L448-650). -/
def Equilibrate (n k : Nat) (near high : Nat → El → List El) (G G' : Nat → Local Int) : Prop :=
  ∃ A B C, CellStage n k near G A ∧ LowStage n k 2 high A B ∧ LowStage n k 1 high B C ∧ LowStage n k 0 high C G'

end Verif.Parallel
