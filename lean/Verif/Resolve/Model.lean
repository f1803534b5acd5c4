import Verif.Topology.Model
import Verif.Parallel.Enum
import Mathlib.Algebra.Order.Group.Unbundled.Abs
import Mathlib.Algebra.Order.Ring.Defs
import Mathlib.Data.List.Sort

/-!
# Model of ResolveShared

Source: `Source/Mesh/parallel.cpp`, point_in_bbox L1489-1495, ResolveShared L1511-2309 with `only_new = false`,
determine_my_procs_low L1356-1380, ComputeSharedProcs L2791-2855; `Source/Mesh/comparator.cpp`,
CentroidComparator L5-26; FindSharedAdjacency is `Topo.findShared`, AssignGlobalID is
`Parallel.AssignGlobalID`.

Every processor has a part of a mesh and knows nothing about the others.  The call finds which nodes,
edges, faces and cells of different processors are the same, and sets the tags of processors,
owner and status.

Simplifications.
* Coordinates are exact numbers of an ordered ring.
* The mesh has no hidden elements, and is not being modified.
* The arrays of coordinates are lists of points; packing of vectors into a message and the
  two exchanges of the coordinates (first of the sizes, then of the data) are the identity.
* `std::sort` of nodes is an insertion sort; which of two nodes with equal coordinates comes first is not
  specified by the library, and the theorems exclude equal nodes on one processor.
* `std::binary_search` in a sorted array is membership, `std::set<int>` a list of increasing numbers,
  `std::set_difference` of two sorted arrays without repetitions the elements of the first that are
  not in the second.
* EquilibrateGhost at the end (L2299) is not part of this model.
-/

namespace Verif.Resolve

open Verif.Topology (El Topo)

/-- What a processor has: the elements, and `Coords()` of the nodes. -/
structure Part (K : Type) where
  T : Topo
  coord : El → List K

/-- The elements of type `t` in the order of BeginElement. -/
def Part.els {K : Type} (A : Part K) (t : Nat) : List El :=
  ((List.range (A.T.last t)).map fun i => (⟨t, i⟩ : El)).filter A.T.alive

section Nodes

variable {K : Type} [Ring K] [LinearOrder K]

/-- CentroidComparator::Compare (comparator.cpp L5-17) and the comparison of received coordinates
(parallel.cpp L1861-1868): the first axis on which the difference is more than `eps` decides. -/
def cmp (eps : K) : List K → List K → Ordering
  | a :: as, b :: bs => if |a - b| > eps then (if a < b then .lt else .gt) else cmp eps as bs
  | _, _ => .eq

/-- One node in the loop of the bounding box (L1551-1560). -/
def growBox (b : List (K × K)) (x : List K) : List (K × K) :=
  List.zipWith (fun m a => (if a < m.1 then a else m.1, if a > m.2 then a else m.2)) b x

/-- The bounding box of the nodes (L1532-1571); `big` is `1e20`. -/
def boxOf (big : K) (dim : Nat) (pts : List (List K)) : List (K × K) :=
  pts.foldl growBox (List.replicate dim (big, -big))

/-- The test of two boxes (L1590-1593). -/
def overlap (eps : K) : List (K × K) → List (K × K) → Bool
  | m :: b, m' :: b' => !(decide (m.1 - eps > m'.2) || decide (m.2 + eps < m'.1)) && overlap eps b b'
  | _, _ => true

/-- point_in_bbox (L1489-1495). -/
def inBox (eps : K) : List K → List (K × K) → Bool
  | a :: x, m :: b => (decide (a > m.1 - eps) && decide (a < m.2 + eps)) && inBox eps x b
  | _, _ => true

/-- Insertion of a node into an array sorted by CentroidComparator. -/
def insertNode (eps : K) (A : Part K) (e : El) : List El → List El
  | [] => [e]
  | x :: l => if cmp eps (A.coord x) (A.coord e) = .lt then x :: insertNode eps A e l else e :: x :: l

/-- `std::sort` with CentroidComparator (L1754-1755). -/
def sortNodes (eps : K) (A : Part K) : List El → List El
  | [] => []
  | e :: l => insertNode eps A e (sortNodes eps A l)

/-- `bboxs[p]` after MPI_Allgather (L1583). -/
def boxAt (big : K) (dim : Nat) (P : Nat → Part K) (p : Nat) : List (K × K) :=
  boxOf big dim (((P p).els 0).map (P p).coord)

/-- The array `procs` on processor `me` (L1587-1594). -/
def neigh (n : Nat) (eps big : K) (dim : Nat) (P : Nat → Part K) (me : Nat) : List Nat :=
  (List.range n).filter fun k => k != me && overlap eps (boxAt big dim P me) (boxAt big dim P k)

/-- The array `sorted_nodes` (L1735-1755). -/
def sortedNodes (n : Nat) (eps big : K) (dim : Nat) (P : Nat → Part K) (me : Nat) : List El :=
  sortNodes eps (P me) (((P me).els 0).filter fun e =>
    (neigh n eps big dim P me).any fun k => inBox eps ((P me).coord e) (boxAt big dim P k))

/-- The loop over own and received coordinates (L1858-1880): the own nodes with an equal received one. -/
def meet (eps : K) : List (El × List K) → List (List K) → List El
  | ea :: A, b :: B =>
    match cmp eps ea.2 b with
    | .lt => meet eps A (b :: B)
    | .gt => meet eps (ea :: A) B
    | .eq => ea.1 :: meet eps A B
  | _, _ => []
termination_by A B => A.length + B.length

/-- The own nodes that occur among the coordinates sent by `q`. -/
def met (n : Nat) (eps big : K) (dim : Nat) (P : Nat → Part K) (me q : Nat) : List El :=
  meet eps ((sortedNodes n eps big dim P me).map fun e => (e, (P me).coord e))
    ((sortedNodes n eps big dim P q).map (P q).coord)

/-- The tag of processors of a node after L1720-1722, L1876 and L1904.  The messages arrive in the order
`order`. -/
def nodeProcs (n : Nat) (eps big : K) (dim : Nat) (P : Nat → Part K) (order : List Nat) (me : Nat)
    (e : El) : List Nat :=
  List.insertionSort (· ≤ ·)
    (me :: order.flatMap fun q => List.replicate ((met n eps big dim P me q).count e) q)

end Nodes

/-- The tag of processors after L1905-1909 or L2237-2241. -/
def listOf (me : Nat) (pr : List Nat) : List Nat := if pr = [] then [me] else pr

/-- The tag of the owner (L1905-1913, L2237-2244). -/
def ownerOf (me : Nat) : List Nat → Nat
  | [] => me
  | q :: _ => min me q

/-- The status (L1915-1924, L2245-2254); `pr` is not empty. -/
def statusOf (me : Nat) (pr : List Nat) : Parallel.Status :=
  if me = ownerOf me pr then (if pr.length = 1 then .owned else .shared) else .ghost

/-- `std::set_intersection`. -/
def setInter : List Nat → List Nat → List Nat
  | a :: as, b :: bs =>
    if a < b then setInter as (b :: bs)
    else if b < a then setInter (a :: as) bs
    else a :: setInter as bs
  | _, _ => []
termination_by A B => A.length + B.length

/-- determine_my_procs_low (L1356-1380). -/
def lowProcs (pr : El → List Nat) : List El → List Nat
  | [] => []
  | x :: xs => xs.foldl (fun r y => setInter r (pr y)) (pr x)

/-- The prediction (L2015-2022). -/
def predict (me : Nat) (pr : El → List Nat) (sub : List El) : List Nat :=
  listOf me (lowProcs pr sub)

/-- ComputeSharedProcs for the elements `es` (L2791-2855) of `n` processors. -/
def sharedProcs (n me : Nat) (pr : El → List Nat) (es : List El) : List Nat :=
  (List.range n).filter fun q => q != me && es.any fun e => (pr e).contains q

/-- The array `mapping` (L2034-2042). -/
def mapping (gid : El → Int) (es : List El) : List (Int × El) :=
  List.insertionSort (fun a b => a.1 ≤ b.1) (es.map fun e => (gid e, e))

/-- Search in `mapping` (L2159-2169). -/
def lookup (m : List (Int × El)) (g : Int) : Option El :=
  match m.dropWhile fun a => a.1 < g with
  | [] => none
  | a :: _ => if a.1 = g then some a.2 else none

/-- The elements that are sent to `q` (L2070-2074): those predicted on `q`. -/
def toSend (pred : El → List Nat) (es : List El) (q : Nat) : List El :=
  es.filter fun e => (pred e).contains q

/-- The message (L2067-2103); an element without lower elements is `throw Impossible` (L2077). -/
def packMsg (gid : El → Int) (low : El → List El) (es : List El) : Option (List Int) :=
  if es.any fun e => (low e).isEmpty then none
  else some ((es.length : Int) :: es.flatMap fun e => ((low e).length : Int) :: (low e).map gid)

/-- Reading of the numbers of one element (L2156-2175): if one is not found, the rest is skipped.  The
result is the list of lower elements, if all were found, and the rest of the message; `none` is reading
beyond the end. -/
def readIds (find : Int → Option El) : Nat → List Int → Option (Option (List El) × List Int)
  | 0, l => some (some [], l)
  | _ + 1, [] => none
  | k + 1, g :: l =>
    match find g with
    | none => some (none, l.drop k)
    | some x =>
      match readIds find k l with
      | none => none
      | some (none, r) => some (none, r)
      | some (some xs, r) => some (some (x :: xs), r)

/-- Reading of the elements (L2151-2184). -/
def readEls (find : Int → Option El) (T : Topo) : Nat → List Int → Option (List El)
  | 0, _ => some []
  | _ + 1, [] => none
  | k + 1, c :: l =>
    match readIds find c.toNat l with
    | none => none
    | some (none, r) => readEls find T k r
    | some (some sub, r) =>
      match T.findShared sub with
      | none => none
      | some none => readEls find T k r
      | some (some e) => match readEls find T k r with
        | none => none
        | some es => some (e :: es)

/-- `pr.erase(std::lower_bound(pr.begin(),pr.end(),q))` (L2221-2222). -/
def eraseFrom (q : Nat) : List Nat → List Nat
  | [] => []
  | x :: l => if q ≤ x then l else x :: eraseFrom q l

/-- What is done with the message of one processor (L2144-2223): elements sent to `q` that `q` has not sent
lose `q`.  An empty message changes nothing (L2147). -/
def oneReply (find : Int → Option El) (T : Topo) (q : Nat) (sent : List El) (msg : List Int)
    (pr : El → List Nat) : Option (El → List Nat) :=
  match msg with
  | [] => some pr
  | c :: l => match readEls find T c.toNat l with
    | none => none
    | some remote => some fun e => if e ∈ sent ∧ e ∉ remote then eraseFrom q (pr e) else pr e

/-- The loop over processors (L2141-2225). -/
def replies (find : Int → Option El) (T : Topo) (sent : Nat → List El) (msg : Nat → List Int) :
    List Nat → (El → List Nat) → Option (El → List Nat)
  | [], pr => some pr
  | q :: qs, pr => match oneReply find T q (sent q) (msg q) pr with
    | none => none
    | some pr' => replies find T sent msg qs pr'

variable {K : Type}

/-- The prediction on processor `p` for elements of type `t + 1`. -/
def predAt (P : Nat → Part K) (pr : Nat → El → List Nat) (p : Nat) (e : El) : List Nat :=
  predict p (pr p) ((P p).T.low e)

/-- ComputeSharedProcs(PrevElementType) on processor `p`. -/
def sharedAt (n : Nat) (P : Nat → Part K) (t : Nat) (pr : Nat → El → List Nat) (p : Nat) : List Nat :=
  sharedProcs n p (pr p) ((P p).els t)

/-- The message from `q` to `p` for elements of type `t + 1`. -/
def msgAt (P : Nat → Part K) (t : Nat) (gid : Nat → El → Int) (pr : Nat → El → List Nat) (q p : Nat) :
    Option (List Int) :=
  packMsg (gid q) (P q).T.low (toSend (predAt P pr q) ((P q).els (t + 1)) p)

/-- The pass of the loop L1960-2283 for type `t + 1` on processor `p` up to the status: `gid`, `pr` are the tags
on elements of type `t`.  `none`: an exception, access beyond an array, or processors that wait for each
other because one of them does not expect a message. -/
def stage (n : Nat) (P : Nat → Part K) (t : Nat) (gid : Nat → El → Int) (pr : Nat → El → List Nat)
    (p : Nat) : Option (El → List Nat) :=
  if (List.range n).any fun q => (sharedAt n P t pr p).contains q != (sharedAt n P t pr q).contains p then none
  else if (sharedAt n P t pr p).any fun q => (msgAt P t gid pr q p).isNone then none
  else match replies (lookup (mapping (gid p) ((P p).els t))) (P p).T
      (fun q => toSend (predAt P pr p) ((P p).els (t + 1)) q)
      (fun q => (msgAt P t gid pr q p).getD []) (sharedAt n P t pr p) (predAt P pr p) with
    | none => none
    | some pr' => some fun e => listOf p (pr' e)

/-- An element in the model of the exchange of tags. -/
def toP (e : El) : Parallel.El := ⟨e.ty, e.id⟩

/-- The same in the other direction. -/
def ofP (e : Parallel.El) : El := ⟨e.ty, e.id⟩

/-- The mesh with processors, owner and status of the elements of the types `ts`.  AssignGlobalID is called with one
type in its mask (L1929-1930, L2257-2264), and elements of other types are left out.  `key` is the order
of centroids, by which the lists are sorted as long as there are no global numbers. -/
def localOf (P : Nat → Part K) (key : Nat → El → Int) (pr : Nat → El → List Nat) (ts : List Nat) (p : Nat) :
    Parallel.Local Int where
  elems := (ts.flatMap (P p).els).map toP
  status e := statusOf p (pr p (ofP e))
  owner e := ownerOf p (pr p (ofP e))
  procs e := pr p (ofP e)
  key e := key p (ofP e)
  sel _ := true
  data _ _ := some [0]

/-- An execution of ResolveShared (L1511-2287) on `n` processors: `pr p e` is the tag of processors of `e` on `p`
at the end, `gid p e` the global number, `order p` the order in which messages with coordinates
arrive at `p`. -/
structure Run [Ring K] [LinearOrder K] (n : Nat) (eps big : K) (dim : Nat) (P : Nat → Part K)
    (key : Nat → El → Int) (order : Nat → List Nat) (pr : Nat → El → List Nat) (gid : Nat → El → Int) :
    Prop where
  arrive : ∀ p, p < n → (order p).Perm (neigh n eps big dim P p)
  nodes : ∀ p, p < n → ∀ e, e ∈ (P p).els 0 →
    pr p e = listOf p (nodeProcs n eps big dim P (order p) p e)
  upper : ∀ t, t < 3 → ∀ p, p < n → ∃ s, stage n P t gid pr p = some s ∧
    ∀ e, e ∈ (P p).els (t + 1) → pr p e = s e
  numbers : ∀ t, t ≤ 3 → ∃ G', Parallel.AssignGlobalID n 0 (fun i => i == t) (localOf P key pr [t]) G' ∧
    ∀ p, p < n → ∀ e, e ∈ (P p).els t → (G' p).data 0 (toP e) = some [gid p e]

end Verif.Resolve
