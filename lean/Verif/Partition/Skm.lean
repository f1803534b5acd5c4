import Mathlib.Algebra.Order.Field.Basic
import Mathlib.Data.List.Nodup
import Mathlib.Data.List.Perm.Subperm
/-
The partitioner `INNER_SKMEANS` (`Source/Partitioner/partitioner.cpp`, lines 1809-2411): model.

Simplifications.  Numbers are the elements of a linearly ordered field (exact arithmetic); `vmax` is an
element of it.  The arrays of all processes are one list, in the order of the ranks and inside a
process of the local numbers: every loop of the code over the points of all processes (with the sums
`MPI_Allreduce`) is one loop here, and "the first point of the smallest rank that has one" (lines
2157-2178, 2344-2361) is the first point of the list.  `rand()` is an oracle: `rnd i` is the choice of
the point for cluster `i` (any point of any process; the code chooses among the points of one
process), `frac i` the quotients `rand()/RAND_MAX`.  `mesh_dist`, `cluster_weight` and
`cluster_shift` have no effect on the result and are left out.  `points_cluster[j] = -1` is `none`.
-/

namespace Verif.Partition

/-- Three numbers. -/
structure P3 (R : Type) where
  x : R
  y : R
  z : R
deriving DecidableEq, Repr

section
variable {R : Type} [Field R] [LinearOrder R]

/-- Square of the distance (partitioner.cpp, lines 2099-2105). -/
def dist2 (p c : P3 R) : R :=
  (p.x - c.x) * (p.x - c.x) + (p.y - c.y) * (p.y - c.y) + (p.z - c.z) * (p.z - c.z)

/-- The loop over the centres for one point (partitioner.cpp, lines 2097-2111): the centres still to
come, the number of the first of them, `lmin` and `id_nearest_center`. -/
def nearestFrom (p : P3 R) : List (P3 R) → Nat → R → Option Nat → Option Nat
  | [], _, _, id => id
  | c :: l, j, lmin, id =>
    if dist2 p c < lmin then nearestFrom p l (j + 1) (dist2 p c) (some j)
    else nearestFrom p l (j + 1) lmin id

/-- `id_nearest_center` of a point (partitioner.cpp, lines 2093-2111). -/
def nearest (vmax : R) (ctr : List (P3 R)) (p : P3 R) : Option Nat := nearestFrom p ctr 0 vmax none

/-- `changed` (partitioner.cpp, lines 2085, 2115-2124). -/
def changedOf (old new : List (Option Nat)) : Nat := (old.zip new).countP fun q => decide (q.1 ≠ q.2)

/-- `assign_count` (partitioner.cpp, lines 2128-2138, 2326-2335). -/
def countsOf (K : Nat) (cl : List (Option Nat)) : List Nat :=
  (List.range K).map fun i => cl.count (some i)

/-- `donor_c` (partitioner.cpp, lines 2149-2151, 2340-2342). -/
def donorFrom (cnt : List Nat) : List Nat → Nat → Nat
  | [], d => d
  | j :: l, d => donorFrom cnt l (if cnt.getD d 0 < cnt.getD j 0 then j else d)

/-- `donor_c` (partitioner.cpp, lines 2149-2151, 2340-2342). -/
def donor (K : Nat) (cnt : List Nat) : Nat := donorFrom cnt (List.range' 1 (K - 1)) 0

/-- `steal_index` on the process that gives its point (partitioner.cpp, lines 2157-2173, 2344-2357). -/
def stealIndex (cl : List (Option Nat)) (d : Nat) : Option Nat :=
  if cl.idxOf (some d) < cl.length then some (cl.idxOf (some d)) else none

/-- `assign_count[donor_c]--; assign_count[i]++` (partitioner.cpp, lines 2179-2180, 2362-2363). -/
def moveCount (cnt : List Nat) (d i : Nat) : List Nat :=
  (cnt.set d (cnt.getD d 0 - 1)).set i ((cnt.set d (cnt.getD d 0 - 1)).getD i 0 + 1)

/-- `points_cluster`, `assign_count`, `cluster_center` and `changed` inside one iteration. -/
structure Work (R : Type) where
  cl : List (Option Nat)
  cnt : List Nat
  ctr : List (P3 R)
  changed : Nat

/-- One empty cluster gets a new centre (partitioner.cpp, lines 2147-2195). -/
def reseedOne (K : Nat) (pts : List (P3 R)) (w : Work R) (i : Nat) : Work R :=
  if w.cnt.getD i 0 = 0 then
    match stealIndex w.cl (donor K w.cnt) with
    | none => { w with ctr := w.ctr.set i (w.ctr.getD (donor K w.cnt) ⟨0, 0, 0⟩), changed := 1 }
    | some j => { cl := w.cl.set j (some i), cnt := moveCount w.cnt (donor K w.cnt) i,
                  ctr := w.ctr.set i (pts.getD j ⟨0, 0, 0⟩), changed := 1 }
  else w

/-- New centres for all empty clusters (partitioner.cpp, lines 2139-2196). -/
def reseed (K maxIter iter : Nat) (pts : List (P3 R)) (w : Work R) : Work R :=
  if (w.cnt.any fun n => n == 0) && decide (K ≤ pts.length) && decide (iter < maxIter) then
    (List.range K).foldl (reseedOne K pts) w
  else w

/-- Sum of coordinates (partitioner.cpp, lines 1862-1872, 2227-2240). -/
def sum3 : List (P3 R) → P3 R
  | [] => ⟨0, 0, 0⟩
  | p :: l => ⟨p.x + (sum3 l).x, p.y + (sum3 l).y, p.z + (sum3 l).z⟩

/-- Division by the number of points (partitioner.cpp, lines 1941-1943, 2257-2259). -/
def mean3 (l : List (P3 R)) : P3 R :=
  ⟨(sum3 l).x / (l.length : R), (sum3 l).y / (l.length : R), (sum3 l).z / (l.length : R)⟩

/-- The mix of the old and of the new centre (partitioner.cpp, lines 2262-2264). -/
def mix3 (o n : P3 R) : P3 R :=
  ⟨o.x * (15 / 100) + n.x * (85 / 100), o.y * (15 / 100) + n.y * (85 / 100),
   o.z * (15 / 100) + n.z * (85 / 100)⟩

/-- The points of cluster `i` (partitioner.cpp, lines 2225-2231). -/
def members (pts : List (P3 R)) (cl : List (Option Nat)) (i : Nat) : List (P3 R) :=
  ((pts.zip cl).filter fun q => q.2 = some i).map Prod.fst

/-- The new centre of cluster `i` (partitioner.cpp, lines 2253-2273). -/
def recentre (iter : Nat) (pts : List (P3 R)) (cl : List (Option Nat)) (i : Nat) (o : P3 R) : P3 R :=
  if 0 < (members pts cl i).length then
    if 1 < iter then mix3 o (mean3 (members pts cl i)) else mean3 (members pts cl i)
  else o

/-- The new centres (partitioner.cpp, lines 2205-2277).  `none` if a point has no cluster: lines
2227-2230 write at a negative place then. -/
def recentreAll (iter : Nat) (pts : List (P3 R)) (cl : List (Option Nat)) (ctr : List (P3 R)) :
    Option (List (P3 R)) :=
  if cl.all (fun q => q.isSome) then some (ctr.mapIdx fun i o => recentre iter pts cl i o) else none

/-- The part of one iteration before the decision to stop (partitioner.cpp, lines 2085-2196). -/
def assign (K maxIter iter : Nat) (vmax : R) (pts : List (P3 R)) (cl : List (Option Nat))
    (ctr : List (P3 R)) : Work R :=
  reseed K maxIter iter pts
    { cl := pts.map (nearest vmax ctr), cnt := countsOf K (pts.map (nearest vmax ctr)), ctr := ctr,
      changed := changedOf cl (pts.map (nearest vmax ctr)) }

/-- The loop (partitioner.cpp, lines 2079-2322); `none` if it does not end within `fuel` turns or
writes outside of an array. -/
def iterate (K maxIter : Nat) (vmax : R) (pts : List (P3 R)) :
    Nat → Nat → List (Option Nat) → List (P3 R) → Option (List (Option Nat))
  | 0, _, _, _ => none
  | fuel + 1, iter, cl, ctr =>
    let w := assign K maxIter iter vmax pts cl ctr
    if w.changed = 0 ∨ maxIter ≤ iter then some w.cl
    else match recentreAll iter pts w.cl w.ctr with
      | none => none
      | some ctr' => iterate K maxIter vmax pts fuel (iter + 1) w.cl ctr'

/-- One empty cluster takes a point of the largest one (partitioner.cpp, lines 2338-2374). -/
def repairOne (K : Nat) (w : List (Option Nat) × List Nat) (i : Nat) : List (Option Nat) × List Nat :=
  if w.2.getD i 0 = 0 then
    if w.2.getD (donor K w.2) 0 ≤ 1 then w
    else match stealIndex w.1 (donor K w.2) with
      | none => w
      | some j => (w.1.set j (some i), moveCount w.2 (donor K w.2) i)
  else w

/-- The final repair (partitioner.cpp, lines 2324-2375). -/
def repair (K : Nat) (cl : List (Option Nat)) : List (Option Nat) :=
  if K ≤ cl.length then ((List.range K).foldl (repairOne K) (cl, countsOf K cl)).1 else cl

/-- `pmin` of one coordinate (partitioner.cpp, lines 1879-1913). -/
def pminOf (vmax : R) (l : List R) : R := l.foldl min vmax

/-- `pmax` of one coordinate (partitioner.cpp, lines 1878-1912). -/
def pmaxOf (vmax : R) (l : List R) : R := l.foldl max (-vmax)

/-- A point of the bounding box (partitioner.cpp, lines 2061-2063). -/
def boxPoint (vmax : R) (pts : List (P3 R)) (f : P3 R) : P3 R :=
  ⟨(pmaxOf vmax (pts.map P3.x) - pminOf vmax (pts.map P3.x)) * f.x + pminOf vmax (pts.map P3.x),
   (pmaxOf vmax (pts.map P3.y) - pminOf vmax (pts.map P3.y)) * f.y + pminOf vmax (pts.map P3.y),
   (pmaxOf vmax (pts.map P3.z) - pminOf vmax (pts.map P3.z)) * f.z + pminOf vmax (pts.map P3.z)⟩

/-- The initial centre of cluster `i`: the mean of the cells of process `i`, or a chosen point
(partitioner.cpp, lines 1850-1874, 1929-1945, 2020-2066). -/
def startCentre (vmax : R) (K : Nat) (pts : List (P3 R)) (rnd : Nat → Nat) (frac : Nat → P3 R) (i : Nat)
    (own : List (P3 R)) : P3 R :=
  if 0 < own.length then mean3 own
  else if K ≤ pts.length then pts.getD (rnd i % pts.length) ⟨0, 0, 0⟩
  else boxPoint vmax pts (frac i)

/-- The marks `points_cluster[index_point] = i` of the chosen points (partitioner.cpp, lines 1829,
2048); they have an effect on `changed` only. -/
def startClusters (procs : List (List (P3 R))) (pts : List (P3 R)) (rnd : Nat → Nat) : List (Option Nat) :=
  (procs.zipIdx).foldl (fun cl q =>
    if q.1.isEmpty ∧ procs.length ≤ pts.length then cl.set (rnd q.2 % pts.length) (some q.2) else cl)
    (List.replicate pts.length none)

/-- A list cut in pieces of the given lengths: `MPI_Scatterv` (partitioner.cpp, lines 1984-1994,
2391-2400). -/
def scatter {A : Type} : List Nat → List A → List (List A)
  | [], _ => []
  | n :: ns, l => l.take n :: scatter ns (l.drop n)

/-- `counts` after the points are spread evenly (partitioner.cpp, lines 1972, 1984-1991, 2382-2389). -/
def evenCounts (N P : Nat) : List Nat :=
  List.replicate (P - 1) (N / P) ++ [N - (P - 1) * (N / P)]

/-- `Evaluate` for `INNER_SKMEANS` (partitioner.cpp, lines 1809-2411): `procs` are the centres of the
cells of each process that are not ghosts, the result are their new processors.  `balance` is the
decision of line 1968. -/
def skmeans (maxIter : Nat) (vmax : R) (balance : Bool) (rnd : Nat → Nat) (frac : Nat → P3 R)
    (procs : List (List (P3 R))) : Option (List (List (Option Nat))) :=
  let K := procs.length
  let even := evenCounts procs.flatten.length K
  let pts := if balance then (scatter even procs.flatten).flatten else procs.flatten
  match iterate K maxIter vmax pts maxIter 1 (startClusters procs pts rnd)
      (procs.mapIdx (startCentre vmax K pts rnd frac)) with
  | none => none
  | some cl =>
    some (scatter (procs.map List.length)
      (if balance then (scatter even (repair K cl)).flatten else repair K cl))

end

end Verif.Partition
