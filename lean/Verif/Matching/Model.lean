import Verif.Heap.Model
/-
Model of the maximum transversal reordering of
`Source/Solver/solver_inner/solver_mptilu2/solver_mtilu2.cpp`, lines 174-473 (compiled with
`REORDER_MAXIMUM_TRANSVERSAL`, line 15, and without `RESCALE_MAXIMUM_TRANSVERSAL`, line 13).

Simplifications.  The interval `[mobeg,moend)` is shifted to `[0,n)`.  The rows of the matrix are
lists of pairs of column and value.  `ENUMUNDEF` is `none`; in `ColumnList`, where the end of the
list `EOL` is a value too, `none` is `ENUMUNDEF` and `some none` is `EOL`.  Arrays are functions;
a use of `ENUMUNDEF` as a position is the outcome `none`.  `UpdateStack` is never used.
`Dist` is the array of keys of the heap (line 195), so it is the field `keys` of the heap here.
The arithmetic is a parameter: nothing is assumed of it in the definitions.
-/

namespace Verif.Matching

open Verif.Heap (put)

/-- The operations on reals used by the code. -/
structure Arith (R : Type) where
  zero : R
  /-- `std::numeric_limits<INMOST_DATA_REAL_TYPE>::max()` -/
  max : R
  /-- `1.0e-30` -/
  tiny : R
  /-- `1.0e-12` -/
  small : R
  add : R → R → R
  sub : R → R → R
  abs : R → R
  log : R → R
  lt : R → R → Bool
  le : R → R → Bool
  isZero : R → Bool

/-- Comparisons of the heap of distances (utils.h, lines 53, 65, 67). -/
def Arith.cmp {R : Type} (a : Arith R) : Heap.Cmp R where
  above p c := a.lt c p
  right x y := a.lt y x
  stop p c := a.le p c

/-- The matrix in compressed rows: `C_Address` and `C_Entries` (solver_mtilu2.cpp, lines
193-194). -/
structure Csr (R : Type) where
  n : Nat
  adr : Nat → Nat
  col : Nat → Nat
  val : Nat → R

variable {R : Type}

/-- Positions `C_Address[k] … C_Address[k+1]-1` of the entries of a row. -/
def Csr.row (m : Csr R) (k : Nat) : List Nat :=
  List.range' (m.adr k) (m.adr (k + 1) - m.adr k)

/-! ### Costs -/

/-- Entries of a row in the local range (solver_mtilu2.cpp, lines 215-224). -/
def localRow (a : Arith R) (n : Nat) (row : List (Nat × R)) : List (Nat × R) :=
  (row.filter fun e => decide (e.1 < n)).map fun e => (e.1, a.abs e.2)

/-- All entries, row after row (solver_mtilu2.cpp, lines 210-226). -/
def entries (a : Arith R) (n : Nat) (A : Nat → List (Nat × R)) (upto : Nat) : List (Nat × R) :=
  (List.range upto).flatMap fun k => localRow a n (A k)

/-- `C_Address`, `C_Entries` after the first loop (solver_mtilu2.cpp, lines 210-226): absolute
values. -/
def absolute (a : Arith R) (n : Nat) (A : Nat → List (Nat × R)) : Csr R where
  n := n
  adr k := (entries a n A k).length
  col q := ((entries a n A n).getD q (0, a.zero)).1
  val q := ((entries a n A n).getD q (0, a.zero)).2

/-- `Cmax` (solver_mtilu2.cpp, lines 186, 221). -/
def columnMax (a : Arith R) (m : Csr R) : List Nat → (Nat → R) → Nat → R
  | [], c => c
  | q :: l, c => columnMax a m l (if a.lt (c (m.col q)) (m.val q) then put c (m.col q) (m.val q) else c)

/-- New value of one entry (solver_mtilu2.cpp, lines 233-237). -/
def costOf (a : Arith R) (cmax v : R) : R :=
  if a.isZero cmax || a.isZero v then a.max else a.sub (a.log cmax) (a.log v)

/-- `C_Entries` after the second loop (solver_mtilu2.cpp, lines 228-244). -/
def costs (a : Arith R) (m : Csr R) (cmax : Nat → R) : Csr R :=
  { m with val := fun q => costOf a (cmax (m.col q)) (m.val q) }

/-- `U` after the second loop (solver_mtilu2.cpp, lines 183, 228-244); `abs` is the matrix before
the loop, `c` after it. -/
def columnMin (a : Arith R) (abs c : Csr R) (cmax : Nat → R) : List Nat → (Nat → R) → Nat → R
  | [], u => u
  | q :: l, u => columnMin a abs c cmax l
      (if a.isZero (cmax (abs.col q)) || a.isZero (abs.val q) then u
       else if a.lt (c.val q) (u (c.col q)) then put u (c.col q) (c.val q) else u)

/-- Reduced cost of an entry in the third loop (solver_mtilu2.cpp, line 249). -/
def reducedU (a : Arith R) (m : Csr R) (U : Nat → R) (q : Nat) : R := a.sub (m.val q) (U (m.col q))

/-- `V[k]` (solver_mtilu2.cpp, lines 184, 245-252). -/
def rowMin (a : Arith R) (m : Csr R) (U : Nat → R) : List Nat → R → R
  | [], v => v
  | q :: l, v => rowMin a m U l (if a.lt (reducedU a m U q) v then reducedU a m U q else v)

/-! ### Matching -/

/-- The arrays of the algorithm (solver_mtilu2.cpp, lines 182-195). -/
structure St (R : Type) where
  perm : Nat → Option Nat
  iperm : Nat → Option Nat
  colPos : Nat → Option Nat
  parent : Nat → Option Nat
  augPos : Nat → Option Nat
  colList : Nat → Option (Option Nat)
  U : Nat → R
  V : Nat → R
  heap : Heap.State R

/-- Initial values (solver_mtilu2.cpp, lines 182-195) with `U` and `V` as computed above. -/
def start (a : Arith R) (n : Nat) (U V : Nat → R) : St R where
  perm := fun _ => none
  iperm := fun _ => none
  colPos := fun _ => none
  parent := fun _ => none
  augPos := fun _ => none
  colList := fun _ => none
  U := U
  V := V
  heap := Heap.make n fun _ => a.max

/-- `fabs(C_Entries[it].second - V[k] - U[C_Entries[it].first])` (solver_mtilu2.cpp, lines 261,
280, 288). -/
def gap (a : Arith R) (m : Csr R) (s : St R) (k q : Nat) : R :=
  a.abs (a.sub (a.sub (m.val q) (s.V k)) (s.U (m.col q)))

/-- Column `m.col q` and row `k` become a pair, with the entry at `q` (solver_mtilu2.cpp, lines
264-266, 291-293, 294-296). -/
def pair (m : Csr R) (s : St R) (k q : Nat) : St R :=
  { s with perm := put s.perm (m.col q) (some k), iperm := put s.iperm k (some (m.col q)),
           colPos := put s.colPos k (some q) }

/-- Initial match of one row (solver_mtilu2.cpp, lines 259-268). -/
def matchRow (a : Arith R) (m : Csr R) (k : Nat) : List Nat → St R → St R
  | [], s => s
  | q :: l, s => matchRow a m k l
      (if a.lt (gap a m s k q) a.tiny && (s.perm (m.col q)).isNone && (s.iperm k).isNone
       then pair m s k q else s)

/-- Initial match (solver_mtilu2.cpp, lines 257-269). -/
def matchAll (a : Arith R) (m : Csr R) : List Nat → St R → St R
  | [], s => s
  | k :: l, s => matchAll a m l (matchRow a m k (m.row k) s)

/-- Search of a free column for the row `li` that gives its column `m.col q` to `k`
(solver_mtilu2.cpp, lines 286-299). -/
def stepRow (a : Arith R) (m : Csr R) (k q li : Nat) : List Nat → St R → St R
  | [], s => s
  | p :: l, s =>
    if a.le (gap a m s li p) a.tiny && (s.perm (m.col p)).isNone
    then pair m (pair m s k q) li p
    else stepRow a m k q li l s

/-- One-step augmentation of one row (solver_mtilu2.cpp, lines 278-301); `none` is the failed
assert of line 284. -/
def stepEntries (a : Arith R) (m : Csr R) (k : Nat) : List Nat → St R → Option (St R)
  | [], s => some s
  | q :: l, s =>
    if (s.iperm k).isSome then some s
    else if a.le (gap a m s k q) a.tiny then
      match s.perm (m.col q) with
      | none => none
      | some li => stepEntries a m k l (stepRow a m k q li (m.row li) s)
    else stepEntries a m k l s

/-- One-step augmentation (solver_mtilu2.cpp, lines 274-303). -/
def stepAll (a : Arith R) (m : Csr R) : List Nat → St R → Option (St R)
  | [], s => some s
  | k :: l, s =>
    if (s.iperm k).isNone then
      match stepEntries a m k (m.row k) s with
      | none => none
      | some t => stepAll a m l t
    else stepAll a m l s

/-- The local variables `PathEnd`, `Trace`, `AugmentPath`, `ColumnBegin` (solver_mtilu2.cpp, lines
314-319). -/
structure Loc (R : Type) where
  pathEnd : Option Nat
  trace : Nat
  aug : R
  colBegin : Option Nat

/-- Length of the path through the entry at `q` of the row `li` (solver_mtilu2.cpp, lines 327,
329). -/
def length (a : Arith R) (m : Csr R) (s : St R) (sp : R) (li q : Nat) : R :=
  let l := a.sub (a.sub (a.add sp (m.val q)) (s.V li)) (s.U (m.col q))
  if a.lt l a.zero && a.lt (a.abs l) a.small then a.zero else l

/-- The heap after a shorter path to column `c` was found (solver_mtilu2.cpp, lines 343-346). -/
def lower (a : Arith R) (h : Heap.State R) (c : Nat) (l : R) : Option (Heap.State R) :=
  match Heap.contains h c with
  | some true => Heap.decreaseKey a.cmp h c l
  | some false => Heap.pushHeap a.cmp h c l
  | none => none

/-- One entry of the row `li` (solver_mtilu2.cpp, lines 324-348). -/
def relaxOne (a : Arith R) (m : Csr R) (li : Nat) (sp : R) (q : Nat) (s : St R) (x : Loc R) :
    Option (St R × Loc R) :=
  if (s.colList (m.col q)).isSome then some (s, x)
  else if a.lt (length a m s sp li q) x.aug then
    match s.perm (m.col q) with
    | none => some ({ s with augPos := put s.augPos (m.col q) (some q) },
        { x with pathEnd := some (m.col q), trace := li, aug := length a m s sp li q })
    | some r =>
      if a.lt (length a m s sp li q) (s.heap.keys (m.col q)) then
        match lower a s.heap (m.col q) (length a m s sp li q) with
        | none => none
        | some h => some ({ s with parent := put s.parent r (some li),
                                   augPos := put s.augPos (m.col q) (some q), heap := h }, x)
      else some (s, x)
  else some (s, x)

/-- The loop over the entries of the row `li` (solver_mtilu2.cpp, lines 322-349). -/
def relax (a : Arith R) (m : Csr R) (li : Nat) (sp : R) : List Nat → St R → Loc R →
    Option (St R × Loc R)
  | [], s, x => some (s, x)
  | q :: l, s, x => match relaxOne a m li sp q s x with
    | none => none
    | some (s1, x1) => relax a m li sp l s1 x1

/-- The search for the shortest path (solver_mtilu2.cpp, lines 320-369); each turn takes a
column out of the heap for good, the number of turns is limited by `fuel`, and reaching the limit
is `none`. -/
def search (a : Arith R) (m : Csr R) : Nat → Nat → R → St R → Loc R → Option (St R × Loc R)
  | 0, _, _, _, _ => none
  | fuel + 1, li, sp, s, x =>
    match relax a m li sp (m.row li) s x with
    | none => none
    | some (s1, x1) =>
      match Heap.popHeap a.cmp s1.heap with
      | (h, none) => some ({ s1 with heap := h }, x1)
      | (h, some ui) =>
        if a.le x1.aug (h.keys ui) then
          some ({ s1 with heap := { h with keys := put h.keys ui a.max } }, x1)
        else
          match s1.perm ui with
          | none => none
          | some r => search a m fuel r (h.keys ui)
              { s1 with heap := h, colList := put s1.colList ui (some x1.colBegin) }
              { x1 with colBegin := some ui }

/-- The values of the dual variables for one column of the tree (solver_mtilu2.cpp, lines
375-377); `none` if the row of the column has no entry. -/
def dualOne (a : Arith R) (m : Csr R) (aug : R) (u : Nat) (s : St R) : Option (St R) :=
  let U := put s.U u (a.add (s.U u) (a.sub (s.heap.keys u) aug))
  let h := { s.heap with keys := put s.heap.keys u a.max }
  match s.perm u with
  | none => some { s with U := U, heap := h }
  | some r => match s.colPos r with
    | none => none
    | some q => some { s with U := U, V := put s.V r (a.sub (m.val q) (U u)), heap := h }

/-- Update of the dual variables along the list of columns (solver_mtilu2.cpp, lines 372-381). -/
def dual (a : Arith R) (m : Csr R) (aug : R) : Nat → Option Nat → St R → Option (St R)
  | _, none, s => some s
  | 0, some _, _ => none
  | fuel + 1, some u, s =>
    match dualOne a m aug u s, s.colList u with
    | some t, some next => dual a m aug fuel next { t with colList := put t.colList u none }
    | _, _ => none

/-- Change of the matching along the path (solver_mtilu2.cpp, lines 383-396). -/
def augment (a : Arith R) (m : Csr R) : Nat → Option Nat → Option Nat → St R → Option (St R)
  | _, _, none, s => some s
  | 0, _, some _, _ => none
  | _ + 1, none, some _, _ => none
  | fuel + 1, some u, some t, s =>
    match s.augPos u with
    | none => none
    | some q => augment a m fuel (s.iperm t) (s.parent t)
        { s with perm := put s.perm u (some t), iperm := put s.iperm t (some u),
                 colPos := put s.colPos t (some q), V := put s.V t (a.sub (m.val q) (s.U u)) }

/-- One row of the weighted bipartite matching (solver_mtilu2.cpp, lines 311-398). -/
def round (a : Arith R) (m : Csr R) (k : Nat) (s : St R) : Option (St R) :=
  if (s.iperm k).isSome then some s
  else
    match search a m (m.n + 1) k a.zero { s with parent := put s.parent k none }
        { pathEnd := none, trace := k, aug := a.max, colBegin := none } with
    | none => none
    | some (s1, x) =>
      match x.pathEnd with
      | none => some s1
      | some e =>
        match dual a m x.aug (m.n + 1) x.colBegin s1 with
        | none => none
        | some s2 =>
          match augment a m (m.n + 1) (some e) (some x.trace) s2 with
          | none => none
          | some s3 => some { s3 with heap := Heap.clear a.cmp a.max s3.heap }

/-- Weighted bipartite matching (solver_mtilu2.cpp, lines 309-399). -/
def rounds (a : Arith R) (m : Csr R) : List Nat → St R → Option (St R)
  | [], s => some s
  | k :: l, s => match round a m k s with
    | none => none
    | some t => rounds a m l t

/-- The matching for given costs and dual variables (solver_mtilu2.cpp, lines 257-399). -/
def matching (a : Arith R) (m : Csr R) (U V : Nat → R) : Option (St R) :=
  match stepAll a m (List.range m.n) (matchAll a m (List.range m.n) (start a m.n U V)) with
  | none => none
  | some s => rounds a m (List.range m.n) s

/-- Rows that no column has (solver_mtilu2.cpp, lines 405-414). -/
def gaps (n : Nat) (perm : Nat → Option Nat) : List Nat :=
  (List.range n).filter fun k => !(List.range n).any fun c => perm c == some k

/-- The loop that gives these rows to the columns without row, the last one first
(solver_mtilu2.cpp, lines 416-421); `none` if there is no row left. -/
def fillGaps : List Nat → List Nat → (Nat → Option Nat) → Option (Nat → Option Nat)
  | [], _, perm => some perm
  | c :: l, g, perm =>
    match perm c with
    | some _ => fillGaps l g perm
    | none => match g.getLast? with
      | none => none
      | some r => fillGaps l g.dropLast (put perm c (some r))

/-- What the reordering computes from the matrix `A`: the state after the matching and the
permutation (solver_mtilu2.cpp, lines 210-422). -/
def reorder (a : Arith R) (n : Nat) (A : Nat → List (Nat × R)) :
    Option (St R × (Nat → Option Nat)) :=
  let m0 := absolute a n A
  let all := List.range (m0.adr n)
  let cmax := columnMax a m0 all fun _ => a.zero
  let m := costs a m0 cmax
  let U := columnMin a m0 m cmax all fun _ => a.max
  let V := fun k => rowMin a m U (m.row k) a.max
  match matching a m U V with
  | none => none
  | some s => match fillGaps (List.range n) (gaps n s.perm) s.perm with
    | none => none
    | some p => some (s, p)

end Verif.Matching
