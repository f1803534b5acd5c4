import Verif.Sparse.RowModel

/-!
# Model of `Sparse::RowMerger`

Models `/repo/Source/Headers/inmost_sparse.h` L624-760 and `/repo/Source/Solver/sparse.cpp` L60-322: a linear
combination of rows is gathered in an array of pairs (link, value) that holds a linked list over the columns of
the local interval, and in a `std::map` for all other columns.

Position `ibeg` of the array is the head of the list, column `c` is kept at position `c + 1`.  Every access to
the array outside of `[ibeg, iend]`, every failed assertion and a loop along the list that does not
end are the outcome `none`.  The type of the values is a commutative ring as in `RowModel`.
-/

namespace Verif.Sparse

variable {K : Type} [CommRing K] [DecidableEq K]

/-- `RowMerger::EOL`, inmost_sparse.h L627 (default configuration, 32 bit). -/
def EOL : Nat := 4294967294

/-- `RowMerger::UNDEF`, inmost_sparse.h L628. -/
def UNDEF : Nat := 4294967295

/-- The data of `RowMerger`, inmost_sparse.h L653-658.  `nxt` and `val` are the two components of `LinkedList`;
`nonlocal` is the `std::map`, i.e. pairs in the order of keys. -/
structure Merger (K : Type) where
  sorted : Bool
  nonzeros : Nat
  ibeg : Nat
  iend : Nat
  nxt : Nat → Nat
  val : Nat → K
  nonlocal : Row K

/-- Assignment to an element of an array. -/
def setAt {α : Type} (f : Nat → α) (p : Nat) (v : α) : Nat → α := fun q => if q = p then v else f q

/-- The constructor, sparse.cpp L113-117, and `Resize`, L119-131 (which refills the array). -/
def Merger.init (ibeg iend : Nat) (sorted : Bool) : Merger K :=
  { sorted := sorted, nonzeros := 0, ibeg := ibeg, iend := iend,
    nxt := setAt (fun _ => UNDEF) ibeg EOL, val := fun _ => 0, nonlocal := [] }

/-- Positions of the array `LinkedList`. -/
def Merger.has (m : Merger K) (p : Nat) : Bool := decide (m.ibeg ≤ p ∧ p ≤ m.iend)

/-- `MapIndex(pos) != ENUMUNDEF`, inmost_sparse.h L664. -/
def Merger.isLocal (m : Merger K) (c : Nat) : Bool := decide (m.ibeg ≤ c ∧ c < m.iend)

/-- `Nonlocal[c]` (operator `[]` of `std::map`): the element with key `c`, created with zero if there is none,
changed by `f`. -/
def mapUpd : Row K → Nat → (K → K) → Row K
  | [], c, f => [(c, f 0)]
  | (i, v) :: r, c, f =>
    if c < i then (c, f 0) :: (i, v) :: r
    else if i = c then (i, f v) :: r
    else (i, v) :: mapUpd r c f

/-- The search loop `while(next < map+1) { index = next; next = LinkedList[index].first; }` of the
sorted mode, sparse.cpp L75-80 and L268-273; the result is (index, next). -/
def findPlace (m : Merger K) (tgt : Nat) : Nat → Nat → Nat → Option (Nat × Nat)
  | 0, _, _ => none
  | fuel + 1, index, next =>
    if next < tgt then
      if m.has next then findPlace m tgt fuel next (m.nxt next) else none
    else some (index, next)

/-- Bound on the number of iterations of loops along the list. -/
def Merger.fuel (m : Merger K) : Nat := m.iend - m.ibeg + 3

/-- `LinkedList[index].first = tgt; LinkedList[tgt].first = next; ++Nonzeros;` and the assignment of the value. -/
def Merger.link (m : Merger K) (index tgt next : Nat) (v : K) : Merger K :=
  { m with nxt := setAt (setAt m.nxt index tgt) tgt next, val := setAt m.val tgt v,
           nonzeros := m.nonzeros + 1 }

/-- Linking a new position `tgt` starting the search from `index`: in sorted mode sparse.cpp L74-87, L267-280; in
the other mode L89-95, L281-287 (behind `index`, which is not moved).  The result contains the new
`index`. -/
def Merger.insertFrom (m : Merger K) (index tgt : Nat) (v : K) : Option (Merger K × Nat) :=
  if m.sorted then
    match findPlace m tgt m.fuel index index with
    | none => none
    | some (i, n) => if i < tgt ∧ tgt < n then some (m.link i tgt n v, i) else none
  else some (m.link index tgt (m.nxt index) v, index)

/-- An access through the non-constant `operator[]`, sparse.cpp L64-97; the caller changes the value by `f`. -/
def Merger.access (m : Merger K) (c : Nat) (f : K → K) : Option (Merger K) :=
  if m.isLocal c then
    if m.nxt (c + 1) ≠ UNDEF then some { m with val := setAt m.val (c + 1) (f (m.val (c + 1))) }
    else (m.insertFrom m.ibeg (c + 1) (f (m.val (c + 1)))).map (·.1)
  else some { m with nonlocal := mapUpd m.nonlocal c f }

/-- The constant `operator[]`, sparse.cpp L99-111; `none` is the exception. -/
def Merger.read (m : Merger K) (c : Nat) : Option K :=
  if m.isLocal c then if m.nxt (c + 1) ≠ UNDEF then some (m.val (c + 1)) else none
  else (m.nonlocal.find? fun e => e.1 = c).map (·.2)

/-- The loop of `Clear`, sparse.cpp L180-186. -/
def clearLoop (m : Merger K) : Nat → Nat → Option (Merger K)
  | 0, _ => none
  | fuel + 1, i =>
    if i = EOL then some m
    else if m.has i then
      clearLoop { m with nxt := setAt m.nxt i UNDEF, val := setAt m.val i 0 } fuel (m.nxt i)
    else none

/-- `Clear`, sparse.cpp L176-189. -/
def Merger.clear (m : Merger K) : Option (Merger K) :=
  match clearLoop { m with nxt := setAt m.nxt m.ibeg EOL } m.fuel (m.nxt m.ibeg) with
  | none => none
  | some m => some { m with nonlocal := [], nonzeros := 0 }

/-- The loop of `Multiply`, sparse.cpp L200-205. -/
def multiplyLoop (coef : K) (m : Merger K) : Nat → Nat → Option (Merger K)
  | 0, _ => none
  | fuel + 1, i =>
    if i = EOL then some m
    else if m.has i then multiplyLoop coef { m with val := setAt m.val i (m.val i * coef) } fuel (m.nxt i)
    else none

/-- `Multiply`, sparse.cpp L198-212. -/
def Merger.multiply (m : Merger K) (coef : K) : Option (Merger K) :=
  match multiplyLoop coef m m.fuel (m.nxt m.ibeg) with
  | none => none
  | some m => some { m with nonlocal := m.nonlocal.map fun e => (e.1, e.2 * coef) }

/-- `it == r.End() || jt->first < it->first`, sparse.cpp L239, L291. -/
def ascends (c : Nat) : Row K → Bool
  | [] => true
  | (d, _) :: _ => decide (c < d)

/-- The loop of `PushRow`, sparse.cpp L221-240. -/
def pushLoop (coef : K) : Row K → Nat → Merger K → Option (Merger K)
  | [], _, m => some m
  | (c, v) :: r, index, m =>
    if m.sorted && !ascends c r then none
    else if m.isLocal c then pushLoop coef r (c + 1) (m.link index (c + 1) EOL (v * coef))
    else pushLoop coef r index { m with nonlocal := mapUpd m.nonlocal c fun _ => v * coef }

/-- `PushRow(coef, r)`, sparse.cpp L215-242. -/
def Merger.pushRow (m : Merger K) (coef : K) (r : Row K) : Option (Merger K) :=
  if m.nonzeros = 0 ∧ m.nxt m.ibeg = EOL then
    if coef ≠ 0 then pushLoop coef r m.ibeg m else some m
  else none

/-- One entry of a row in the loop of `AddRow`, sparse.cpp L258-288: the new state and the new `index`. -/
def Merger.addEntry (m : Merger K) (index : Nat) (coef : K) (c : Nat) (v : K) : Option (Merger K × Nat) :=
  if m.isLocal c then
    if m.nxt (c + 1) ≠ UNDEF then
      some ({ m with val := setAt m.val (c + 1) (m.val (c + 1) + coef * v) }, index)
    else m.insertFrom index (c + 1) (coef * v)
  else some ({ m with nonlocal := mapUpd m.nonlocal c (· + coef * v) }, index)

/-- The loop of `AddRow`, sparse.cpp L254-292. -/
def addLoop (coef : K) : Row K → Nat → Merger K → Option (Merger K)
  | [], _, m => some m
  | (c, v) :: r, index, m =>
    if m.sorted && !ascends c r then none
    else
      match m.addEntry index coef c v with
      | none => none
      | some (m', index') => addLoop coef r index' m'

/-- `AddRow(coef, r)`, sparse.cpp L250-294. -/
def Merger.addRow (m : Merger K) (coef : K) (r : Row K) : Option (Merger K) :=
  if coef ≠ 0 then addLoop coef r m.ibeg m else some m

/-- The loop of `RetrieveRow` over the list, sparse.cpp L301-310: nonzero values are stored. -/
def retrieveLoop (m : Merger K) : Nat → Nat → Option (Row K)
  | 0, _ => none
  | fuel + 1, i =>
    if i = EOL then some []
    else if m.has i then
      (retrieveLoop m fuel (m.nxt i)).map fun r => if m.val i ≠ 0 then (i - 1, m.val i) :: r else r
    else none

/-- `RetrieveRow`, sparse.cpp L297-322; the row is resized to `Nonzeros + Nonlocal.size()` first, and
writing more entries than this is `none`. -/
def Merger.retrieve (m : Merger K) : Option (Row K) :=
  match retrieveLoop m m.fuel (m.nxt m.ibeg) with
  | none => none
  | some r =>
    let out := r ++ m.nonlocal.filter fun e => e.2 ≠ 0
    if out.length ≤ m.nonzeros + m.nonlocal.length then some out else none

/-- The operations of a user. -/
inductive MOp (K : Type) where
  | resize (ibeg iend : Nat) (sorted : Bool)
  | clear
  | multiply (coef : K)
  | push (coef : K) (r : Row K)
  | add (coef : K) (r : Row K)
  | access (c : Nat) (f : K → K)

/-- Execution of an operation. -/
def mstep (m : Merger K) : MOp K → Option (Merger K)
  | .resize b e s => some (Merger.init b e s)
  | .clear => m.clear
  | .multiply coef => m.multiply coef
  | .push coef r => m.pushRow coef r
  | .add coef r => m.addRow coef r
  | .access c f => m.access c f

/-- Execution of a history. -/
def mrun (m : Merger K) : List (MOp K) → Option (Merger K)
  | [] => some m
  | op :: ops =>
    match mstep m op with
    | none => none
    | some m' => mrun m' ops

end Verif.Sparse
