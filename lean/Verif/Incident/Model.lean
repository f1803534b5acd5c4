/-!
# The search for closed loops

Source: `Source/Mesh/incident_matrix.hpp` L90-696 (class template `incident_matrix`, the branch compiled
when `NEW_ALGORITHM` is not defined), used by `Face::SplitFace` and `Cell::SplitCell`
(`Source/Mesh/modify.cpp` L1423-1744).

The object receives a list of elements (edges or faces; "columns"), each with its lower adjacency (nodes or
edges; "rows"), and extracts sets of columns in which every row occurs 0 or 2 times.

Simplifications
* the printing and the `RECORD_PATH` diagnostics are left out;
* `exit_recurse` is only ever set to `false`, `hide_row` and `visits0` are never read: left out;
* `compute_measure` and the floating point comparisons are parameters (`Meas`);
* `DEEP_RECURSE` is not defined;
* the recursion and the `do ... while` loops get a fuel argument; running out of fuel is `none`, and
  `C86_terminates` says that this does not happen;
* `visits` is a `char`, here an integer; `head_row_count` is an `unsigned char`, here a natural number (it
  stays below 4).
-/

namespace Verif.Incident

/-- `head_column` (L98, L543) with the lower connections of the elements (L567). -/
structure Mat (C R : Type) where
  cols : List C
  low : C → List R

section
variable {C R K : Type} [DecidableEq C] [DecidableEq R]

/-- The inner loop of the constructor that collects `head_row` (L568-575): the elements without the private
marker are appended and marked. -/
def addRows (acc : List R) : List R → List R
  | [] => acc
  | r :: rs => if r ∈ acc then addRows acc rs else addRows (acc ++ [r]) rs

/-- `head_row` (L563-576). -/
def Mat.rows (M : Mat C R) : List R := M.cols.foldl (fun acc c => addRows acc (M.low c)) []

/-- `matrix[k*head_row_count.size()+i] == 1` (L590-597), the row being named by its element. -/
def Mat.hit (M : Mat C R) (k : Nat) (r : R) : Bool :=
  match M.cols[k]? with
  | some c => decide (r ∈ M.low c)
  | none => false

/-- The arithmetic of `compute_measure` (L176-185) and of the comparisons L422, L424, with the initial value
`1.0e+20` of `min_loop_measure` (L647).  `ge a b` is `a + MEASURE_EPS >= b`, `close a b` is
`fabs(a-b) < MEASURE_EPS`. -/
structure Meas (C K : Type) where
  of : C → K
  zero : K
  add : K → K → K
  ge : K → K → Bool
  close : K → K → Bool
  big : K

/-- `compute_measure` (L176-185). -/
def Meas.total (W : Meas C K) (l : List C) : K := l.foldl (fun a c => W.add a (W.of c)) W.zero

/-- The members that change during the search (L95-106, L110): `hide_column[k] == 0` is `shown k`, `insert_order`
is `order`, `head_row_count` is `cnt`, `stub_row` is `stub`, `min_loop` is `best` and `min_loop_measure` is
`bm`. -/
structure St (C R K : Type) where
  shown : Nat → Bool
  order : List Nat
  cnt : R → Nat
  stub : R → Bool
  best : List C
  bm : K

/-- The members after construction (L598-601). -/
def St.init (bm : K) : St C R K :=
  ⟨fun _ => false, [], fun _ => 0, fun _ => false, [], bm⟩

/-- `do_hide_row` (L114-132).  `pop_back` on an empty vector and a count that would wrap around are `none`. -/
def hide (M : Mat C R) (k : Nat) (s : St C R K) : Option (St C R K) :=
  if s.shown k then
    if s.order = [] ∨ M.rows.any (fun r => M.hit k r && s.cnt r == 0) then none
    else some { s with
      shown := fun q => if q = k then false else s.shown q
      cnt := fun r => if M.hit k r then s.cnt r - 1 else s.cnt r
      stub := fun r => if M.hit k r && s.cnt r - 1 == 0 then false else s.stub r
      order := s.order.dropLast }
  else some s

/-- The state in `do_show_row` after L138-147 and L157. -/
def shownSt (M : Mat C R) (k : Nat) (s : St C R K) : St C R K :=
  { s with
    shown := fun q => if q = k then true else s.shown q
    cnt := fun r => if M.hit k r then s.cnt r + 1 else s.cnt r
    order := s.order ++ [k] }

/-- `do_show_row` (L134-162): the result and the new state. -/
def «show» (M : Mat C R) (k : Nat) (s : St C R K) : Option (Bool × St C R K) :=
  if s.shown k then some (true, s)
  else if M.rows.any (fun r => M.hit k r && decide (2 < (shownSt M k s).cnt r)) then
    match hide M k (shownSt M k s) with
    | none => none
    | some s' => some (false, s')
  else some (true, shownSt M k s)

/-- `test_success` (L163-175). -/
def success (M : Mat C R) (s : St C R K) : Bool := M.rows.all fun r => s.cnt r != 1

/-- `head_column[insert_order[j]]` for all `j` (L410-411); an index out of range is `none`. -/
def elements (M : Mat C R) : List Nat → Option (List C)
  | [] => some []
  | k :: ks =>
    match M.cols[k]?, elements M ks with
    | some c, some l => some (c :: l)
    | _, _ => none

/-- A closed loop was found (L403-439): it replaces the best one found so far or not.  `temp_loop` has the size
`length`; another number of elements would be an access out of bounds or an undefined entry
(`none`). -/
def record (W : Meas C K) (M : Mat C R) (length : Nat) (s : St C R K) : Option (St C R K) :=
  if s.order.length ≠ length then none
  else match elements M s.order with
    | none => none
    | some l =>
      some (if (s.best = [] ∨ W.ge s.bm (W.total l) = true) ∧
          ¬ (W.close s.bm (W.total l) = true ∧ s.best.length < l.length) then
        { s with best := l, bm := W.total l }
      else s)

/-- The loop over `q` (L447-453, L467-473). -/
def tryRow (M : Mat C R) (vis : Nat → Int) (rec : Nat → St C R K → Option (St C R K)) (j : R) :
    List Nat → St C R K → Option (St C R K)
  | [], s => some s
  | q :: qs, s =>
    if 0 < vis q ∧ M.hit q j = true ∧ s.shown q = false then
      match rec q s with
      | none => none
      | some s' => tryRow M vis rec j qs s'
    else tryRow M vis rec j qs s

/-- One of the two loops over `j` (L443-461 with `want = true`, L463-481 with `want = false`).  The second
component is `stub`. -/
def pass (M : Mat C R) (vis : Nat → Int) (rec : Nat → St C R K → Option (St C R K)) (node : Nat)
    (want : Bool) : List R → St C R K → Option (St C R K × Bool)
  | [], s => some (s, false)
  | j :: js, s =>
    if s.stub j = false ∧ M.hit node j = want ∧ s.cnt j = 1 then
      match tryRow M vis rec j (List.range M.cols.length) s with
      | none => none
      | some s' =>
        if s'.cnt j = 1 then some ({ s' with stub := fun r => if r = j then true else s'.stub r }, true)
        else pass M vis rec node want js s'
    else pass M vis rec node want js s

/-- The branch L440-483: first the open rows of the element itself, then the others. -/
def explore (M : Mat C R) (vis : Nat → Int) (rec : Nat → St C R K → Option (St C R K)) (node : Nat)
    (s : St C R K) : Option (St C R K) :=
  match pass M vis rec node true M.rows s with
  | none => none
  | some (s1, true) => some s1
  | some (s1, false) =>
    match pass M vis rec node false M.rows s1 with
    | none => none
    | some (s2, _) => some s2

/-- The part L398-485 that runs when `do_show_row` has succeeded. -/
def visit (W : Meas C K) (M : Mat C R) (vis : Nat → Int) (rec : Nat → St C R K → Option (St C R K))
    (node length : Nat) (s : St C R K) : Option (St C R K) :=
  match (if success M s then record W M length s else explore M vis rec node s) with
  | none => none
  | some s' => hide M node s'

/-- The end of `recursive_find` (L487-491). -/
def finish (length : Nat) (s : St C R K) : St C R K :=
  if length = 1 then { s with stub := fun _ => false } else s

/-- `recursive_find` (L384-492). -/
def find (W : Meas C K) (M : Mat C R) (vis : Nat → Int) :
    Nat → Nat → Nat → St C R K → Option (St C R K)
  | 0, _, _, _ => none
  | f + 1, length, node, s =>
    if s.best ≠ [] ∧ s.best.length < length then some s
    else match «show» M node s with
      | none => none
      | some (false, s') => some (finish length s')
      | some (true, s') =>
        match visit W M vis (find W M vis f (length + 1)) node length s' with
        | none => none
        | some s'' => some (finish length s'')

/-- L638-644: the first column with one visit left. -/
def firstOne (vis : Nat → Int) (n : Nat) : Option Nat := (List.range n).find? fun q => decide (vis q = 1)

/-- The loop L636-658: columns without a closed loop are given up. -/
def search (W : Meas C K) (M : Mat C R) :
    Nat → (Nat → Int) → St C R K → Option ((Nat → Int) × St C R K)
  | 0, _, _ => none
  | f + 1, vis, s =>
    match firstOne vis M.cols.length with
    | none => some (vis, s)
    | some q =>
      match find W M vis (M.cols.length + 1) 1 q { s with bm := W.big } with
      | none => none
      | some s' =>
        if s'.best = [] then search W M f (fun k => if k = q then vis k - 1 else vis k) s'
        else some (vis, s')

/-- `find_shortest_loop` (L631-692): the loop and the new `visits`.  The elements of the loop are marked with a
private marker and every marked column loses one visit. -/
def nextLoop (W : Meas C K) (M : Mat C R) (vis : Nat → Int) (s : St C R K) :
    Option (List C × (Nat → Int) × St C R K) :=
  match search W M (M.cols.length + 1) vis s with
  | none => none
  | some (vis', s') =>
    some (s'.best,
      (fun k => match M.cols[k]? with
        | some c => if c ∈ s'.best then vis' k - 1 else vis' k
        | none => vis' k),
      { s' with best := [] })

/-- The loop of the callers (`modify.cpp` L1581-1621, L1716-1727): loops are taken until an empty one is
returned. -/
def takeLoops (W : Meas C K) (M : Mat C R) : Nat → (Nat → Int) → St C R K → Option (List (List C))
  | 0, _, _ => none
  | f + 1, vis, s =>
    match nextLoop W M vis s with
    | none => none
    | some (l, vis', s') =>
      if l = [] then some []
      else match takeLoops W M f vis' s' with
        | none => none
        | some ls => some (l :: ls)

/-- The initial `visits` (L565). -/
def visits0 (inner : Nat) : Nat → Int := fun k => if k < inner then 2 else 1

/-- Construction from `inner ++ outer` with `num_inner = inner.length` (L541-603) and the extraction of all
loops. -/
def loops (W : Meas C K) (low : C → List R) (inner outer : List C) : Option (List (List C)) :=
  takeLoops W ⟨inner ++ outer, low⟩ (2 * (inner ++ outer).length + 1) (visits0 inner.length)
    (St.init W.big)

end
end Verif.Incident
