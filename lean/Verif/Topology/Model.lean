/-!
# Model of mesh connectivity

Source: `Source/Mesh/mesh.cpp` (CreateNode L1190-1224, CreateEdge L1226-1301, CreateFace L1328-1403,
CreateCell L1805-1868, FindSharedAdjacency L797-871), `Source/Mesh/modify.cpp`
(Disconnect L47-109, BeginModification L1750-1758, EndModification L2121-2183, Destroy L2186-2208,
Hide L2210-2224, Show L2226-2238, Delete L2240-2258, getNext L2300-2305, Count L2307-2316,
SwapBackCell L2323-2355, Disconnect(adjacent) L2357-2557, Connect L2559-2708),
`Source/Mesh/face.cpp` (ReorderEdges L134-144, SwapCells L146-161), `Source/Mesh/geometry.cpp`
(FixNormalOrientation L2338-2362), `Source/Mesh/element.cpp` (nbAdjElements L66-323,
getAdjElements L866-1118).

An element is a type number (0 node, 1 edge, 2 face, 3 cell) and a local number.  `low`/`high` are the
arrays of `LowConnTag`/`HighConnTag` (node<->edge<->face<->cell, and cell<->node when
`cell_node_conn` is set, mesh.cpp L46: `high` of a cell are its nodes, `low` of a node its cells).

Simplifications.
* The storage behind `low`, `high` is justified by C07-C09: `TieElement` returns a number not in use
  and empty records.  The number is a parameter of the creating operations.
* A reference to an array of a dead element, or of a type without the tag, is `none`.
* Temporary private markers used for de-duplication are membership tests in the list of
  elements marked so far (justified by C02-C04).
* What depends on geometry (whether the normal of a face is oriented wrongly,
  `CheckNormalOrientation`, and whether orientation is maintained) is an arbitrary function
  `flip` of the state and the face.  Other geometric data is left out.
* Element sets are not part of this model.
-/

namespace Verif.Topology

/-- An element: type number and local number. -/
structure El where
  ty : Nat
  id : Nat
  deriving DecidableEq, Repr

/-- Connectivity of a mesh.  `cn` is `cell_node_conn`; `last` is `LastLocalID`;
`hide` says that `HideMarker()` is not zero. -/
structure Topo where
  cn : Bool
  alive : El → Bool
  last : Nat → Nat
  low : El → List El
  high : El → List El
  hide : Bool
  hidden : El → Bool

/-- Replacement of one entry of a function. -/
def set1 {α β : Type} [DecidableEq α] (f : α → β) (a : α) (b : β) : α → β :=
  fun x => if x = a then b else f x

/-- An empty mesh. -/
def Topo.init (cn : Bool) : Topo :=
  ⟨cn, fun _ => false, fun _ => 0, fun _ => [], fun _ => [], false, fun _ => false⟩

/-- `HighConn(h)`: the tag is defined on nodes, edges, faces, and on cells if `cn` (mesh.cpp L207). -/
def Topo.hcOf (T : Topo) (x : El) : Option (List El) :=
  if T.alive x = true ∧ (x.ty < 3 ∨ T.cn = true) then some (T.high x) else none

/-- `LowConn(h)`, mesh.cpp L208. -/
def Topo.lcOf (T : Topo) (x : El) : Option (List El) :=
  if T.alive x = true ∧ (0 < x.ty ∨ T.cn = true) then some (T.low x) else none

/-- Change of one array `HighConn(x)`. -/
def Topo.modHigh (T : Topo) (x : El) (g : List El → List El) : Option Topo :=
  match T.hcOf x with
  | none => none
  | some l => some { T with high := set1 T.high x (g l) }

/-- Change of one array `LowConn(x)`. -/
def Topo.modLow (T : Topo) (x : El) (g : List El → List El) : Option Topo :=
  match T.lcOf x with
  | none => none
  | some l => some { T with low := set1 T.low x (g l) }

/-- `for` loop over a list. -/
def forEach {α : Type} (f : Topo → α → Option Topo) : List α → Topo → Option Topo
  | [], T => some T
  | x :: xs, T => match f T x with
    | none => none
    | some T' => forEach f xs T'

/-- Erasing all occurrences: `while(jt != end) if( *jt == h ) jt = erase(jt); else ++jt`,
modify.cpp L63-72 and L100-105. -/
def eraseAll (h : El) : List El → List El
  | [] => []
  | x :: xs => if x = h then eraseAll h xs else x :: eraseAll h xs

/-- `GetMarker(x,HideMarker())`; with the marker 0 the answer is no (inmost_mesh.h L2026). -/
def Topo.hid (T : Topo) (x : El) : Bool := T.hide && T.hidden x

/-- `getNext`, modify.cpp L2300-2305: the first position `≥ k` whose element is not hidden
(the argument of the source is `k-1`). -/
def Topo.getNext (T : Topo) (l : List El) (k : Nat) : Nat :=
  k + ((l.drop k).takeWhile T.hid).length

/-- `Count`, modify.cpp L2307-2316. -/
def Topo.countVis (T : Topo) : List El → Nat
  | [] => 0
  | x :: xs => (if T.hid x then 0 else 1) + T.countVis xs

/-- `std::swap(l[i],l[j])`; out of range: undefined. -/
def swapAt (l : List El) (i j : Nat) : Option (List El) :=
  match l[i]?, l[j]? with
  | some a, some b => some ((l.set i b).set j a)
  | _, _ => none

/-- `TieElement` and the fresh records. -/
def Topo.tie (T : Topo) (x : El) : Topo :=
  { T with
    alive := set1 T.alive x true
    last := set1 T.last x.ty (max (T.last x.ty) (x.id + 1))
    low := set1 T.low x []
    high := set1 T.high x []
    hidden := set1 T.hidden x false }

/-- `CreateNode`, mesh.cpp L1190-1224. -/
def Topo.createNode (T : Topo) (id : Nat) : Option Topo :=
  if T.alive ⟨0, id⟩ then none else some (T.tie ⟨0, id⟩)

/-- The body of `CreateEdge` (L1242-1262), `CreateFace` (L1344-1362) and `CreateCell` (L1821-1858)
after the checks: `he` is the new element, `elems` its boundary, `nodes` (cells only) the
suggested nodes or the result of `RestoreCellNodes`. -/
def Topo.createUp (T : Topo) (he : El) (elems nodes : List El) : Option Topo :=
  match forEach (fun T x => T.modHigh x (· ++ [he])) elems (T.tie he) with
  | none => none
  | some T1 => match T1.modLow he (· ++ elems) with
    | none => none
    | some T2 =>
      if he.ty = 3 ∧ T.cn = true then
        match forEach (fun T x => T.modLow x (· ++ [he])) nodes T2 with
        | none => none
        | some T3 => T3.modHigh he (nodes ++ ·)
      else some T2

/-- Inner loops of `FindSharedAdjacency` for one candidate `c`, mesh.cpp L815-830 and L848-866:
the candidate occurs in `HighConn` of each of the other elements. -/
def sharedIn (c : El) (hide : El → Bool) : List (List El) → Bool
  | [] => true
  | l :: ls => (l.any fun y => !hide y && decide (c = y)) && sharedIn c hide ls

/-- The arrays `HighConn(arr[i])`. -/
def Topo.hcs (T : Topo) : List El → Option (List (List El))
  | [] => some []
  | x :: xs => match T.hcOf x, T.hcs xs with
    | some l, some ls => some (l :: ls)
    | _, _ => none

/-- `FindSharedAdjacency`, mesh.cpp L797-871; `none` is undefined behaviour, `some none` is
`InvalidHandle`.  Without hide marker all elements of `arr` are used, otherwise those that
are not hidden; if all are hidden the source reads `arr[s]`. -/
def Topo.findShared (T : Topo) (arr : List El) : Option (Option El) :=
  if arr = [] then some none else
  match arr.filter fun x => !T.hid x with
  | [] => none
  | x0 :: xs => match T.hcOf x0 with
    | none => none
    | some [] => some none
    | some hc0 => match T.hcs xs with
      | none => none
      | some hcarr => some (hc0.find? fun c => !T.hid c && sharedIn c T.hid hcarr)

/-- `CreateEdge`, `CreateFace`, `CreateCell` with handles: the type is that of the element to
create.  `dup` is the topology check `DUPLICATE_*`.  The result is the state, the element
(`none` for `InvalidHandle`, empty boundary) and whether it is new.  Other topology checks
either throw before any change or destroy the new element afterwards. -/
def Topo.create (T : Topo) (dup : Bool) (ty id : Nat) (elems nodes : List El) :
    Option (Topo × Option El × Bool) :=
  if elems = [] then some (T, none, true) else
  match (if dup then T.findShared elems else some none) with
  | none => none
  | some (some e) => some (T, some e, false)
  | some none =>
    if T.alive ⟨ty, id⟩ then none else
    match T.createUp ⟨ty, id⟩ elems nodes with
    | none => none
    | some T1 => some (T1, some ⟨ty, id⟩, true)

section
variable (flip : Topo → El → Bool)

/-- `FixNormalOrientation(false)`, geometry.cpp L2338-2362 with `ReorderEdges`, face.cpp L134-144
(the swap loop reverses the array). -/
def Topo.fixNoSwap (T : Topo) (f : El) : Option Topo :=
  if flip T f then T.modLow f List.reverse else some T

/-- The swap of the two visible entries of `HighConn(f)`, modify.cpp L2337-2342, face.cpp L150-158. -/
def Topo.swapTwo (T : Topo) (f : El) (l : List El) : Option Topo :=
  let k1 := T.getNext l 0
  let k2 := T.getNext l (k1 + 1)
  match swapAt l k1 k2 with
  | none => none
  | some l' => T.modHigh f fun _ => l'

/-- `FixNormalOrientation(true)`, geometry.cpp L2338-2362 with `SwapCells`, face.cpp L146-161.
`FrontCell().isValid()`: there is a second visible cell. -/
def Topo.fixNormal (T : Topo) (f : El) : Option Topo :=
  match T.hcOf f with
  | none => none
  | some l =>
    if flip T f then
      if 2 ≤ T.countVis l then (if T.countVis l = 2 then T.swapTwo f l else some T)
      else T.modLow f List.reverse
    else some T

/-- One face in `SwapBackCell`, modify.cpp L2333-2348. -/
def Topo.swapBackFace (c : El) (T : Topo) (f : El) : Option Topo :=
  if T.hid f then some T else
  match T.hcOf f with
  | none => none
  | some l =>
    if T.countVis l = 2 ∧ l[T.getNext l 0]? = some c then
      match T.swapTwo f l with
      | none => none
      | some T1 => T1.fixNoSwap flip f
    else some T

/-- `SwapBackCell`, modify.cpp L2323-2355. -/
def Topo.swapBack (T : Topo) (c : El) : Option Topo :=
  match T.lcOf c with
  | none => none
  | some lc => forEach (fun T f => T.swapBackFace flip c f) lc T

/-- `if( GetElementType() == CELL ) SwapBackCell()`. -/
def Topo.swapBackIf (T : Topo) (h : El) : Option Topo :=
  if h.ty = 3 then T.swapBack flip h else some T

/-- First loop of `Disconnect`, modify.cpp L57-75: `h` is removed from `LowConn` of the elements
`us` of its `HighConn`, the positions of elements changed are collected. -/
def rmLoop (h : El) : (us : List El) → (i : Nat) → Topo → Option (Topo × List Nat)
  | [], _, T => some (T, [])
  | u :: us, i, T => match T.lcOf u with
    | none => none
    | some lc => match rmLoop h us (i + 1) { T with low := set1 T.low u (eraseAll h lc) } with
      | none => none
      | some (T', d) => some (T', if h ∈ lc then i :: d else d)

/-- `m->Delete(hc[i])` in `Disconnect`, modify.cpp L80-89; `vis`: the element itself is not hidden
(otherwise only hidden elements are deleted). -/
def delAt (del : Topo → El → Option Topo) (h : El) (vis : Bool) (T : Topo) (i : Nat) : Option Topo :=
  match (T.high h)[i]? with
  | none => none
  | some u => if vis || T.hid u then del T u else some T

/-- Upper part of `Disconnect(true)`, modify.cpp L55-93. -/
def disUpper (del : Topo → El → Option Topo) (T : Topo) (h : El) : Option Topo :=
  if h.ty < 3 ∨ T.cn = true then
    match T.hcOf h with
    | none => none
    | some hc => match rmLoop h hc 0 T with
      | none => none
      | some (T1, d) =>
        match (if h.ty < 3 then forEach (delAt del h (!T1.hid h)) d T1 else some T1) with
        | none => none
        | some T2 => T2.modHigh h fun _ => []
  else some T

/-- Lower part of `Disconnect(true)`, modify.cpp L94-108. -/
def disLower (T : Topo) (h : El) : Option Topo :=
  if 0 < h.ty ∨ T.cn = true then
    match T.lcOf h with
    | none => none
    | some lc => match forEach (fun T x => T.modHigh x (eraseAll h)) lc T with
      | none => none
      | some T1 => T1.modLow h fun _ => []
  else some T

/-- `DelData` of all tags and `UntieElement`, modify.cpp L2205-2207. -/
def Topo.untie (T : Topo) (h : El) : Topo :=
  { T with
    alive := set1 T.alive h false
    low := set1 T.low h []
    high := set1 T.high h []
    hidden := set1 T.hidden h false }

/-- `Destroy`, modify.cpp L2186-2208, with `Disconnect(true)`, L47-109; `del` is `Delete`. -/
def destroyWith (del : Topo → El → Option Topo) (T : Topo) (h : El) : Option Topo :=
  if T.alive h then
    match T.swapBackIf flip h with
    | none => none
    | some T0 => match disUpper del T0 h with
      | none => none
      | some T1 => match disLower T1 h with
        | none => none
        | some T2 => some (T2.untie h)
  else none

/-- `Hide` while the hide marker exists, modify.cpp L2212-2222. -/
def Topo.hideEl (T : Topo) (h : El) : Option Topo :=
  if T.alive h then
    if T.hidden h then some T else
    match T.swapBackIf flip h with
    | none => none
    | some T1 => some { T1 with hidden := set1 T1.hidden h true }
  else none

/-- `Delete`, modify.cpp L2240-2258.  The recursion goes from elements to elements one type higher,
so that it ends after four levels; the first argument bounds the number of levels. -/
def deleteF : Nat → Topo → El → Option Topo
  | 0, _, _ => none
  | n + 1, T, h =>
    if T.hide then
      match T.hideEl flip h with
      | none => none
      | some T1 =>
        if h.ty < 3 then
          match T1.hcOf h with
          | none => none
          | some hc => forEach (fun T i => match (T.high h)[i]? with
              | none => none
              | some u => if T.hidden u then some T else deleteF n T u) (List.range hc.length) T1
        else some T1
    else destroyWith flip (deleteF n) T h

/-- `Delete`. -/
def Topo.delete (T : Topo) (h : El) : Option Topo := deleteF flip 5 T h

/-- `Destroy` called by a client: `UntieElement` asserts that the mesh is not modified. -/
def Topo.destroy (T : Topo) (h : El) : Option Topo :=
  if T.hide then none else destroyWith flip (deleteF flip 4) T h

/-- `Hide` called by a client. -/
def Topo.hideOp (T : Topo) (h : El) : Option Topo := if T.hide then T.hideEl flip h else some T

/-- `Show`, modify.cpp L2226-2238. -/
def Topo.showOp (T : Topo) (h : El) : Option Topo :=
  if T.alive h then
    if T.hide then some { T with hidden := set1 T.hidden h false } else some T
  else none

/-- `BeginModification`, modify.cpp L1750-1758: new markers are set on no element (C02). -/
def Topo.beginMod (T : Topo) : Option Topo :=
  if T.hide then none else some { T with hide := true, hidden := fun _ => false }

/-- One element in `EndModification`, modify.cpp L2145-2150. -/
def endStep (ty : Nat) (T : Topo) (i : Nat) : Option Topo :=
  if T.alive ⟨ty, i⟩ && T.hidden ⟨ty, i⟩ then destroyWith flip (deleteF flip 4) T ⟨ty, i⟩
  else some T

/-- The loop over the elements of one type. -/
def endType (T : Topo) (ty : Nat) : Option Topo :=
  forEach (endStep flip ty) (List.range (T.last ty)) T

/-- `EndModification`, modify.cpp L2121-2183, for nodes, edges, faces and cells. -/
def Topo.endMod (T : Topo) : Option Topo :=
  if T.hide then
    match forEach (endType flip) [3, 2, 1, 0] T with
    | none => none
    | some T1 => some { T1 with hide := false }
  else none

/-- Elements of the given type reached from `mods` by going up: the arrays `arr[k]` of
`Connect`/`Disconnect`, modify.cpp L2461-2479 and L2613-2631 (order and repetitions left out). -/
def Topo.above (T : Topo) (mods : List El) : Nat → List El
  | 0 => mods.filter fun x => x.ty = 0
  | k + 1 => (mods.filter fun x => x.ty = k + 1) ++ (T.above mods k).flatMap T.high

/-- The nodes of the edges of the faces of a cell, modify.cpp L2482-2498. -/
def Topo.downNodes (T : Topo) (c : El) : List El :=
  (T.low c).flatMap fun f => (T.low f).flatMap fun e => T.low e

/-- The update of the nodes of an affected cell, modify.cpp L2480-2538 and L2632-2690.
For the first node found the source executes `cnodes.push_back(keep)`, which appends the value of a
marker as if it was the handle of an element, and then uses this handle; the outcome depends
on unrelated sets of the mesh and is `none` here.  If there is no node, all nodes of the cell are
disconnected. -/
def Topo.cellNodes (T : Topo) (c : El) : Option Topo :=
  if T.downNodes c ≠ [] then none else
  match T.hcOf c with
  | none => none
  | some hc => match forEach (fun T x => T.modLow x (·.erase c)) hc T with
    | none => none
    | some T1 => T1.modHigh c fun _ => []

/-- Second phase of `Connect` and `Disconnect`. -/
def Topo.cellPhase (T : Topo) (mods : List El) : Option Topo :=
  if T.cn then forEach Topo.cellNodes (T.above mods 3) T else some T

/-- `Connect`, modify.cpp L2559-2708.  `FixEdgeOrder` and `FixNormalOrientation` that follow are
separate operations of this model. -/
def Topo.connect (T : Topo) (h : El) (adj : List El) : Option Topo :=
  if h.ty = 1 ∧ (T.low h).length > 2 then none else
  match forEach (fun T x =>
      if x.ty ≠ 3 ∧ x.ty + 1 = h.ty ∧ ¬ (x.ty = 2 ∧ (T.high x).length > 1) then
        T.modHigh x (· ++ [h]) else none) adj T with
  | none => none
  | some T1 => match T1.modLow h (· ++ adj) with
    | none => none
    | some T2 => T2.cellPhase (h :: adj)

/-- Disconnection of one lower element `x` in `Disconnect(adjacent)`, modify.cpp L2373-2412. -/
def disOne (h : El) (T : Topo) (x : El) : Option Topo :=
  match (if h.ty = 3 then T.swapBackFace flip h x else some T) with
  | none => none
  | some T1 => T1.modHigh x (·.erase h)

/-- `Disconnect(adjacent,num)`, modify.cpp L2357-2557.  The entries of the own array of `h` are removed
after the loop, which does not read them.  (In L2376-2391 the hidden state of the face is not
tested, unlike in `SwapBackCell`; only the order of its two cells is concerned.) -/
def Topo.disconnect (T : Topo) (h : El) (adj : List El) : Option Topo :=
  match (if 0 < h.ty then
      match forEach (disOne flip h) ((T.low h).filter (· ∈ adj)) T with
      | none => none
      | some T1 => T1.modLow h fun _ => (T.low h).filter (· ∉ adj)
    else some T) with
  | none => none
  | some T1 =>
    match (if h.ty < 3 then
        match forEach (fun T x => T.modLow x (·.erase h)) ((T.high h).filter (· ∈ adj)) T1 with
        | none => none
        | some T2 => T2.modHigh h fun _ => (T.high h).filter (· ∉ adj)
      else some T1) with
    | none => none
    | some T2 => T2.cellPhase
        ((if 0 < h.ty ∧ (T.low h).filter (· ∈ adj) ≠ [] then [h] else []) ++
          (if h.ty < 3 then (T.high h).filter (· ∈ adj) else []))

end

/-! ## Adjacency queries -/

/-- The inner loop `if( !GetPrivateMarker(x) ) { result.push_back(x); SetPrivateMarker(x); }` with the
test of the hide marker around it; `acc` are the elements marked so far. -/
def Topo.collect (T : Topo) (acc : List El) : List El → List El
  | [] => acc
  | x :: xs => if T.hid x then T.collect acc xs
    else if x ∈ acc then T.collect acc xs else T.collect (acc ++ [x]) xs

/-- Outer loop: for visible elements `y` of a list the array `conn y` is collected. -/
def Topo.collectVia (T : Topo) (conn : El → Option (List El)) (acc : List El) :
    List El → Option (List El)
  | [] => some acc
  | y :: ys => if T.hid y then T.collectVia conn acc ys
    else match conn y with
      | none => none
      | some l => T.collectVia conn (T.collect acc l) ys

/-- Two outer loops. -/
def Topo.collectVia2 (T : Topo) (conn : El → Option (List El)) (acc : List El) :
    List El → Option (List El)
  | [] => some acc
  | y :: ys => if T.hid y then T.collectVia2 conn acc ys
    else match conn y with
      | none => none
      | some l => match T.collectVia conn acc l with
        | none => none
        | some acc' => T.collectVia2 conn acc' ys

/-- The elements of type `i` of `getAdjElements`, element.cpp L884-992 (no hide marker; the tests of
the hide marker are then false) and L994-1116. -/
def Topo.adj1 (T : Topo) (x : El) (i : Nat) : Option (List El) :=
  if i = x.ty then some (if T.hid x then [] else [x])
  else if i = x.ty + 1 then (T.hcOf x).map fun l => l.filter fun y => !T.hid y
  else if i + 1 = x.ty then (T.lcOf x).map fun l => l.filter fun y => !T.hid y
  else if i = x.ty + 2 then match T.hcOf x with
    | none => none
    | some hc => T.collectVia T.hcOf [] hc
  else if i + 2 = x.ty then match T.lcOf x with
    | none => none
    | some lc => T.collectVia T.lcOf [] lc
  else if i = x.ty + 3 then
    if T.cn then (T.lcOf x).map fun l => l.filter fun y => !T.hid y
    else match T.hcOf x with
      | none => none
      | some hc => T.collectVia2 T.hcOf [] hc
  else
    if T.cn then (T.hcOf x).map fun l => l.filter fun y => !T.hid y
    else match T.lcOf x with
      | none => none
      | some lc => T.collectVia2 T.lcOf [] lc

/-- `getAdjElements(mask)`, element.cpp L866-1118: types in the order node to cell. -/
def Topo.getAdj (T : Topo) (x : El) (mask : Nat → Bool) : List Nat → Option (List El)
  | [] => some []
  | i :: is => if mask i then match T.adj1 x i, T.getAdj x mask is with
      | some l, some ls => some (l ++ ls)
      | _, _ => none
    else T.getAdj x mask is

/-- The count of type `i` in `nbAdjElements`, element.cpp L85-193 and L195-321: visible entries are
counted by a loop, repetition-free lists are collected and their size taken. -/
def Topo.nb1 (T : Topo) (x : El) (i : Nat) : Option Nat :=
  if i = x.ty then some (if T.hid x then 0 else 1)
  else if i = x.ty + 1 then (T.hcOf x).map T.countVis
  else if i + 1 = x.ty then (T.lcOf x).map T.countVis
  else if i = x.ty + 2 then match T.hcOf x with
    | none => none
    | some hc => (T.collectVia T.hcOf [] hc).map List.length
  else if i + 2 = x.ty then match T.lcOf x with
    | none => none
    | some lc => (T.collectVia T.lcOf [] lc).map List.length
  else if i = x.ty + 3 then
    if T.cn then (T.lcOf x).map T.countVis
    else match T.hcOf x with
      | none => none
      | some hc => (T.collectVia2 T.hcOf [] hc).map List.length
  else
    if T.cn then (T.hcOf x).map T.countVis
    else match T.lcOf x with
      | none => none
      | some lc => (T.collectVia2 T.lcOf [] lc).map List.length

/-- `nbAdjElements(mask)`, element.cpp L66-323. -/
def Topo.nbAdj (T : Topo) (x : El) (mask : Nat → Bool) : List Nat → Option Nat
  | [] => some 0
  | i :: is => if mask i then match T.nb1 x i, T.nbAdj x mask is with
      | some l, some ls => some (l + ls)
      | _, _ => none
    else T.nbAdj x mask is

end Verif.Topology
