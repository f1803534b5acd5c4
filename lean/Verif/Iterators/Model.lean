import Verif.Handles.Model

/-!
# Model of mesh iteration, local numbering and element counts

Models `/repo/Source/Mesh/iterator.cpp` L12-288, `LastLocalIDNum` of
`/repo/Source/Headers/inmost_mesh.h` L3055-3060, and the part of
`/repo/Source/Mesh/mesh.cpp` L1928-1986 (`UntieElement`, `TieElement`) and
`/repo/Source/Mesh/modify.cpp` L1750-1788, L2121-2264 (modification epochs, hiding,
destruction) that decides which local numbers are alive, hidden and counted.

Simplifications.  A local number is a slot: dead (`links[q][id] == -1`) or alive with
its two modification marks (hidden, new).  The data address stored in `links` is modelled in
`Verif.Storage` and is irrelevant here.  `Delete` and `Disconnect` propagate to upper
elements: such a cascade is a sequence of the single-element operations `hide` and
`destroy` below, and which elements it reaches is modelled in `Verif.Topology`.
Local numbers are unbounded integers (no 32-bit overflow).
-/

namespace Verif.Iterators

open Verif.Handles

/-- One entry of `links[q]`: `dead` is `-1`; a live element has its hide mark and its new
mark (`Mesh::Hidden`, `Mesh::New`, modify.cpp L2260-2270). -/
inductive Slot
  | dead
  | live (hid isNew : Bool)
  deriving DecidableEq, Repr

/-- The part of `Mesh` that iteration reads: `links`, `empty_links` (inmost_mesh.h L1327-1328),
`hidden_count`, `hidden_count_zero` (L1342-1343) and whether an epoch of modification is
open (`isMeshModified`, L3321).  Index `q` is the element number NODE=0 .. ESET=4, MESH=5. -/
structure Pop where
  links : Nat → List Slot
  emptyLinks : Nat → List Nat
  hiddenCount : Nat → Int
  hiddenCountZero : Nat → Int
  modified : Bool

/-- The test `links[q][lid] == -1 || Hidden(ComposeHandleNum(q,lid))`, iterator.cpp L246. -/
def skipSlot : Slot → Bool
  | .dead => true
  | .live hid _ => hid

/-- The test `links[num][id] == -1` of `NextHandle`, iterator.cpp L44. -/
def deadSlot : Slot → Bool
  | .dead => true
  | .live _ _ => false

/-- The loop `while(lid < size && skip(lid)) ++lid` of iterator.cpp L246 and L44. -/
def skipUp (skip : Slot → Bool) (l : List Slot) (lid : Nat) : Nat :=
  if h : lid < l.length then
    if skip l[lid] then skipUp skip l (lid + 1) else lid
  else lid
termination_by l.length - lid

/-- The loop `while(lid > 0 && skip(lid)) --lid` of iterator.cpp L254: number 0 is not
tested. -/
def skipDown (skip : Slot → Bool) (l : List Slot) : Nat → Nat
  | 0 => 0
  | n + 1 =>
    match l[n + 1]? with
    | none => n + 1
    | some s => if skip s then skipDown skip l n else n + 1

/-- The loop `while(id >= 0 && dead(id)) --id` of `PrevHandle`, iterator.cpp L68;
argument and result are `id + 1`, so that 0 stands for `-1`. -/
def skipDownAll (skip : Slot → Bool) (l : List Slot) : Nat → Nat
  | 0 => 0
  | n + 1 =>
    match l[n]? with
    | none => n + 1
    | some s => if skip s then skipDownAll skip l n else n + 1

/-- `LastLocalIDNum`, inmost_mesh.h L3055: one past the last local number; 1 for the mesh. -/
def lastLocalIDNum (p : Pop) (q : Nat) : Int :=
  if q = 5 then 1 else (p.links q).length

/-- `NextLocalIDIter`, iterator.cpp L242-248. -/
def nextLocalIDIter (p : Pop) (q : Nat) (lid : Int) : Int :=
  skipUp skipSlot (p.links q) (lid + 1).toNat

/-- `PrevLocalIDIter`, iterator.cpp L250-256. -/
def prevLocalIDIter (p : Pop) (q : Nat) (lid : Int) : Int :=
  if lid - 1 > 0 then skipDown skipSlot (p.links q) (lid - 1).toNat else lid - 1

/-- `LastLocalIDIter`, iterator.cpp L265-270. -/
def lastLocalIDIter (p : Pop) (q : Nat) : Int := prevLocalIDIter p q (lastLocalIDNum p q)

/-- The loop of `GetNextType`, iterator.cpp L15-20 (`i <= MESH; i = i << 1`).  Eight
rounds exhaust an eight-bit mask. -/
def nextTypeLoop (types : ElementType) : Nat → ElementType → ElementType
  | 0, _ => NONE
  | n + 1, i =>
    if i.toNat ≤ MESH.toNat then
      (if types &&& i ≠ 0 then i else nextTypeLoop types n (i <<< 1))
    else NONE

/-- `GetNextType`, iterator.cpp L12-23. -/
def getNextType (current types : ElementType) : ElementType :=
  nextTypeLoop types 8 (current <<< 1)

/-- The loop of `GetPrevType`, iterator.cpp L28-33 (`i > NONE; i = i >> 1`). -/
def prevTypeLoop (types : ElementType) : Nat → ElementType → ElementType
  | 0, _ => NONE
  | n + 1, i =>
    if i.toNat > NONE.toNat then
      (if types &&& i ≠ 0 then i else prevTypeLoop types n (i >>> 1))
    else NONE

/-- `GetPrevType`, iterator.cpp L25-36 (`if( ret > MESH ) ret = NONE`). -/
def getPrevType (current types : ElementType) : ElementType :=
  let ret := prevTypeLoop types 8 (current >>> 1)
  if ret.toNat > MESH.toNat then NONE else ret

/-- Position of a `base_iterator`, inmost_mesh.h L3105-3107: element type and local number. -/
structure It where
  etype : ElementType
  lid : Int
  deriving DecidableEq, Repr

/-- `End()`: `base_iterator(mesh)`, inmost_mesh.h L3110. -/
def endIt : It := ⟨NONE, -1⟩

/-- The element number used to index `links`. -/
def num (t : ElementType) : Nat := (elementNum t).toNat

/-- `base_iterator::operator++`, iterator.cpp L174-189.  The first argument bounds the number of
rounds of the `while`; `none` means it was too small. -/
def incr (p : Pop) (types : ElementType) : Nat → It → Option It
  | 0, _ => none
  | n + 1, it =>
    if it.etype = NONE then some it
    else
      let lid := nextLocalIDIter p (num it.etype) it.lid
      if lid = lastLocalIDNum p (num it.etype) then
        let et := getNextType it.etype types
        if et = NONE then some ⟨NONE, -1⟩ else incr p types n ⟨et, -1⟩
      else some ⟨it.etype, lid⟩

/-- `base_iterator::operator--`, iterator.cpp L191-211.  After `LastLocalIDIter` the loop does
not stop, so `PrevLocalIDIter` is applied once more. -/
def decr (p : Pop) (types : ElementType) : Nat → It → Option It
  | 0, _ => none
  | n + 1, it =>
    if it.etype = NONE then some it
    else
      let lid := prevLocalIDIter p (num it.etype) it.lid
      if lid = -1 then
        let et := getPrevType it.etype types
        if et = NONE then some ⟨NONE, -1⟩ else decr p types n ⟨et, lastLocalIDIter p (num et)⟩
      else some ⟨it.etype, lid⟩

/-- First type of the mask in the constructor, iterator.cpp L228 (`i = NODE; i <= MESH`). -/
def firstType (types : ElementType) : ElementType := nextTypeLoop types 8 NODE

/-- Last type of the mask in the constructor, iterator.cpp L222 (`i = MESH; i >= NODE`). -/
def lastType (types : ElementType) : ElementType := prevTypeLoop types 8 MESH

/-- `Begin(mask)`: constructor with `last = false`, iterator.cpp L213-232, L272. -/
def begin (p : Pop) (types : ElementType) : Option It := incr p types 8 ⟨firstType types, -1⟩

/-- Constructor with `last = true`, iterator.cpp L220-225.  `LastLocalID(NONE)` fails the
assertion `OneType(etype)` (inmost_mesh.h L3060): `none`. -/
def rbegin (p : Pop) (types : ElementType) : Option It :=
  if lastType types = NONE then none
  else decr p types 8 ⟨lastType types, lastLocalIDNum p (num (lastType types))⟩

/-- A `for(it = Begin(mask); it != End(); ++it)` loop: the positions seen, each as
(element number, local number).  `operator!=` compares local number and type (inmost_mesh.h L3128).
`fuel` bounds the number of rounds; `none` means it was too small. -/
def loopUp (p : Pop) (types : ElementType) : Nat → It → Option (List (Nat × Int))
  | 0, _ => none
  | n + 1, it =>
    if it = endIt then some []
    else
      match incr p types 8 it with
      | none => none
      | some it' => (loopUp p types n it').map ((num it.etype, it.lid) :: ·)

/-- The loop that goes on with `--it` until `End()`. -/
def loopDown (p : Pop) (types : ElementType) : Nat → It → Option (List (Nat × Int))
  | 0, _ => none
  | n + 1, it =>
    if it = endIt then some []
    else
      match decr p types 8 it with
      | none => none
      | some it' => (loopDown p types n it').map ((num it.etype, it.lid) :: ·)

/-- The whole forward loop over `mask`. -/
def forward (p : Pop) (types : ElementType) (fuel : Nat) : Option (List (Nat × Int)) :=
  match begin p types with
  | none => none
  | some it => loopUp p types fuel it

/-- The whole backward loop over `mask`. -/
def backward (p : Pop) (types : ElementType) (fuel : Nat) : Option (List (Nat × Int)) :=
  match rbegin p types with
  | none => none
  | some it => loopDown p types fuel it

/-- `NumberOf`, iterator.cpp L165-172. -/
def numberOf (p : Pop) (types : ElementType) : Int :=
  let one (m : Nat) : Int :=
    if types &&& (1#8 <<< m) ≠ 0 then
      ((p.links m).length : Int) - (p.emptyLinks m).length - p.hiddenCount m
    else 0
  one 0 + one 1 + one 2 + one 3 + one 4 + (if types &&& MESH ≠ 0 then 1 else 0)

/-! ## Handle stepping -/

/-- The loop of `NextHandle(h)`, iterator.cpp L42-51.  `id` is the candidate number. -/
def nextHandleLoop (p : Pop) : Nat → Nat → Nat → Nat × Nat
  | 0, q, id => (q, id)
  | n + 1, q, id =>
    if q < 5 then
      let id' := skipUp deadSlot (p.links q) id
      if id' = (p.links q).length then nextHandleLoop p n (q + 1) 0 else (q, id')
    else (q, id)

/-- `NextHandle(h)` on (element number, local number), iterator.cpp L38-54. -/
def nextHandle (p : Pop) (h : Nat × Nat) : Nat × Nat :=
  let r := nextHandleLoop p 6 h.1 (h.2 + 1)
  if r.1 = 5 ∧ r.2 > 0 then (5, 1) else r

/-- The loop of `PrevHandle(h)`, iterator.cpp L66-75.  The second argument is `num + 1` and the third
`id + 1`.  On a step to element number 0 the number is not reset. -/
def prevHandleLoop (p : Pop) : Nat → Nat → Option (Nat × Nat)
  | 0, _ => none
  | q + 1, id1 =>
    match skipDownAll deadSlot (p.links q) id1 with
    | 0 => prevHandleLoop p q (if q - 1 > 0 then (p.links (q - 1)).length else 0)
    | id + 1 => some (q, id)

/-- `PrevHandle(h)`, iterator.cpp L56-78; `none` is `InvalidHandle()`. -/
def prevHandle (p : Pop) (h : Nat × Nat) : Option (Nat × Nat) :=
  if h.1 = 5 then
    (if h.2 = 0 then prevHandleLoop p 5 0 else some (5, 0))
  else prevHandleLoop p (h.1 + 1) h.2

/-! ## Population histories -/

/-- Replace one component of an array indexed by element number. -/
def upd {α : Type} (f : Nat → α) (q : Nat) (v : α) : Nat → α := fun j => if j = q then v else f j

/-- A mesh without elements; `Mesh::Init` zeroes the counters (mesh.cpp L202-203). -/
def init : Pop := ⟨fun _ => [], fun _ => [], fun _ => 0, fun _ => 0, false⟩

/-- Operations on the population. -/
inductive Op
  | create (q : Nat)
  | destroy (q i : Nat)
  | hide (q i : Nat)
  | unhide (q i : Nat)
  | beginModification
  | swapModification
  | endModification
  deriving DecidableEq, Repr

/-- `TieElement` (mesh.cpp L1947-1986) followed by setting the new mark when an epoch is open
(e.g. `CreateNode`, mesh.cpp L1190-1224).  The number is taken from the back of `empty_links`
or appended. -/
def create (p : Pop) (q : Nat) : Pop :=
  let s := Slot.live false p.modified
  match (p.emptyLinks q).getLast? with
  | some id =>
    { p with links := upd p.links q ((p.links q).set id s)
             emptyLinks := upd p.emptyLinks q (p.emptyLinks q).dropLast }
  | none => { p with links := upd p.links q (p.links q ++ [s]) }

/-- `UntieElement` after the data is removed, mesh.cpp L1928-1942, modify.cpp L2186-2208. -/
def untie (p : Pop) (q i : Nat) : Pop :=
  { p with links := upd p.links q ((p.links q).set i .dead)
           emptyLinks := upd p.emptyLinks q (p.emptyLinks q ++ [i]) }

/-- `Hide`, modify.cpp L2210-2224.  Without an epoch it returns false and changes nothing. -/
def hide (p : Pop) (q i : Nat) : Option Pop :=
  match (p.links q)[i]? with
  | some (.live hid isNew) =>
    if p.modified then
      if hid then some p
      else some { p with links := upd p.links q ((p.links q).set i (.live true isNew))
                         hiddenCount := upd p.hiddenCount q (p.hiddenCount q + 1) }
    else some p
  | _ => none

/-- `Show`, modify.cpp L2226-2238. -/
def unhide (p : Pop) (q i : Nat) : Option Pop :=
  match (p.links q)[i]? with
  | some (.live hid isNew) =>
    if p.modified then
      if hid then
        some { p with links := upd p.links q ((p.links q).set i (.live false isNew))
                      hiddenCount := upd p.hiddenCount q (p.hiddenCount q - 1) }
      else some p
    else some p
  | _ => none

/-- Clears the marks of a slot (fresh markers, or markers released). -/
def clearMarks : Slot → Slot
  | .dead => .dead
  | .live _ _ => .live false false

/-- The body of the loop of `EndModification` for one element, modify.cpp L2146-2149: the new
mark is removed and a hidden element is destroyed. -/
def endOne (q : Nat) (p : Pop) (i : Nat) : Pop :=
  match (p.links q)[i]? with
  | some (.live hid _) => if hid then untie p q i else p
  | _ => p

/-- The loops of `EndModification` for one type, modify.cpp L2144-2150. -/
def endType (p : Pop) (q : Nat) : Pop :=
  (List.range (p.links q).length).foldl (endOne q) p

/-- `EndModification`, modify.cpp L2121-2183: hidden elements of types ESET down to NODE are
destroyed, the counters zeroed and both markers released. -/
def endMod (p : Pop) : Pop :=
  let p' := [4, 3, 2, 1, 0].foldl endType p
  { p' with links := fun q => (p'.links q).map clearMarks
            hiddenCount := fun _ => 0, hiddenCountZero := fun _ => 0, modified := false }

/-- `SwapModification` exchanges the hide and new markers and the two counter arrays,
modify.cpp L1763-1770. -/
def swapMarks : Slot → Slot
  | .dead => .dead
  | .live hid isNew => .live isNew hid

/-- One operation; `none` is a failed assertion or a call the code gives no meaning to. -/
def step (p : Pop) : Op → Option Pop
  | .create q => if q < 5 then some (create p q) else none
  | .destroy q i =>
    -- `assert(!isMeshModified())`, mesh.cpp L1934; `isValidElement`, modify.cpp L2190-2191
    match (p.links q)[i]? with
    | some (.live _ _) => if p.modified then none else some (untie p q i)
    | _ => none
  | .hide q i => hide p q i
  | .unhide q i => unhide p q i
  | .beginModification =>
    -- two fresh markers, clear on every element (modify.cpp L1750-1758)
    if p.modified then none
    else some { p with links := fun q => (p.links q).map clearMarks, modified := true }
  | .swapModification =>
    if p.modified then
      some { p with links := fun q => (p.links q).map swapMarks
                    hiddenCount := p.hiddenCountZero, hiddenCountZero := p.hiddenCount }
    else none
  | .endModification => if p.modified then some (endMod p) else none

/-- A history of operations. -/
def run (p : Pop) : List Op → Option Pop
  | [] => some p
  | o :: os =>
    match step p o with
    | some p' => run p' os
    | none => none

end Verif.Iterators
