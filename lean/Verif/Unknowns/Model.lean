/-!
# Model of `Automatizator`: registration of entries and numbering of unknowns

Source/Autodiff/autodiff.cpp and Source/Headers/inmost_autodiff.h.  Numbers are unbounded.  The mesh is given by what the code reads from
it.  The offset tag of an entry is the tag `<name>_BLK_<slot>_Offset`; its name depends on the slot only, so the offsets are modelled by
a function of the slot, the element type and the local number of the element.  Two automatizators with the same name on
the same mesh share these tags; this is not modelled (the name is unique).  An exception, a failed assertion or
an access outside an array gives `none`.
-/

namespace Verif.Unknowns

/-- What the code reads from a mesh.  Element types are numbered 0 (nodes), 1, 2, 3 (cells), 4 (sets), 5 (the mesh). -/
structure MeshView where
  /-- `LastLocalID(etype)` -/
  lastLocalID : Nat → Nat
  /-- `isValidElement(etype, lid)` -/
  valid : Nat → Nat → Bool
  /-- `GetStatus() == Element::Ghost` -/
  ghost : Nat → Nat → Bool
  /-- `GetMarker(mask)` -/
  marker : Nat → Nat → Nat → Bool
  /-- `HaveData(tag)` -/
  haveData : Nat → Nat → Nat → Bool
  /-- the length of the data of a tag of variable size -/
  dataSize : Nat → Nat → Nat → Nat
  /-- the value of an integer tag -/
  intData : Nat → Nat → Nat → Nat

/-- The classes of entries without `MultiEntry`: `SingleEntry`, `BlockEntry`, `VectorEntry`, `StatusBlockEntry`, inmost_autodiff.h. -/
inductive Simple where
  | single (tag : Nat)
  | block (tags : List Nat)
  | vector (tag : Nat)
  | status (tags : List Nat) (statusTag : Nat) (tbl : List (List Bool))

/-- All classes of entries. -/
inductive Kind where
  | simple (s : Simple)
  | multi (parts : List Simple)

/-- `AbstractEntry`: element types, marker mask (`none` = 0), registration index (`none` = `ENUMUNDEF`), the types on which the
offset tag is defined; `mesh` numbers the meshes. -/
structure Entry where
  kind : Kind
  mesh : Nat
  types : Nat → Bool
  mask : Option Nat
  inverse : Bool
  regIndex : Option Nat
  offDefined : Nat → Bool

/-- `isValid(e)`, inmost_autodiff.h L54. -/
def Entry.isValid (b : Entry) (m : MeshView) (t k : Nat) : Bool :=
  b.regIndex.isSome && b.offDefined t && b.types t &&
    (match b.mask with
    | none => true
    | some mask => m.marker mask t k != b.inverse)

/-- The number of tags with data whose flag in a row of the status table is set (`none`: access outside the table). -/
def countStatus (m : MeshView) (t k : Nat) : List Nat → List Bool → Option Nat
  | [], _ => some 0
  | tag :: tags, row =>
    if m.haveData tag t k then
      match row with
      | [] => none
      | f :: row' =>
        match countStatus m t k tags row' with
        | none => none
        | some n => some (if f then n + 1 else n)
    else countStatus m t k tags row.tail

/-- `Size(e)`: inmost_autodiff.h L157 (BlockEntry), L208 (SingleEntry), L252 (VectorEntry); StatusBlockEntry autodiff.cpp L532-539. -/
def Simple.size (m : MeshView) (t k : Nat) : Simple → Option Nat
  | .single tag => some (if m.haveData tag t k then 1 else 0)
  | .block tags => some (tags.countP fun tag => m.haveData tag t k)
  | .vector tag => some (if m.haveData tag t k then m.dataSize tag t k else 0)
  | .status tags st tbl =>
    match tbl[m.intData st t k]? with
    | none => if tags.all (fun tag => !m.haveData tag t k) then some 0 else none
    | some row => countStatus m t k tags row

/-- The sum of sizes, `MultiEntry::Size(e)`, inmost_autodiff.h L365. -/
def sumSizes (m : MeshView) (t k : Nat) : List Simple → Option Nat
  | [] => some 0
  | s :: ss =>
    match s.size m t k, sumSizes m t k ss with
    | some a, some b => some (a + b)
    | _, _ => none

/-- `Size(e)` of an entry, inmost_autodiff.h L98. -/
def Entry.size (b : Entry) (m : MeshView) (t k : Nat) : Option Nat :=
  match b.kind with
  | .simple s => s.size m t k
  | .multi parts => sumSizes m t k parts

/-- `Index(e, pos)` for an entry whose offset tag has the value `off` on the element: `none` is an exception or a failed
assertion, `some none` is `ENUMUNDEF`; inmost_autodiff.h L139, L190, L234, L292.  `MultiEntry::Index` (autodiff.cpp L400-411) searches its parts; they are made by `Copy`
(L494-500), which does not copy the registration index, so that none of them is valid and the function throws. -/
def Entry.index (b : Entry) (m : MeshView) (off : Nat) (t k pos : Nat) : Option (Option Nat) :=
  match b.kind with
  | .simple (.single _) => if pos = 0 then some (if b.isValid m t k then some off else none) else none
  | .simple (.block _) => some (if b.isValid m t k then some (off + pos) else none)
  | .simple (.vector tag) =>
    if pos < m.dataSize tag t k then some (if b.isValid m t k then some (off + pos) else none) else none
  | .simple (.status _ st tbl) =>
    if b.isValid m t k then
      match tbl[m.intData st t k]? with
      | none => none
      | some row =>
        match row[pos]? with
        | none => none
        | some f => some (if f then some (off + pos) else none)
    else some none
  | .multi _ => none

/-- The registry: `reg_blocks`, `act_blocks`, `del_blocks`, inmost_autodiff.h. -/
structure Registry where
  reg : List (Option Entry)
  act : List Bool
  del : List Nat

/-- A new `Automatizator`. -/
def Registry.init : Registry := ⟨[], [], []⟩

/-- What `RegisterEntry` stores: a copy with the registration index and an offset tag on the types of the entry and on
the mesh, autodiff.cpp L151-159. -/
def stored (b : Entry) (slot : Nat) : Entry :=
  { b with regIndex := some slot, offDefined := fun t => b.types t || t = 5 }

/-- `RegisterEntry`, autodiff.cpp L124-162: the new registry and the slot. -/
def register (s : Registry) (b : Entry) : Option (Registry × Nat) :=
  match s.del.getLast? with
  | none => some (⟨s.reg ++ [some (stored b s.reg.length)], s.act ++ [true], s.del⟩, s.reg.length)
  | some r =>
    match s.act[r]? with
    | some false => some (⟨s.reg.set r (some (stored b r)), s.act.set r true, s.del.dropLast⟩, r)
    | _ => none

/-- `UnregisterEntry`, autodiff.cpp L172-181. -/
def unregister (s : Registry) (i : Nat) : Option Registry :=
  match s.reg[i]? with
  | some (some _) => some ⟨s.reg.set i none, s.act.set i false, s.del ++ [i]⟩
  | _ => none

/-- `DeactivateEntry`, autodiff.cpp L183-192: the offset tag is deleted from the types of the entry. -/
def deactivate (s : Registry) (i : Nat) : Option Registry :=
  match s.reg[i]? with
  | some (some b) =>
    some ⟨s.reg.set i (some { b with regIndex := none, offDefined := fun t => b.offDefined t && !b.types t }),
      s.act.set i false, s.del⟩
  | _ => none

/-- `ActivateEntry`, autodiff.cpp L194-212: `CreateTag` with the same name adds the types of the entry. -/
def activate (s : Registry) (i : Nat) : Option Registry :=
  match s.reg[i]? with
  | some (some b) =>
    some ⟨s.reg.set i (some { b with regIndex := some i, offDefined := fun t => b.offDefined t || b.types t }),
      s.act.set i true, s.del⟩
  | _ => none

/-- `isRegisteredEntry`, inmost_autodiff.h L456. -/
def isRegistered (s : Registry) (i : Nat) : Bool :=
  match s.reg[i]? with
  | some (some _) => true
  | _ => false

/-- `ListRegisteredEntries`, autodiff.cpp L332-341. -/
def listRegistered (s : Registry) : List Nat := (List.range s.reg.length).filter fun i => isRegistered s i

/-- Calls of a user. -/
inductive Op where
  | register (b : Entry)
  | unregister (i : Nat)
  | deactivate (i : Nat)
  | activate (i : Nat)

/-- One call. -/
def step (s : Registry) : Op → Option Registry
  | .register b => (register s b).map (·.1)
  | .unregister i => unregister s i
  | .deactivate i => deactivate s i
  | .activate i => activate s i

/-- A history of calls. -/
def run (s : Registry) : List Op → Option Registry
  | [] => some s
  | o :: os =>
    match step s o with
    | none => none
    | some s' => run s' os

/-- An element with unknowns of an entry: slot, element type, local number. -/
abbrev Key := Nat × Nat × Nat

/-- The inner loops of `EnumerateEntries`, autodiff.cpp L237-248, for one entry: the elements that get numbers, with the number of unknowns, in
the order of numbering (types from the mesh down to nodes). -/
def visitEntry (views : Nat → MeshView) (it : Nat) (b : Entry) : List (Key × Option Nat) :=
  let m := views b.mesh
  [5, 4, 3, 2, 1, 0].flatMap fun t =>
    if b.types t then
      (List.range (m.lastLocalID t)).filterMap fun k =>
        if m.valid t k && (t == 5 || !m.ghost t k) && b.isValid m t k && b.size m t k != some 0 then
          some ((it, t, k), b.size m t k)
        else none
    else []

/-- The loops of `EnumerateEntries` over active entries (autodiff.cpp L232-249). -/
def visit (s : Registry) (views : Nat → MeshView) : List (Key × Option Nat) :=
  (List.range s.reg.length).flatMap fun it =>
    match s.act[it]?, s.reg[it]? with
    | some true, some (some b) => visitEntry views it b
    | _, _ => []

/-- Offsets stored in the offset tags. -/
abbrev Offsets := Key → Nat

/-- `offset_tag[jt] = last_num; last_num += b.Size(jt);`, autodiff.cpp L244-245. -/
def number (off : Offsets) (last : Nat) : List (Key × Option Nat) → Option (Offsets × Nat)
  | [] => some (off, last)
  | (key, sz) :: vs =>
    match sz with
    | none => none
    | some n => number (fun q => if q = key then last else off q) (last + n) vs

/-- No null pointer among the active entries (autodiff.cpp L221, L234 dereference `reg_blocks[it]`). -/
def noNull (s : Registry) : Bool :=
  (List.range s.reg.length).all fun it =>
    match s.act[it]?, s.reg[it]? with
    | some true, some (some _) => true
    | some false, _ => true
    | _, _ => false

/-- The local part of `EnumerateEntries`, autodiff.cpp L214-249: offsets and the number of local unknowns.  Simplification: the first
loop (L219-230), which deletes sparse offset data of earlier numberings, affects only elements that get no number and
is not modelled. -/
def enumerateLocal (s : Registry) (views : Nat → MeshView) (off : Offsets) : Option (Offsets × Nat) :=
  if noNull s then number off 0 (visit s views) else none

/-- The parallel part, autodiff.cpp L251-275: `MPI_Scan` delivers the sum `scan` over all processes up to this one; offsets of
numbered elements are shifted.  The exchange of offsets with ghost elements (L276-283) is not modelled. -/
def shiftOffsets (s : Registry) (views : Nat → MeshView) (off : Offsets) (first : Nat) : Offsets :=
  fun q => if q ∈ (visit s views).map (·.1) then off q + first else off q

/-- A process: its registry, its meshes, old offsets. -/
structure Proc where
  reg : Registry
  views : Nat → MeshView
  off : Offsets

/-- The result of `EnumerateEntries` on a process: `first_num`, `last_num` and the offsets. -/
structure Numbering where
  first : Nat
  last : Nat
  off : Offsets

/-- `EnumerateEntries` on all processes, ordered by rank; `acc` is the sum of `MPI_Scan` over the previous processes. -/
def enumerateAll (acc : Nat) : List Proc → Option (List Numbering)
  | [] => some []
  | p :: ps =>
    match enumerateLocal p.reg p.views p.off with
    | none => none
    | some (off, n) =>
      let scan := acc + n
      let first := scan - n
      match enumerateAll scan ps with
      | none => none
      | some rest => some (⟨first, n + first, shiftOffsets p.reg p.views off first⟩ :: rest)

end Verif.Unknowns
