/-!
# Model of element storage and tags

Source: `Source/Mesh/mesh.cpp` (TieElement L1947-1986, UntieElement L1928-1942, MoveStorage
L1989-2015, ReorderEmpty L2024-2050, GetArrayCapacity L2160-2165, DelDenseData L2527-2549,
DelSparseData L2551-2573, DelData L2575-2582, HaveData L2584-2599, DeleteTag L753-793),
`Source/Mesh/modify.cpp` (Destroy L2186-2208), `Source/Data/tag.cpp` (CreateTag L337-424,
DeleteTag L440-499, ReallocateData L516-623), `Source/Headers/inmost_mesh.h`
(MGetLink and friends L1358-1369), `Source/Headers/inmost_data.h` (Tag L777-931).

Simplifications.
* Chunked arrays are a size and a function from indices (justified by `C06_chunk_array`);
  `chunk_bulk_array` keeps old bytes of a chunk when it shrinks and grows back
  (`C06_bulk_fails`), which is modelled by `physical`.
* `-1` in `links` and `back_links` is `none`.  The stacks `empty_space`, `empty_links` and
  `empty_dense_data` are lists whose head is the back of the C++ array.
* A record (the data of one tag on one element) is one value of an arbitrary type `V`; for
  every data type and size there is a value `zero` of a freshly created record.  Variables with
  derivatives (`DATA_VARIABLE`) are covered as far as a record is a value.
* The order of `tags` (kept sorted in the code) is the order of creation.
* `NULL`/out-of-range accesses and failed assertions are `none`.
* The code is modelled without `LAZY_SPARSE_ALLOCATION` (the default,
  inmost_common.h L78) and without thread parallelism.
-/

namespace Verif.Storage

/-- Number of an element type: 0 NODE, 1 EDGE, 2 FACE, 3 CELL, 4 ESET, 5 MESH. -/
abbrev ET := Fin 6

/-- `pos[i]` of a tag, inmost_data.h: `ENUMUNDEF`, `ENUMUNDEF-1` for sparse data, or the number of
a column. -/
inductive Pos where
  | undef
  | sparse
  | col (p : Nat)
  deriving DecidableEq, Repr

/-- `TagMemory`.  `id` stands for the address of the structure. -/
structure TagRec where
  id : Nat
  name : String
  dtype : Nat
  /-- `none` is `ENUMUNDEF`, i.e. variable-sized data. -/
  size : Option Nat
  pos : ET → Pos
  flag : ET → Bool

/-- A dense column: `chunk_bulk_array`. -/
structure Col (V : Type) where
  n : Nat
  f : Nat → V

/-- Storage of one element type. -/
structure TS (V : Type) where
  nlinks : Nat
  links : Nat → Option Nat
  nback : Nat
  back : Nat → Option Nat
  emptySpace : List Nat
  emptyLinks : List Nat
  nsparse : Nat
  sparse : Nat → List (Nat × V)

/-- State of the tag manager and the element storage. -/
structure Sto (V : Type) where
  ty : ET → TS V
  tags : List TagRec
  ndense : Nat
  dense : Nat → Col V
  emptyDense : List Nat
  /-- `isMeshModified()`: `new_element != 0`. -/
  modified : Bool

/-- Replacement of one entry of a function. -/
def upd {α β : Type} [DecidableEq α] (f : α → β) (a : α) (b : β) : α → β :=
  fun x => if x = a then b else f x

/-- Elements per chunk: `1 << chunk_bits_elems`, inmost_data.h L85. -/
def chunkElems : Nat := 8192

/-- Number of elements in whole chunks that hold `n` elements, mesh.cpp L2162-2164. -/
def physical (n : Nat) : Nat :=
  (n / chunkElems + (if n % chunkElems ≠ 0 then 1 else 0)) * chunkElems

/-- `links.size() - empty_links.size() + empty_space.size()`, mesh.cpp L2162. -/
def TS.occupied {V : Type} (S : TS V) : Nat :=
  S.nlinks - S.emptyLinks.length + S.emptySpace.length

/-- `GetArrayCapacity`, mesh.cpp L2160-2165. -/
def TS.capacity {V : Type} (S : TS V) : Nat := physical S.occupied

/-- The adjustments of the new size, tag.cpp L402-403 and L518-519. -/
def clampSize (t : ET) (n : Nat) : Nat :=
  if t = 5 then 1 else if n < 1024 then 1024 else n

section
variable {V : Type} (zero : Nat → Option Nat → V)

/-- `isDefined`, inmost_data.h: position is not `ENUMUNDEF`. -/
def TagRec.defined (τ : TagRec) (t : ET) : Bool := τ.pos t != Pos.undef

/-- The column of a tag that is treated as dense on the type. -/
def TagRec.colOf (τ : TagRec) (t : ET) : Option Nat :=
  if τ.flag t then none else match τ.pos t with
    | .col p => some p
    | _ => none

/-- `ReallocateData(tag,etypenum,new_size)`, tag.cpp L553-623: `arr.resize(new_size)`; for
variable-sized data all newly exposed records are constructed (L594-611), for fixed-size data
they have whatever the chunk holds, zeros in new chunks. -/
def Col.resize (τ : TagRec) (c : Col V) (m : Nat) : Col V :=
  { n := m
    f := fun k =>
      if τ.size = none then (if k < c.n ∧ k < m then c.f k else zero τ.dtype τ.size)
      else (if k < physical c.n ∧ k < physical m then c.f k else zero τ.dtype τ.size) }

/-- A loop over all tags that changes the column of every tag dense on `t` by `g`. -/
def foldCols (t : ET) (g : TagRec → Col V → Col V) (tags : List TagRec) (D : Nat → Col V) :
    Nat → Col V :=
  tags.foldl (fun D τ => match τ.colOf t with
    | some p => upd D p (g τ (D p))
    | none => D) D

/-- `chunk_array<sparse_sub_type>::resize` (container.hpp L1317-1323): new entries are empty. -/
def resizeSparse (S : TS V) (m : Nat) : TS V :=
  if S.nsparse = m then S
  else { S with nsparse := m, sparse := fun k => if k < S.nsparse then S.sparse k else [] }

/-- `ReallocateData(etypenum,new_size)`, tag.cpp L516-551. -/
def reallocate (s : Sto V) (t : ET) (newSize : Nat) : Sto V :=
  let m := clampSize t newSize
  let S := s.ty t
  let S1 := { S with nback := m, back := fun k => if k < S.nback then S.back k else none }
  let need := s.tags.any fun τ => τ.defined t && τ.flag t
  let S2 := if need then resizeSparse S1 m else { S1 with nsparse := 0, sparse := fun _ => [] }
  { s with ty := upd s.ty t S2, dense := foldCols t (fun τ c => c.resize zero τ m) s.tags s.dense }

/-- Choice of the slot in `TieElement`, mesh.cpp L1955-1966. -/
def pickAddr (S : TS V) (modified : Bool) : Nat × TS V :=
  match S.emptySpace, modified with
  | a :: rest, false => (a, { S with emptySpace := rest })
  | _, _ => (S.occupied, S)

/-- Choice of the local ID in `TieElement`, mesh.cpp L1967-1978. -/
def pickId (S : TS V) (addr : Nat) : Nat × TS V :=
  match S.emptyLinks with
  | i :: rest => (i, { S with emptyLinks := rest, links := upd S.links i (some addr) })
  | [] => (S.nlinks, { S with nlinks := S.nlinks + 1, links := upd S.links S.nlinks (some addr) })

/-- `TieElement`, mesh.cpp L1947-1986.  Returns the new state and the ID. -/
def tie (s : Sto V) (t : ET) : Option (Sto V × Nat) :=
  let A := pickAddr (s.ty t) s.modified
  let I := pickId A.2 A.1
  let s1 := { s with ty := upd s.ty t I.2 }
  let s2 := if I.2.capacity ≠ (s.ty t).capacity then reallocate zero s1 t I.2.capacity else s1
  let S3 := s2.ty t
  if A.1 < S3.nback then
    some ({ s2 with ty := upd s2.ty t { S3 with back := upd S3.back A.1 (some I.1) } }, I.1)
  else none

/-- The slot of an element: `links[t][id]` with `id` in range and not `-1`. -/
def slot (s : Sto V) (t : ET) (id : Nat) : Option Nat :=
  if id < (s.ty t).nlinks then (s.ty t).links id else none

/-- Erasing the first record of a tag, mesh.cpp L2556-2571. -/
def eraseRec (i : Nat) : List (Nat × V) → List (Nat × V)
  | [] => []
  | r :: rs => if r.1 = i then rs else r :: eraseRec i rs

/-- Writing `v` into the record of a tag, appending a record if there is none
(inmost_mesh.h L1363, L1369). -/
def putRec (i : Nat) (v : V) : List (Nat × V) → List (Nat × V)
  | [] => [(i, v)]
  | r :: rs => if r.1 = i then (i, v) :: rs else r :: putRec i v rs

/-- Searching the record of a tag, inmost_mesh.h L1362. -/
def getRec (i : Nat) : List (Nat × V) → Option V
  | [] => none
  | r :: rs => if r.1 = i then some r.2 else getRec i rs

/-- The tag with the given address. -/
def findTag (s : Sto V) (i : Nat) : Option TagRec := s.tags.find? fun τ => τ.id = i

/-- `HaveTag`/`GetTag` by name, tag.cpp L425-439. -/
def findName (s : Sto V) (name : String) : Option TagRec := s.tags.find? fun τ => τ.name = name

/-- Reading the record of a tag in a slot, inmost_mesh.h L1362-1368.
`none`: failed assertion or access out of range; `some none`: there is no record (sparse tag). -/
def readAt (s : Sto V) (t : ET) (a i : Nat) : Option (Option V) :=
  match findTag s i with
  | some τ =>
    if τ.defined t then
      if τ.flag t then
        if a < (s.ty t).nsparse then some (getRec i ((s.ty t).sparse a)) else none
      else match τ.pos t with
        | .col p => if p < s.ndense ∧ a < (s.dense p).n then some (some ((s.dense p).f a)) else none
        | _ => none
    else none
  | none => none

/-- Reading the data of a tag on an element: `MGetLink` const, inmost_mesh.h L1358-1368. -/
def read (s : Sto V) (t : ET) (id i : Nat) : Option (Option V) :=
  match slot s t id with
  | some a => readAt s t a i
  | none => none

/-- Writing the data of a tag on an element through `MGetLink`, inmost_mesh.h L1363-1369. -/
def write (s : Sto V) (t : ET) (id i : Nat) (v : V) : Option (Sto V) :=
  match slot s t id, findTag s i with
  | some a, some τ =>
    if τ.defined t then
      if τ.flag t then
        if a < (s.ty t).nsparse then
          some { s with ty := upd s.ty t { s.ty t with
            sparse := upd (s.ty t).sparse a (putRec i v ((s.ty t).sparse a)) } }
        else none
      else match τ.pos t with
        | .col p =>
          if p < s.ndense ∧ a < (s.dense p).n then
            some { s with dense := upd s.dense p { s.dense p with f := upd (s.dense p).f a v } }
          else none
        | _ => none
    else none
  | _, _ => none

/-- `DelDenseData(void*,tag)` on the record in slot `a`, mesh.cpp L2527-2541: back to a fresh
record. -/
def clearCell (a : Nat) (τ : TagRec) (c : Col V) : Col V :=
  { c with f := upd c.f a (zero τ.dtype τ.size) }

/-- `DelData`, mesh.cpp L2575-2582. -/
def delData (s : Sto V) (t : ET) (id i : Nat) : Option (Sto V) :=
  match slot s t id, findTag s i with
  | some a, some τ =>
    if τ.defined t then
      if τ.flag t then
        if a < (s.ty t).nsparse then
          some { s with ty := upd s.ty t { s.ty t with
            sparse := upd (s.ty t).sparse a (eraseRec i ((s.ty t).sparse a)) } }
        else none
      else match τ.pos t with
        | .col p =>
          if p < s.ndense ∧ a < (s.dense p).n then
            some { s with dense := upd s.dense p (clearCell zero a τ (s.dense p)) }
          else none
        | _ => none
    else none
  | _, _ => none

/-- `UntieElement`, mesh.cpp L1928-1942. -/
def untie (s : Sto V) (t : ET) (id : Nat) : Option (Sto V) :=
  if s.modified then none else
  match slot s t id with
  | none => none
  | some a =>
    let S := s.ty t
    if a < S.nback then
      some { s with ty := upd s.ty t { S with
        links := upd S.links id none
        back := upd S.back a none
        emptySpace := a :: S.emptySpace
        emptyLinks := id :: S.emptyLinks } }
    else none

/-- `Destroy`, modify.cpp L2186-2208, without the disconnection from adjacent elements: for every
tag defined on the type `DelData`, then `UntieElement`.  The loop over tags is split in its dense
and its sparse part, which touch disjoint storage. -/
def destroy (s : Sto V) (t : ET) (id : Nat) : Option (Sto V) :=
  match slot s t id with
  | none => none
  | some a =>
    let sparseTags := s.tags.filter fun τ => τ.defined t && τ.flag t
    if sparseTags ≠ [] ∧ ¬ a < (s.ty t).nsparse then none else
    let S := s.ty t
    let recs := sparseTags.foldl (fun l τ => eraseRec τ.id l) (S.sparse a)
    let S1 := { S with sparse := upd S.sparse a recs }
    untie { s with ty := upd s.ty t S1, dense := foldCols t (clearCell zero a) s.tags s.dense } t id

/-- `MoveStorage`, mesh.cpp L1989-2015. -/
def moveStorage (s : Sto V) (t : ET) (old new : Nat) : Option (Sto V) :=
  let S := s.ty t
  if old < S.nback ∧ new < S.nback then
    match S.back old with
    | none => none
    | some id =>
      if S.nsparse ≠ 0 ∧ ¬ (old < S.nsparse ∧ new < S.nsparse) then none else
      let S1 := { S with
        back := upd (upd S.back old none) new (some id)
        links := upd S.links id (some new)
        sparse := if S.nsparse = 0 then S.sparse
          else upd (upd S.sparse new (S.sparse old)) old (S.sparse new) }
      some { s with
        ty := upd s.ty t S1
        dense := foldCols t
          (fun τ c => { c with f := upd (upd c.f new (c.f old)) old (zero τ.dtype τ.size) })
          s.tags s.dense }
  else none

/-- The loop `while( cend >= 0 && back_links[cend] == -1 ) cend--`, mesh.cpp L2030-2031; the
argument is `cend + 1`. -/
def skipFree (S : TS V) : Nat → Nat
  | 0 => 0
  | c + 1 => if S.back c = none then skipFree S c else c + 1

/-- The main loop of `ReorderEmpty`, mesh.cpp L2032-2043; `c` is `cend + 1`, the stack of holes
is taken out of the state. -/
def reorderLoop (t : ET) : (holes : List Nat) → (c : Nat) → Sto V → Option (Sto V)
  | [], _, s => some s
  | _ :: _, 0, s => some s
  | last :: holes, c + 1, s =>
    if last ≥ c then reorderLoop t holes (c + 1) s
    else if (s.ty t).back c ≠ none then
      match moveStorage zero s t c last with
      | none => none
      | some s' => reorderLoop t holes (c + 1) s'
    else reorderLoop t (last :: holes) c s
termination_by holes c => holes.length + c

/-- `ReorderEmpty` for one element type, mesh.cpp L2024-2050.  The stack `empty_space` is
consumed by the loop and cleared after it. -/
def reorderEmpty (s : Sto V) (t : ET) : Option (Sto V) :=
  let c := skipFree (s.ty t) (s.ty t).nback
  match reorderLoop zero t (s.ty t).emptySpace c s with
  | none => none
  | some s1 =>
    let S1 := { s1.ty t with emptySpace := [] }
    some (reallocate zero { s1 with ty := upd s1.ty t S1 } t S1.capacity)

/-- The column for a new dense tag, tag.cpp L391-398: a released one, or a new one at the end. -/
def newCol (s : Sto V) : Nat := match s.emptyDense with
  | p :: _ => p
  | [] => s.ndense

/-- The part of `CreateTag` for one element type of the mask, tag.cpp L372-407.  `τ` is the
tag, stored in the list of tags by its id. -/
def createOn (s : Sto V) (i : Nat) (t : ET) (sparse : Bool) : Sto V :=
  match findTag s i with
  | none => s
  | some τ =>
    if τ.pos t ≠ .undef then s
    else if sparse then
      { s with tags := s.tags.map fun σ =>
          if σ.id = i then { σ with pos := upd σ.pos t .sparse, flag := upd σ.flag t true } else σ }
    else
      let p := newCol s
      let c : Col V := ⟨0, fun _ => zero τ.dtype τ.size⟩
      { s with
        tags := s.tags.map fun σ => if σ.id = i then { σ with pos := upd σ.pos t (.col p) } else σ
        dense := upd s.dense p (c.resize zero τ (clampSize t (s.ty t).capacity))
        ndense := if s.emptyDense = [] then s.ndense + 1 else s.ndense
        emptyDense := s.emptyDense.tail }

/-- Allocation of `sparse_data` in `CreateTag`, tag.cpp L408-422: types on which the tag became
sparse in this call and that have no sparse storage. -/
def allocSparse (s : Sto V) (need : ET → Bool) : Sto V :=
  { s with ty := fun t =>
      if need t ∧ (s.ty t).nsparse = 0 then
        { s.ty t with nsparse := clampSize t (s.ty t).capacity, sparse := fun _ => [] }
      else s.ty t }

/-- All element types in the order of the loop `for(mask = NODE; mask <= MESH; ...)`. -/
def allTypes : List ET := [0, 1, 2, 3, 4, 5]

/-- `CreateTag`, tag.cpp L337-424; `newId` is the address the allocator returns if the tag has
to be created.  Returns the state and the address of the tag; `none` if an assertion on the
existing tag fails (L351-352). -/
def createTag (s : Sto V) (name : String) (dtype : Nat) (size : Option Nat)
    (mask sparse : ET → Bool) (newId : Nat) : Option (Sto V × Nat) :=
  let start : Option (Sto V × Nat) := match findName s name with
    | some τ =>
      if τ.dtype = dtype ∧ (size = none ∨ size = τ.size) then some (s, τ.id) else none
    | none => some ({ s with tags := s.tags ++
        [⟨newId, name, dtype, size, fun _ => .undef, fun _ => false⟩] }, newId)
  match start with
  | none => none
  | some (s0, i) =>
    let was := findTag s0 i
    let s1 := allTypes.foldl (fun s t => if mask t then createOn zero s i t (sparse t) else s) s0
    let need := fun t => mask t && sparse t && (match was with
      | some τ => τ.pos t == Pos.undef
      | none => false)
    some (allocSparse s1 need, i)

/-- The part of `Mesh::DeleteTag` (mesh.cpp L759-785) for one type on which the tag is sparse:
`DelSparseData` on every valid element. -/
def dropSparse (S : TS V) (i : Nat) : Nat → Option (TS V)
  | 0 => some S
  | lid + 1 => match dropSparse S i lid with
    | none => none
    | some S1 => match S1.links lid with
      | none => some S1
      | some a => if a < S1.nsparse then
          some { S1 with sparse := upd S1.sparse a (eraseRec i (S1.sparse a)) }
        else none

/-- One type of the loops of `Mesh::DeleteTag` (mesh.cpp L759-785) and `TagManager::DeleteTag`
(tag.cpp L447-466).  The destruction of variable-sized records before the column is cleared
only frees memory and is left out. -/
def deleteOn (s : Sto V) (i : Nat) (t : ET) : Option (Sto V) :=
  match findTag s i with
  | none => none
  | some τ =>
    if τ.pos t = .undef then some s
    else
      let clearPos (tags : List TagRec) : List TagRec := tags.map fun σ =>
        if σ.id = i then { σ with pos := upd σ.pos t .undef } else σ
      if τ.flag t then
        match dropSparse (s.ty t) i (s.ty t).nlinks with
        | none => none
        | some S => some { s with ty := upd s.ty t S, tags := clearPos s.tags }
      else match τ.pos t with
        | .col p => if p < s.ndense then
            some { s with dense := upd s.dense p ⟨0, fun _ => zero τ.dtype τ.size⟩
                          emptyDense := p :: s.emptyDense
                          tags := clearPos s.tags }
          else none
        | _ => none

/-- Fold of `deleteOn` over the types of the mask. -/
def deleteOnAll (s : Sto V) (i : Nat) (mask : ET → Bool) : List ET → Option (Sto V)
  | [] => some s
  | t :: ts => if mask t then match deleteOn zero s i t with
      | none => none
      | some s' => deleteOnAll s' i mask ts
    else deleteOnAll s i mask ts

/-- `DeleteTag`, mesh.cpp L753-793 with tag.cpp L440-499.  The tag is removed from the list when
it is defined on no type any more; sparse storage of a type is released when the removed tag
was sparse there and no other tag has the sparse flag for the type (L471-484). -/
def deleteTag (s : Sto V) (i : Nat) (mask : ET → Bool) : Option (Sto V) :=
  match findTag s i with
  | none => none
  | some τ =>
    match deleteOnAll zero s i mask allTypes with
    | none => none
    | some s1 =>
      if allTypes.all fun t => mask t || !τ.defined t then
        let others := s1.tags.filter fun σ => σ.id ≠ i
        some { s1 with
          tags := others
          ty := fun t =>
            if mask t && τ.defined t && τ.flag t && !(others.any fun σ => σ.flag t) then
              { s1.ty t with nsparse := 0, sparse := fun _ => [] }
            else s1.ty t }
      else some s1

/-- `HaveData`, mesh.cpp L2584-2599. -/
def haveData (s : Sto V) (t : ET) (id i : Nat) : Option Bool :=
  match findTag s i with
  | none => none
  | some τ => if τ.flag t then match slot s t id with
      | none => none
      | some a => if a < (s.ty t).nsparse then some (getRec i ((s.ty t).sparse a)).isSome else none
    else some (τ.pos t != Pos.undef)

/-- Empty storage of one type. -/
def TS.empty (V : Type) : TS V :=
  ⟨0, fun _ => none, 0, fun _ => none, [], [], 0, fun _ => []⟩

/-- `Mesh::Init`, mesh.cpp L183-218: no tags, one element of type MESH, then
`ReallocateData` for every type.  (The protected tags are created by `CreateTag`.) -/
def initSto : Option (Sto V) :=
  match tie zero ⟨fun _ => TS.empty V, [], 0, fun _ => ⟨0, fun _ => zero 0 none⟩, [], false⟩ 5 with
  | none => none
  | some (s, _) => some (allTypes.foldl (fun s t => reallocate zero s t (s.ty t).capacity) s)

end
end Verif.Storage
