import Verif.Storage.Model

/-!
# Model of copies of meshes and tags

Source: `Source/Mesh/mesh.cpp` (copy constructor L396-478, `operator =` L480-608, DuplicateTagData L2677-2687, CopyTagData
L2689-2713), `Source/Data/tag.cpp` (copy constructor and `operator =` of TagManager L249-308, CopyData L97-126, TagMemory
L168-183).

The state is that of `Verif.Storage`.

Simplifications.
* Besides those of `Verif.Storage`: the tags of the system exist on their types, so that the calls of CreateTag in
  mesh.cpp L451-459 and L581-589 only find them; names, geometric tags, communicators and counters of hidden elements
  are left out.
* Records are values; a copy of a record by CopyData is an assignment, except that a record of variable size is
  destroyed first (tag.cpp L106), which matters if it is copied to itself.
-/

namespace Verif.Copy

open Verif.Storage

variable {V : Type} (zero : Nat → Option Nat → V)

/-- `TagMemory(m,other)` (tag.cpp L168-183): everything but the address, which is `addr`. -/
def renamed (addr : Nat → Nat) (τ : TagRec) : TagRec := { τ with id := addr τ.id }

/-- `TagManager(other)` (tag.cpp L249-266): the tags, and a column without records in the place of each column. -/
def startTags (addr : Nat → Nat) (o s : Sto V) : Sto V :=
  { s with
    tags := o.tags.map (renamed addr)
    ndense := o.ndense
    dense := fun _ => ⟨0, fun _ => zero 0 none⟩ }

/-- `links`, `empty_links`, `empty_space` of all types but MESH are taken from `o` (mesh.cpp L415-420, L545-550). -/
def takeLinks (o s : Sto V) : Sto V :=
  { s with ty := fun t => if t = 5 then s.ty t else { s.ty t with
      nlinks := (o.ty t).nlinks
      links := (o.ty t).links
      emptySpace := (o.ty t).emptySpace
      emptyLinks := (o.ty t).emptyLinks } }

/-- `other.HaveData(h,tags[i])` for a sparse tag (mesh.cpp L434, L564, L2587-2592): the record is searched by the address
of the tag of the copy. -/
def otherHas (o : Sto V) (t : ET) (lid new : Nat) : Option Bool :=
  match slot o t lid with
  | none => none
  | some a => if a < (o.ty t).nsparse then some (getRec new ((o.ty t).sparse a)).isSome else none

/-- `CopyData(tags[i],MGetLink(h,tags[i]),other.MGetLink(h,other.tags[i]))` (mesh.cpp L435, L443, L565, L573). -/
def copyRec (addr : Nat → Nat) (o : Sto V) (t : ET) (lid i : Nat) (s : Sto V) : Option (Sto V) :=
  match read o t lid i with
  | some (some v) => write s t lid (addr i) v
  | _ => none

/-- One element (mesh.cpp L431-436, L440-444, L561-566, L570-574). -/
def copyOne (addr : Nat → Nat) (o : Sto V) (t : ET) (τ : TagRec) (s : Sto V) (lid : Nat) : Option (Sto V) :=
  if slot s t lid = none then some s
  else if τ.flag t then match otherHas o t lid (addr τ.id) with
    | none => none
    | some true => copyRec addr o t lid τ.id s
    | some false => some s
  else copyRec addr o t lid τ.id s

/-- A loop that can fail. -/
def forEach {A S : Type} (f : S → A → Option S) : List A → S → Option S
  | [], s => some s
  | a :: l, s => match f s a with
    | none => none
    | some s' => forEach f l s'

/-- One tag (mesh.cpp L427-446, L557-576). -/
def copyTag (addr : Nat → Nat) (o : Sto V) (t : ET) (s : Sto V) (τ : TagRec) : Option (Sto V) :=
  if τ.defined t then forEach (copyOne addr o t τ) (List.range (s.ty t).nlinks) s else some s

/-- One type of elements (mesh.cpp L424-447, L554-577). -/
def copyType (addr : Nat → Nat) (o s : Sto V) (t : ET) : Option (Sto V) :=
  forEach (copyTag addr o t) o.tags (reallocate zero s t (s.ty t).capacity)

/-- Space for data, and the data (mesh.cpp L422-448, L552-578). -/
def fill (addr : Nat → Nat) (o s : Sto V) : Option (Sto V) := forEach (copyType zero addr o) allTypes s

/-- The copy constructor (mesh.cpp L396-478). -/
def copyMesh (addr : Nat → Nat) (o : Sto V) : Option (Sto V) :=
  match tie zero (startTags zero addr o ⟨fun _ => TS.empty V, [], 0, fun _ => ⟨0, fun _ => zero 0 none⟩, [], false⟩) 5 with
  | none => none
  | some (s, _) => match fill zero addr o (takeLinks o s) with
    | none => none
    | some s' => some { s' with modified := o.modified }

/-- `links`, `empty_links`, `empty_space` of all types but MESH are cleared (mesh.cpp L534-539). -/
def dropLinks (s : Sto V) : Sto V :=
  { s with ty := fun t => if t = 5 then s.ty t else { s.ty t with
      nlinks := 0, links := fun _ => none, emptySpace := [], emptyLinks := [] } }

/-- `operator =` (mesh.cpp L480-608) for another mesh; `priv` is the tag of private markers of `d`, deleted in
DeallocatePrivateMarkers (L540, L338-362). The data of `d` is lost with the columns (tag.cpp L290) and the sparse storage
(tag.cpp L302-303); `empty_dense_data` and `back_links` stay as they are. -/
def assignMesh (addr : Nat → Nat) (priv : Nat) (o d : Sto V) : Option (Sto V) :=
  match deleteTag zero (dropLinks d) priv fun _ => true with
  | none => none
  | some d1 =>
    let d2 := startTags zero addr o { d1 with ty := fun t => { d1.ty t with nsparse := 0, sparse := fun _ => [] } }
    match fill zero addr o (takeLinks o d2) with
    | none => none
    | some s' => some { s' with modified := o.modified }

/-! ## CopyTagData -/

/-- `CopyData(output,…,…)` of the value `v` of the tag `i` to the tag `j` on an element (tag.cpp L97-126): a record of variable size is
destroyed before it is copied, so that a copy to itself is empty. -/
def copyValue (s : Sto V) (t : ET) (id i : Nat) (σ : TagRec) (v : V) : Option (Sto V) :=
  if i = σ.id && σ.size.isNone then write s t id σ.id (zero σ.dtype σ.size) else write s t id σ.id v

/-- One element of a type on which `input` is dense (mesh.cpp L2706-2707) or on which it has data (L2700-2701). -/
def copyDatum (τ σ : TagRec) (t : ET) (s : Sto V) (id : Nat) : Option (Sto V) :=
  match read s t id τ.id with
  | some (some v) => copyValue zero s t id τ.id σ v
  | _ => none

/-- One element of a type on which `input` is sparse (mesh.cpp L2700-2702). -/
def copySparse (τ σ : TagRec) (t : ET) (s : Sto V) (id : Nat) : Option (Sto V) :=
  match haveData s t id τ.id with
  | none => none
  | some true => copyDatum zero τ σ t s id
  | some false => match haveData s t id σ.id with
    | none => none
    | some true => delData zero s t id σ.id
    | some false => some s

/-- The elements the iterator visits (mesh.cpp L2699, L2706): hidden ones are skipped. -/
def visited (hidden : ET → Nat → Bool) (s : Sto V) (t : ET) : List Nat :=
  (List.range (s.ty t).nlinks).filter fun id => (slot s t id).isSome && !hidden t id

/-- One type (mesh.cpp L2695-2709). -/
def copyTagOn (hidden : ET → Nat → Bool) (τ σ : TagRec) (s : Sto V) (t : ET) : Option (Sto V) :=
  if τ.defined t && σ.defined t then
    if τ.flag t then forEach (copySparse zero τ σ t) (visited hidden s t) s
    else forEach (copyDatum zero τ σ t) (visited hidden s t) s
  else some s

/-- The mesh itself (mesh.cpp L2711-2712): `MGetLink(GetHandle(),input)` creates a record of a sparse tag if there is none. -/
def copyTagMesh (τ σ : TagRec) (s : Sto V) : Option (Sto V) :=
  if τ.defined 5 && σ.defined 5 then match read s 5 0 τ.id with
    | none => none
    | some (some v) => copyValue zero s 5 0 τ.id σ v
    | some none => match write s 5 0 τ.id (zero τ.dtype τ.size) with
      | none => none
      | some s1 => copyValue zero s1 5 0 τ.id σ (zero τ.dtype τ.size)
  else some s

/-- CopyTagData (mesh.cpp L2689-2713). -/
def copyTagData (hidden : ET → Nat → Bool) (s : Sto V) (i j : Nat) : Option (Sto V) :=
  match findTag s i, findTag s j with
  | some τ, some σ =>
    if τ.dtype = σ.dtype ∧ τ.size = σ.size then
      match forEach (copyTagOn zero hidden τ σ) [0, 1, 2, 3, 4] s with
      | none => none
      | some s1 => copyTagMesh zero τ σ s1
    else none
  | _, _ => none

/-- DuplicateTagData (mesh.cpp L2677-2687); `new` is the address of the new tag if one has to be created. -/
def duplicateTagData (hidden : ET → Nat → Bool) (s : Sto V) (i : Nat) (name : String) (new : Nat) : Option (Sto V × Nat) :=
  match findTag s i with
  | none => none
  | some τ => match createTag zero s name τ.dtype τ.size τ.defined τ.flag new with
    | none => none
    | some (s1, j) => match copyTagData zero hidden s1 i j with
      | none => none
      | some s2 => some (s2, j)

end Verif.Copy
