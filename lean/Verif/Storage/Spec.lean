import Verif.Storage.Model

/-!
# Specification vocabulary for element storage and tags

`Reach zero s`: the storage state `s` is the result of some history of calls on a new mesh:
creation and destruction of elements, renumbering, creation and deletion of tags, writing and
deletion of data, and beginning and end of modification phases.  `zero dtype size` is the content
of a fresh record of a tag.

An element is named by its type and its local number; a tag by its address.  What a client can
see of a state is
* `alive s t id` : the local number `id` of type `t` denotes an element;
* `read s t id i` : the data of tag `i` on the element (`some none`: sparse tag without data;
  `none`: the element or the tag does not exist, or the tag is not defined on the type);
* `slot s t id` : the storage slot of the element (`Mesh::DataLocalID`).
-/

namespace Verif.Storage

variable {V : Type}

/-- The local number denotes an element. -/
def alive (s : Sto V) (t : ET) (id : Nat) : Prop := slot s t id ≠ none

/-- Conditions for a call of `CreateTag`:
the allocator returns an address that is not in use; if there is a tag of this name, it has the
requested type and size (otherwise the assertions tag.cpp L351-352 fail); a type on which the tag
was sparse before and is not defined now is not requested as dense (see `C10`). -/
structure CreatePre (s : Sto V) (name : String) (dtype : Nat) (size : Option Nat)
    (mask sparse : ET → Bool) (newId : Nat) : Prop where
  fresh : findTag s newId = none
  same : ∀ τ, findName s name = some τ → τ.dtype = dtype ∧ (size = none ∨ size = τ.size)
  stale : ∀ τ, findName s name = some τ → ∀ t, mask t = true → τ.pos t = .undef →
    τ.flag t = true → sparse t = true

/-- Histories of calls.  The type MESH (5) has one element, which is never created or destroyed
by a client. -/
inductive Reach (zero : Nat → Option Nat → V) : Sto V → Prop
  | init {s} : initSto zero = some s → Reach zero s
  | create {s s' id} (t : ET) : Reach zero s → t ≠ 5 → tie zero s t = some (s', id) →
      Reach zero s'
  | destroy {s s'} (t : ET) (id : Nat) : Reach zero s → destroy zero s t id = some s' →
      Reach zero s'
  | reorder {s s'} (t : ET) : Reach zero s → t ≠ 5 → reorderEmpty zero s t = some s' →
      Reach zero s'
  | write {s s'} (t : ET) (id i : Nat) (v : V) : Reach zero s → write s t id i v = some s' →
      Reach zero s'
  | delData {s s'} (t : ET) (id i : Nat) : Reach zero s → delData zero s t id i = some s' →
      Reach zero s'
  | createTag {s s' i name dtype size mask sparse newId} : Reach zero s →
      CreatePre s name dtype size mask sparse newId →
      createTag zero s name dtype size mask sparse newId = some (s', i) → Reach zero s'
  | deleteTag {s s'} (i : Nat) (mask : ET → Bool) : Reach zero s →
      deleteTag zero s i mask = some s' → Reach zero s'
  | modification {s} (b : Bool) : Reach zero s → Reach zero { s with modified := b }

end Verif.Storage
