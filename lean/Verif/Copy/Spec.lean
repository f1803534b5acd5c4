import Verif.Copy.Model
import Verif.Storage.Spec

/-!
# Specification vocabulary for copies of meshes and tags

What a client can see of a mesh is described in `Verif.Storage.Spec`: which local numbers denote elements, and what is read
for a tag on an element.  A tag of the copy has another address than the tag of the original (`addr`).
-/

namespace Verif.Copy

open Verif.Storage

variable {V : Type}

/-- The addresses of the tags of the copy: different from each other and from those of the original. -/
structure Addr (addr : Nat → Nat) (o : Sto V) : Prop where
  inj : ∀ τ ∈ o.tags, ∀ σ ∈ o.tags, addr τ.id = addr σ.id → τ.id = σ.id
  new : ∀ τ ∈ o.tags, ∀ σ ∈ o.tags, addr τ.id ≠ σ.id

/-- `s` has the tags of `o`, in the same order. -/
def SameTags (addr : Nat → Nat) (o s : Sto V) : Prop :=
  s.tags.map (·.id) = o.tags.map (fun τ => addr τ.id) ∧
  ∀ τ ∈ o.tags, ∃ σ, findTag s (addr τ.id) = some σ ∧ σ.name = τ.name ∧ σ.dtype = τ.dtype ∧ σ.size = τ.size ∧
    ∀ t, σ.defined t = τ.defined t ∧ σ.flag t = τ.flag t

/-- `s` has the elements of `o`, with the same local numbers and the same places of data. -/
def SameElements (o s : Sto V) : Prop := ∀ t id, slot s t id = slot o t id

/-- The data of the tag `τ` of `o` on the elements of type `t` is the same in `s`. -/
def SameData (addr : Nat → Nat) (o s : Sto V) (τ : TagRec) (t : ET) : Prop :=
  ∀ id, alive o t id → read s t id (addr τ.id) = read o t id τ.id

/-- C102: a copy has the tags, elements and data of the original. -/
def Faithful (addr : Nat → Nat) (o s : Sto V) : Prop :=
  SameTags addr o s ∧ SameElements o s ∧ ∀ τ ∈ o.tags, ∀ t, τ.defined t = true → SameData addr o s τ t

/-- A mesh on which the next calls do what they should: elements do not share places of data and tags do not share columns;
a new element, a destroyed element and a written record change nothing else. -/
structure Sound (zero : Nat → Option Nat → V) (s : Sto V) : Prop where
  slots : ∀ t id id' a, slot s t id = some a → slot s t id' = some a → id = id'
  columns : ∀ τ ∈ s.tags, ∀ σ ∈ s.tags, ∀ t u p, τ.flag t = false → τ.pos t = .col p → σ.flag u = false →
    σ.pos u = .col p → τ = σ ∧ t = u
  create : ∀ t, t ≠ 5 → ∃ s' id, tie zero s t = some (s', id) ∧ ¬ alive s t id ∧ alive s' t id ∧
    (∀ u j, (u ≠ t ∨ j ≠ id) → slot s' u j = slot s u j ∧ ∀ i, read s' u j i = read s u j i) ∧
    ∀ τ ∈ s.tags, τ.defined t = true →
      read s' t id τ.id = some (if τ.flag t then none else some (zero τ.dtype τ.size))
  destroy : s.modified = false → ∀ t id, alive s t id → ∃ s', destroy zero s t id = some s' ∧ ¬ alive s' t id ∧
    ∀ u j, (u ≠ t ∨ j ≠ id) → slot s' u j = slot s u j ∧ ∀ i, read s' u j i = read s u j i
  write : ∀ t id i τ v, alive s t id → findTag s i = some τ → τ.defined t = true →
    ∃ s', write s t id i v = some s' ∧ read s' t id i = some (some v) ∧
      (∀ u j k, (u ≠ t ∨ j ≠ id ∨ k ≠ i) → read s' u j k = read s u j k) ∧ ∀ u j, slot s' u j = slot s u j

/-- Histories of calls on a copy `c`; `re` says whether ReorderEmpty is among them. -/
inductive Later (zero : Nat → Option Nat → V) (re : Bool) (c : Sto V) : Sto V → Prop
  | copy : Later zero re c c
  | create {s s' id} (t : ET) : Later zero re c s → t ≠ 5 → tie zero s t = some (s', id) → Later zero re c s'
  | destroy {s s'} (t : ET) (id : Nat) : Later zero re c s → destroy zero s t id = some s' → Later zero re c s'
  | reorder {s s'} (t : ET) : re = true → Later zero re c s → t ≠ 5 → reorderEmpty zero s t = some s' →
      Later zero re c s'
  | write {s s'} (t : ET) (id i : Nat) (v : V) : Later zero re c s → write s t id i v = some s' → Later zero re c s'
  | delData {s s'} (t : ET) (id i : Nat) : Later zero re c s → delData zero s t id i = some s' → Later zero re c s'
  | createTag {s s' i name dtype size mask sparse newId} : Later zero re c s →
      CreatePre s name dtype size mask sparse newId →
      createTag zero s name dtype size mask sparse newId = some (s', i) → Later zero re c s'
  | deleteTag {s s'} (i : Nat) (mask : ET → Bool) : Later zero re c s → deleteTag zero s i mask = some s' →
      Later zero re c s'
  | modification {s} (b : Bool) : Later zero re c s → Later zero re c { s with modified := b }

/-- What is read for the output of CopyTagData where the input reads `r`: the same, and a tag that is not sparse has a fresh
record where the input has no data. -/
def outcome (zero : Nat → Option Nat → V) (σ : TagRec) (t : ET) (r : Option (Option V)) : Option (Option V) :=
  match r with
  | some none => some (if σ.flag t then none else some (zero σ.dtype σ.size))
  | r => r

/-- C104: CopyTagData from `τ` to `σ`.  On all elements that are not hidden and have a type with both tags the output is that
of the input; nothing else changes. -/
structure CopiedTag (zero : Nat → Option Nat → V) (hidden : ET → Nat → Bool) (τ σ : TagRec) (s s' : Sto V) : Prop where
  tags : s'.tags = s.tags
  slots : ∀ t id, slot s' t id = slot s t id
  output : ∀ t id, alive s t id → hidden t id = false → τ.defined t = true → σ.defined t = true →
    read s' t id σ.id = outcome zero σ t (read s t id τ.id)
  other : ∀ t id k, (k ≠ σ.id ∨ hidden t id = true ∨ τ.defined t = false ∨ σ.defined t = false) →
    read s' t id k = read s t id k

end Verif.Copy
