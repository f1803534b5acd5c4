import Verif.Unknowns.Model

/-!
# Specification of the numbering of unknowns
-/

namespace Verif.Unknowns

/-- The unknown number `pos` of an entry exists on an element: the element has the data of its tag, and a status block
has it switched on. -/
def HasUnknown (m : MeshView) (b : Entry) (t k pos : Nat) : Prop :=
  match b.kind with
  | .simple (.single tag) => pos = 0 ∧ m.haveData tag t k = true
  | .simple (.block tags) => ∃ tag, tags[pos]? = some tag ∧ m.haveData tag t k = true
  | .simple (.vector tag) => m.haveData tag t k = true ∧ pos < m.dataSize tag t k
  | .simple (.status tags st tbl) => ∃ tag row, tags[pos]? = some tag ∧ m.haveData tag t k = true ∧
      tbl[m.intData st t k]? = some row ∧ row[pos]? = some true
  | .multi parts => ∃ n, sumSizes m t k parts = some n ∧ pos < n

/-- The entry applies to the element, and this process owns the element: the element exists, has one of the types of the entry, is
not a ghost (the mesh itself has no owner) and passes the marker mask. -/
def Applies (m : MeshView) (b : Entry) (t k : Nat) : Prop :=
  t ≤ 5 ∧ k < m.lastLocalID t ∧ m.valid t k = true ∧ b.types t = true ∧ (t = 5 ∨ m.ghost t k = false) ∧
    ∀ mask, b.mask = some mask → m.marker mask t k ≠ b.inverse

/-- An unknown of a process: an active entry (slot `it`), an element and a position. -/
def IsUnknown (s : Registry) (views : Nat → MeshView) (it t k pos : Nat) : Prop :=
  ∃ b, s.reg[it]? = some (some b) ∧ s.act[it]? = some true ∧ Applies (views b.mesh) b t k ∧
    HasUnknown (views b.mesh) b t k pos

/-- The index of an unknown. -/
def indexOf (s : Registry) (views : Nat → MeshView) (off : Offsets) (it t k pos : Nat) : Option Nat :=
  match s.reg[it]? with
  | some (some b) =>
    match b.index (views b.mesh) (off (it, t, k)) t k pos with
    | some (some i) => some i
    | _ => none
  | _ => none

/-- The entry is used as the numbering requires: not a `MultiEntry`; every status of an element has a row in the status table
with a flag for each tag; on every element the unknowns that exist come first. -/
def WellUsed (m : MeshView) (b : Entry) : Prop :=
  (∀ parts, b.kind ≠ .multi parts) ∧
  (∀ tags st tbl, b.kind = .simple (.status tags st tbl) → ∀ t k, Applies m b t k →
    ∃ row, tbl[m.intData st t k]? = some row ∧ tags.length ≤ row.length) ∧
  (∀ t k, Applies m b t k → ∀ p q, p < q → HasUnknown m b t k q → HasUnknown m b t k p)

/-- All active entries of a process are used so. -/
def ProcOk (p : Proc) : Prop :=
  ∀ (it : Nat) (b : Entry), p.reg.reg[it]? = some (some b) → p.reg.act[it]? = some true → WellUsed (p.views b.mesh) b

end Verif.Unknowns
