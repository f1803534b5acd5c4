import Verif.Iterators.Model

/-!
# What iteration should visit
-/

namespace Verif.Iterators

/-- The element with number `i` among the slots `l` is alive and not hidden. -/
def Visible (l : List Slot) (i : Nat) : Prop := ∃ n, l[i]? = some (.live false n)

instance (l : List Slot) (i : Nat) : Decidable (Visible l i) :=
  match h : l[i]? with
  | some (.live false n) => isTrue ⟨n, h⟩
  | some (.live true n) => isFalse (by rintro ⟨m, hm⟩; rw [h] at hm; simp at hm)
  | some .dead => isFalse (by rintro ⟨m, hm⟩; rw [h] at hm; simp at hm)
  | none => isFalse (by rintro ⟨m, hm⟩; rw [h] at hm; simp at hm)

/-- The element with number `i` among the slots `l` exists (alive, hidden or not). -/
def Alive (l : List Slot) (i : Nat) : Prop := ∃ a n, l[i]? = some (.live a n)

instance (l : List Slot) (i : Nat) : Decidable (Alive l i) :=
  match h : l[i]? with
  | some (.live a n) => isTrue ⟨a, n, h⟩
  | some .dead => isFalse (by rintro ⟨a, m, hm⟩; rw [h] at hm; simp at hm)
  | none => isFalse (by rintro ⟨a, m, hm⟩; rw [h] at hm; simp at hm)

/-- The local numbers visited for one element number: the visible ones in increasing order;
the mesh itself (number 5) is visited once. -/
def visibleOf (p : Pop) (q : Nat) : List Nat :=
  if q = 5 then [0] else (List.range (p.links q).length).filter (fun i => Visible (p.links q) i)

/-- What a loop over the mask has to visit, as (element number, local number): types in
increasing order, each with its visible elements in increasing order. -/
def expected (p : Pop) (mask : BitVec 8) : List (Nat × Int) :=
  (List.range 6).flatMap fun q =>
    if mask.getLsbD q then (visibleOf p q).map fun i : Nat => (q, (i : Int)) else []

/-- All existing elements (hidden ones included), type by type. -/
def allAlive (p : Pop) : List (Nat × Nat) :=
  (List.range 5).flatMap fun q =>
    ((List.range (p.links q).length).filter (fun i => Alive (p.links q) i)).map fun i => (q, i)

/-- The history contains no `SwapModification`. -/
def NoSwap (ops : List Op) : Prop := Op.swapModification ∉ ops

end Verif.Iterators
