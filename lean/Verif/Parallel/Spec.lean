import Verif.Parallel.Model

/-!
# What a user knows about a distributed mesh

Written without the functions of the model that pack, send and unpack.
-/

namespace Verif.Parallel

variable {V : Type}

/-- `e` on processor `p` and `e'` on processor `q` are copies of the same element of the mesh: same
type, same global number. -/
def SameElem (G : Nat → Local V) (p : Nat) (e : El) (q : Nat) (e' : El) : Prop :=
  e.ty = e'.ty ∧ (G p).key e = (G q).key e'

/-- The ghost `e` of processor `p` is a copy of `e'`, owned by `q` and shared with `p`. -/
structure GhostOf (G : Nat → Local V) (p : Nat) (e : El) (q : Nat) (e' : El) : Prop where
  mem : e ∈ (G p).elems
  mem' : e' ∈ (G q).elems
  ghost : (G p).status e = .ghost
  owner : (G p).owner e = q
  shared : (G q).status e' = .shared
  procs : p ∈ (G q).procs e'
  ne : q ≠ p
  same : SameElem G p e q e'

/-- A distributed mesh on `n` processors: on one processor different elements of one type have different
global numbers; a ghost has an owner's copy that lists the processor of the ghost; every processor listed
at a shared element has a ghost; the marker `select` is the same on all copies. -/
structure Distributed (n : Nat) (G : Nat → Local V) : Prop where
  nodup : ∀ p, p < n → (G p).elems.Nodup
  types : ∀ p, p < n → ∀ e, e ∈ (G p).elems → e.ty < 5
  unique : ∀ p, p < n → ∀ e e', e ∈ (G p).elems → e' ∈ (G p).elems → e.ty = e'.ty →
    (G p).key e = (G p).key e' → e = e'
  procs : ∀ p, p < n → ∀ e, e ∈ (G p).elems → (G p).status e = .shared → ((G p).procs e).Nodup
  owner : ∀ p, p < n → ∀ e, e ∈ (G p).elems → (G p).status e = .ghost →
    (G p).owner e < n ∧ ∃ e', GhostOf G p e ((G p).owner e) e'
  ghosts : ∀ q, q < n → ∀ e', e' ∈ (G q).elems → (G q).status e' = .shared →
    ∀ p, p ∈ (G q).procs e' → p ≠ q → p < n ∧ ∃ e, GhostOf G p e q e'
  select : ∀ p q, p < n → q < n → ∀ e e', GhostOf G p e q e' → (G p).sel e = (G q).sel e'

/-- Values of a tag have the size of the tag; a dense tag has values everywhere. -/
structure SizedAt (T : TagInfo) (ty : Nat) (d : Option (List V)) : Prop where
  size : ∀ x n, d = some x → T.size = some n → x.length = n
  dense : T.sparse ty = false → d ≠ none

/-- `SizedAt` for all tags of a call on all elements. -/
def Sized (n : Nat) (tags : List (Nat × TagInfo)) (G : Nat → Local V) : Prop :=
  ∀ t, t ∈ tags → ∀ p, p < n → ∀ e, e ∈ (G p).elems → t.2.defd e.ty = true →
    SizedAt t.2 e.ty ((G p).data t.1 e)

/-- An operation that does not fail on values of the right size and keeps them so. -/
def OpSafe (op : Op V) (T : TagInfo) : Prop :=
  ∀ e d x, T.defd e.ty = true → SizedAt T e.ty d → x ≠ [] → (∀ n, T.size = some n → x.length = n) →
    ∃ r, op T e d x = some r ∧ SizedAt T e.ty r

/-- A value that is set and not empty. -/
def present : Option (List V) → Option (List V)
  | some (a :: l) => some (a :: l)
  | _ => none

/-- The received values are combined one after the other. -/
def foldOp (op : Op V) (T : TagInfo) (e : El) (val : Nat → Option (List V)) :
    List Nat → Option (List V) → Option (Option (List V))
  | [], d => some d
  | q :: qs, d =>
    match val q with
    | none => foldOp op T e val qs d
    | some x =>
      match op T e d x with
      | none => none
      | some r => foldOp op T e val qs r

/-- The order of arrival does not matter for an operation that commutes with itself. -/
def OpComm (op : Op V) : Prop :=
  ∀ T e d x y, (match op T e d x with | none => none | some r => op T e r y) =
    (match op T e d y with | none => none | some r => op T e r x)

/-- The elements `P p e` of all processors `p < n` have one number each, these are pairwise different, and they
are exactly the integers `i` with `a ≤ i < b`. -/
structure ExactNumbering (n : Nat) (P : Nat → El → Prop) (val : Nat → El → Option (List Int)) (a b : Int) :
    Prop where
  range : ∀ p e, p < n → P p e → ∃ i, val p e = some [i] ∧ a ≤ i ∧ i < b
  distinct : ∀ p p' e e', p < n → p' < n → P p e → P p' e' → val p e = val p' e' → p = p' ∧ e = e'
  onto : ∀ i, a ≤ i → i < b → ∃ p e, p < n ∧ P p e ∧ val p e = some [i]

end Verif.Parallel
