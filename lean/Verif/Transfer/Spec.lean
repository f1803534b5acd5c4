import Verif.Transfer.Model
import Verif.Topology.Spec

/-!
# Specification vocabulary for the transfer of elements

A distributed mesh is described by a mesh `G` of which every processor holds a part.  Elements of `G`
are named by type and number; `name nm e` is the element of `G` that a local element stands for.
-/

namespace Verif.Transfer

open Verif.Topology

variable {V : Type}

/-- The mesh all processors hold parts of: what an element is built of, the nodes of cells, and owners. -/
structure Whole where
  low : El → List El
  nodes : El → List El
  owner : El → Nat

/-- No element has its boundary inside the boundary of another one. -/
def Whole.Ok (G : Whole) : Prop :=
  ∀ a b : El, a.ty = b.ty → 0 < a.ty → G.low a ≠ [] → (∀ x ∈ G.low a, x ∈ G.low b) → a = b

/-- The element of the whole mesh. -/
def name (nm : El → Nat) (e : El) : El := ⟨e.ty, nm e⟩

/-- The connectivity of `T` is that of a part of `G`. -/
structure Fits (G : Whole) (T : Topo) (nm : El → Nat) : Prop where
  inj : ∀ a b, T.alive a = true → T.alive b = true → name nm a = name nm b → a = b
  low : ∀ e, T.alive e = true → 0 < e.ty → ((T.low e).map (name nm)).Perm (G.low (name nm e))
  full : ∀ e, T.alive e = true → 0 < e.ty → T.low e ≠ []
  nodes : ∀ e, T.alive e = true → e.ty = 3 → T.cn = true → ((T.high e).map (name nm)).Perm (G.nodes (name nm e))

/-- A processor holds a part of `G`: its mesh is reached by a history of calls and is not being modified;
the owners are those of `G`. -/
structure Piece (cn : Bool) (G : Whole) (S : Side V) : Prop where
  reach : Reach cn S.T
  plain : S.T.hide = false
  fits : Fits G S.T S.num
  owner : ∀ e, S.T.alive e = true → S.owner e = (G.owner (name S.num e) : Int)

/-- The processor has the element of `G`. -/
def Has (S : Side V) (g : El) : Prop := ∃ e, S.T.alive e = true ∧ name S.num e = g

/-- The stored lists are sorted and contain existing elements of their type. -/
structure Lists (S : Side V) : Prop where
  sh : ∀ q t, (S.sh q t).Pairwise (fun a b => S.num a < S.num b) ∧ ∀ x ∈ S.sh q t, S.T.alive x = true ∧ x.ty = t
  gh : ∀ q t, (S.gh q t).Pairwise (fun a b => S.num a < S.num b) ∧ ∀ x ∈ S.gh q t, S.T.alive x = true ∧ x.ty = t

/-- Every new element gets a number that is not in use. -/
def Fresh (cn : Bool) (pick : Topo → Nat → Nat) : Prop :=
  ∀ T, Reach cn T → ∀ t, T.alive ⟨t, pick T t⟩ = false

/-- Lists of elements to send: existing elements in the list of their type, each once. -/
structure Selection (S : Side V) (sel : Nat → List El) : Prop where
  live : ∀ t, ∀ e ∈ sel t, S.T.alive e = true ∧ e.ty = t
  once : ∀ t, (sel t).Nodup

/-- The element of `G` is among those sent. -/
def Among (S : Side V) (sel : Nat → List El) (g : El) : Prop := ∃ t, t < 4 ∧ ∃ e ∈ sel t, name S.num e = g

/-- Effect of a message on the sender `src`: only the lists of processors and the statuses of own elements
that were sent change. -/
structure Given (S S' : Side V) (src dest : Nat) (sel : Nat → List El) : Prop where
  same : S'.T = S.T ∧ S'.num = S.num ∧ S'.owner = S.owner ∧ S'.val = S.val ∧ S'.sh = S.sh ∧ S'.gh = S.gh
  own : ∀ t, t < 4 → ∀ e ∈ sel t, S.owner e = (src : Int) →
    S'.status e = .shared ∧ ∀ q, q ∈ S'.procs e ↔ q = dest ∨ q ∈ S.procs e
  rest : ∀ e, (S.owner e = (src : Int) → ∀ t, t < 4 → e ∉ sel t) → S'.procs e = S.procs e ∧ S'.status e = S.status e
  sorted : ∀ e, (S.procs e).Pairwise (· < ·) → (S'.procs e).Pairwise (· < ·)

/-- Effect of a message on the receiver `dest`: `R` before, `R'` after, `out` the elements received. -/
structure Received (cn : Bool) (G : Whole) (S S' R R' : Side V) (dest : Nat) (sel out : Nat → List El) : Prop where
  piece : Piece cn G R'
  same : ∀ t, t < 4 → (out t).map (name R'.num) = (sel t).map (name S.num)
  live : ∀ t, t < 4 → ∀ x ∈ out t, R'.T.alive x = true
  old : ∀ x, R.T.alive x = true → R'.T.alive x = true ∧ R'.num x = R.num x ∧ R'.owner x = R.owner x ∧
    R'.status x = R.status x
  conn : ∀ x, R.T.alive x = true → (0 < x.ty → R'.T.low x = R.T.low x) ∧ (x.ty = 3 → R'.T.high x = R.T.high x)
  new : ∀ x, R'.T.alive x = true → R.T.alive x = false → R'.status x = .ghost ∧ Among S sel (name R'.num x)
  data : ∀ x, R'.T.alive x = true → ∀ t, t < 4 → ∀ e ∈ sel t, name R'.num x = name S.num e →
    S.owner e ≠ (dest : Int) → R'.val x = S.val e ∧ R'.procs x = S'.procs e
  keep : ∀ x, R.T.alive x = true → (R.owner x = (dest : Int) ∨ ¬ Among S sel (name R.num x)) →
    R'.val x = R.val x ∧ R'.procs x = R.procs x
  lists : R'.sh = R.sh ∧ R'.gh = R.gh

/-- What an element sent is built of is sent as well, unless it is sent by number. -/
structure Closed (S : Side V) (byNum : Nat → Bool) (dest : Nat) (sel : Nat → List El) : Prop where
  low : ∀ t, 0 < t → t < 4 → ∀ e ∈ sel t, S.known byNum dest e = false → ∀ x ∈ S.T.low e, x ∈ sel (t - 1)
  nodes : S.T.cn = true → ∀ e ∈ sel 3, S.known byNum dest e = false → ∀ x ∈ S.T.high e, x ∈ sel 0

/-- What is selected, and what it is built of. -/
inductive Sent (S : Side V) (byNum : Nat → Bool) (dest : Nat) (sel : Nat → List El) : El → Prop
  | first {e} : e ∈ sel e.ty → Sent S byNum dest sel e
  | low {e x} : Sent S byNum dest sel e → 0 < e.ty → S.known byNum dest e = false → x ∈ S.T.low e →
      Sent S byNum dest sel x
  | nodes {e x} : Sent S byNum dest sel e → e.ty = 3 → S.T.cn = true → S.known byNum dest e = false →
      x ∈ S.T.high e → Sent S byNum dest sel x

/-- The receiver `dest` can take the elements: it has those it owns; those sent by number
are in the list it will look in. -/
structure Known (S R : Side V) (src dest : Nat) (byNum : Nat → Bool) (sel : Nat → List El) : Prop where
  home : ∀ t, ∀ e ∈ sel t, S.owner e = (dest : Int) → Has R (name S.num e)
  listed : ∀ t, 0 < t → ∀ e ∈ sel t, S.known byNum dest e = true →
    ∃ u ∈ (if S.owner e = (dest : Int) then R.sh src t else R.gh (S.owner e) t), R.num u = S.num e

end Verif.Transfer
