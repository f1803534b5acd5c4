import Verif.Transfer.Spec

/-!
# Specification: a mesh distributed over processors

Written without the functions of the model that pack, unpack and exchange.
-/

namespace Verif.Transfer

open Verif.Topology

variable {V : Type}

/-- `n` processors hold parts of `G`, and what they know about each other is right: the list of processors of an
element names exactly the processors that have it, the owner has it; the status and the stored lists agree with
this. -/
structure Spread (n : Nat) (cn : Bool) (G : Whole) (W : Nat → Side V) : Prop where
  piece : ∀ p, p < n → Piece cn G (W p)
  sorted : ∀ p, p < n → ∀ e, (W p).T.alive e = true → ((W p).procs e).Pairwise (· < ·)
  procs : ∀ p, p < n → ∀ e, (W p).T.alive e = true → ∀ q, q ∈ (W p).procs e ↔ q < n ∧ Has (W q) (name (W p).num e)
  home : ∀ p, p < n → ∀ e, (W p).T.alive e = true →
    G.owner (name (W p).num e) < n ∧ Has (W (G.owner (name (W p).num e))) (name (W p).num e)
  ghost : ∀ p, p < n → ∀ e, (W p).T.alive e = true → (W p).owner e ≠ (p : Int) → (W p).status e = .ghost
  own : ∀ p, p < n → ∀ e, (W p).T.alive e = true → (W p).owner e = (p : Int) →
    (W p).status e = .shared ∧ (∃ q ∈ (W p).procs e, q ≠ p) ∨ (W p).status e = .owned ∧ ∀ q ∈ (W p).procs e, q = p
  sh : ∀ p, p < n → ∀ q t, ((W p).sh q t).Pairwise (fun a b => (W p).num a < (W p).num b) ∧
    ∀ x, x ∈ (W p).sh q t ↔ (W p).T.alive x = true ∧ x.ty = t ∧ (W p).owner x = (p : Int) ∧ q ≠ p ∧ q ∈ (W p).procs x
  gh : ∀ p, p < n → ∀ o t, ((W p).gh o t).Pairwise (fun a b => (W p).num a < (W p).num b) ∧
    ∀ x, x ∈ (W p).gh o t ↔ (W p).T.alive x = true ∧ x.ty = t ∧ (W p).owner x = o ∧ o ≠ (p : Int)

/-- `h` is `g` or belongs to its boundary. -/
inductive Part (cn : Bool) (G : Whole) (g : El) : El → Prop
  | self : Part cn G g g
  | low {h k} : Part cn G g h → 0 < h.ty → k ∈ G.low h → Part cn G g k
  | nodes {h k} : Part cn G g h → h.ty = 3 → cn = true → k ∈ G.nodes h → Part cn G g k

/-- Existing processors, each once. -/
structure Marked (n : Nat) (S : Side V) (sendto : El → List Nat) : Prop where
  range : ∀ e, S.T.alive e = true → ∀ k ∈ sendto e, k < n
  once : ∀ e, (sendto e).Nodup

/-- Some processor has to send `g` to `q`: it is marked for `q`, or belongs to the boundary of a marked element. -/
def Wanted (n : Nat) (cn : Bool) (G : Whole) (W : Nat → Side V) (sendto : Nat → El → List Nat) (q : Nat) (g : El) : Prop :=
  ∃ p, p < n ∧ p ≠ q ∧ ∃ e, (W p).T.alive e = true ∧ q ∈ sendto p e ∧ Part cn G (name (W p).num e) g

/-- What `W` has is still there in `W'`. -/
structure Kept (S S' : Side V) : Prop where
  old : ∀ x, S.T.alive x = true → S'.T.alive x = true ∧ S'.num x = S.num x ∧ S'.owner x = S.owner x
  conn : ∀ x, S.T.alive x = true → (0 < x.ty → S'.T.low x = S.T.low x) ∧ (x.ty = 3 → S'.T.high x = S.T.high x)

/-- All copies of an element have the same values, given by `f`. -/
def SameValues (n : Nat) (W : Nat → Side V) (f : El → V) : Prop :=
  ∀ p, p < n → ∀ e, (W p).T.alive e = true → (W p).val e = f (name (W p).num e)

end Verif.Transfer
