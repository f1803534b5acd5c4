import Verif.Resolve.Model
import Verif.Topology.ReachInv

/-!
# What it means that elements of different processors are the same
-/

namespace Verif.Resolve

open Verif.Topology (El Topo)

variable {K : Type} [Ring K] [LinearOrder K]

/-- Two points are at most `eps` apart on every axis. -/
def Near (eps : K) (a b : List K) : Prop := List.Forall₂ (fun x y => |x - y| ≤ eps) a b

/-- The element `e` of type `t` on processor `p` and `e'` on processor `q` are the same: nodes if they are near,
other elements if they consist of the same elements of the type below. -/
def Same (eps : K) (P : Nat → Part K) : Nat → Nat → El → Nat → El → Prop
  | 0, p, e, q, e' => Near eps ((P p).coord e) ((P q).coord e')
  | t + 1, p, e, q, e' =>
    (∀ x, x ∈ (P p).T.low e → ∃ y, y ∈ (P q).T.low e' ∧ Same eps P t p x q y) ∧
    ∀ y, y ∈ (P q).T.low e' → ∃ x, x ∈ (P p).T.low e ∧ Same eps P t p x q y

/-- `e` is an element of type `t` on processor `p`. -/
def Has (P : Nat → Part K) (p t : Nat) (e : El) : Prop := e.ty = t ∧ (P p).T.alive e = true

/-- The connectivity on a processor is that of a mesh made by calls of the library (C11), nothing is hidden,
every edge, face and cell has elements below it. -/
structure PartOk (A : Part K) : Prop where
  reach : ∃ cn, Topology.Reach cn A.T
  shown : ∀ e, A.T.hid e = false
  filled : ∀ e, A.T.alive e = true → 0 < e.ty → A.T.low e ≠ []

theorem PartOk.inv {A : Part K} (H : PartOk A) : Topology.Inv A.T fun _ => False :=
  let ⟨_, r⟩ := H.reach
  (Topology.reach_inv r).1

/-- The tolerance fits the nodes: on every axis the coordinates of two nodes are closer than `eps` or farther
than `eps`, and being close is transitive. -/
structure Tolerance (n : Nat) (eps : K) (dim : Nat) (P : Nat → Part K) : Prop where
  pos : 0 < eps
  dim : ∀ p, p < n → ∀ e, Has P p 0 e → ((P p).coord e).length = dim
  off : ∀ p q, p < n → q < n → ∀ e e', Has P p 0 e → Has P q 0 e' →
    ∀ (i : Nat) (x y : K), ((P p).coord e)[i]? = some x → ((P q).coord e')[i]? = some y → |x - y| ≠ eps
  trans : ∀ p q r, p < n → q < n → r < n → ∀ e e' e'', Has P p 0 e → Has P q 0 e' → Has P r 0 e'' →
    ∀ (i : Nat) (x y z : K), ((P p).coord e)[i]? = some x → ((P q).coord e')[i]? = some y →
      ((P r).coord e'')[i]? = some z → |x - y| ≤ eps → |y - z| ≤ eps → |x - z| ≤ eps

/-- Elements are determined by what they consist of: a processor has no element twice, and there
are no elements of one type such that one of them consists of a part of the other. -/
structure Distinct (n : Nat) (eps : K) (P : Nat → Part K) : Prop where
  unique : ∀ p, p < n → ∀ t, t ≤ 3 → ∀ e e', Has P p t e → Has P p t e' → Same eps P t p e p e' → e = e'
  whole : ∀ p q, p < n → q < n → ∀ t, t < 3 → ∀ e e', Has P p (t + 1) e → Has P q (t + 1) e' →
    (∀ y, y ∈ (P q).T.low e' → ∃ x, x ∈ (P p).T.low e ∧ Same eps P t p x q y) → Same eps P (t + 1) p e q e'

/-- The order of centroids tells the elements of one type apart. -/
def Keys (n : Nat) (eps : K) (P : Nat → Part K) (key : Nat → El → Int) : Prop :=
  ∀ p q, p < n → q < n → ∀ t, t ≤ 3 → ∀ e e', Has P p t e → Has P q t e' →
    (key p e = key q e' ↔ Same eps P t p e q e')

/-- The list contains, in increasing order, the processors that have the element `e` of `p`. -/
structure Listed (n : Nat) (eps : K) (P : Nat → Part K) (p t : Nat) (e : El) (l : List Nat) : Prop where
  sorted : l.Pairwise (· < ·)
  mem : ∀ q, q ∈ l ↔ q < n ∧ ∃ e', Has P q t e' ∧ Same eps P t p e q e'

end Verif.Resolve
