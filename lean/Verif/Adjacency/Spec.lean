import Verif.Adjacency.Model
import Verif.Topology.Spec
import Verif.EdgeLoop.Spec

/-! # Specification of removing and restoring connections -/

namespace Verif.Adjacency
open Verif.Topology

/-- The calls. -/
inductive Call
  | removeUpper (m : Nat → Bool)
  | removeLower (m : Nat → Bool)
  | restoreUpper (orient : Bool) (flip : Topo → El → Bool) (m : Nat → Bool)
  | restoreLower (m : Nat → Bool)

def Call.run (A : Adj) : Call → Option Adj
  | .removeUpper m => A.removeUpper m
  | .removeLower m => A.removeLower m
  | .restoreUpper o f m => A.restoreUpper o f m
  | .restoreLower m => A.restoreLower m

/-- States after any sequence of such calls on the mesh `T`. -/
inductive After (T : Topo) : Adj → Prop
  | start : After T (Adj.full T)
  | call {A A' : Adj} (c : Call) : After T A → c.run A = some A' → After T A'

/-- The elements are those of `T`; each connection that is kept names the same elements as in `T`, possibly
in another order. -/
structure Same (T : Topo) (A : Adj) : Prop where
  alive : A.T.alive = T.alive
  hide : A.T.hide = T.hide
  hidden : A.T.hidden = T.hidden
  low : ∀ x, A.lo x.ty = true → (A.T.low x).Perm (T.low x)
  high : ∀ x, A.up x.ty = true → (A.T.high x).Perm (T.high x)

end Verif.Adjacency
