import Verif.EdgeLoop.Model

/-!
# Specification vocabulary for loops of edges

* `Joins T e a b` : the edge `e` has exactly the two nodes `a`, `b` (hidden nodes not counted).
* `Loop T es ns` : the edges `es`, in this order, are a closed polygon with the successive corners `ns`:
  edge number `i` joins corner `i` and corner `i+1`, the last edge returns to the first corner.
-/

namespace Verif.EdgeLoop
open Verif.Topology

/-- Edge `e` joins `a` and `b`. -/
def Joins (T : Topo) (e a b : El) : Prop :=
  (T.low e).filter (fun x => !T.hid x) = [a, b] ∨ (T.low e).filter (fun x => !T.hid x) = [b, a]

/-- A closed polygon. -/
structure Loop (T : Topo) (es ns : List El) : Prop where
  three : 3 ≤ es.length
  corners : ns.length = es.length
  joins : ∀ (i : Nat) (e a b : El), es[i]? = some e → ns[i]? = some a →
    ns[(i + 1) % es.length]? = some b → Joins T e a b

/-- The edges of the face that are not hidden, in the stored order. -/
def edgesOf (T : Topo) (f : El) : List El := (T.low f).filter fun x => !T.hid x

end Verif.EdgeLoop
