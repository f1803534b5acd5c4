import Verif.Incident.Model

/-!
# Specification vocabulary for closed loops

* `uses low r l` : how many elements of `l` have `r` in their lower connections.
* `Closed low l` : every lower element belongs to none or to two elements of `l` - the edges `l` are closed
  polygons, the faces `l` are closed surfaces.
* `Polygon low es ns` : the edges `es`, in this order, pass the corners `ns` and return to the first one.
-/

namespace Verif.Incident

section
variable {C R : Type} [DecidableEq R]

def uses (low : C → List R) (r : R) (l : List C) : Nat := l.countP fun c => decide (r ∈ low c)

def Closed (low : C → List R) (l : List C) : Prop := ∀ r, uses low r l = 0 ∨ uses low r l = 2

/-- `c` has the lower elements `a` and `b` and no others. -/
def Joins (low : C → List R) (c : C) (a b : R) : Prop := ∀ r, r ∈ low c ↔ r = a ∨ r = b

structure Polygon (low : C → List R) (es : List C) (ns : List R) : Prop where
  corners : ns.length = es.length
  joins : ∀ (i : Nat) (e : C) (a b : R), es[i]? = some e → ns[i]? = some a →
    ns[(i + 1) % es.length]? = some b → Joins low e a b

end
end Verif.Incident
