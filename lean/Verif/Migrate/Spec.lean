import Verif.Layers.Spec

/-!
# Specification: redistribution of the mesh

Written without the functions of the model.
-/

namespace Verif.Migrate

open Verif.Topology Verif.Transfer Verif.Layers

variable {V : Type}

/-- Every element of a processor is a cell or belongs to the boundary of a cell of this processor. -/
def Covered (n : Nat) (G : Whole) (W : Nat → Side V) : Prop :=
  ∀ p, p < n → ∀ g, Has (W p) g → ∃ c, c.ty = 3 ∧ Has (W p) c ∧ Part false G c g

/-- The new owners the user has given to the cells are `C`. -/
def Given (n : Nat) (W : Nat → Side V) (new : Nat → El → Nat) (C : El → Nat) : Prop :=
  ∀ p, p < n → ∀ e, (W p).T.alive e = true → e.ty = 3 → (W p).owner e = (p : Int) →
    new p e = C (name (W p).num e) ∧ C (name (W p).num e) < n

/-- Layers of cells around the new part `q`, as far as processor `p` sees them before the redistribution: the first layer starts
from faces of `p` on the boundary of a cell of the part, each step goes to a cell that `p` has. -/
inductive Near (n : Nat) (G : Whole) (W : Nat → Side V) (C : El → Nat) (t p q : Nat) : Nat → El → Prop
  | first {c f b d} : CellAt n G W c f → C c = q → f.ty = 2 → Has (W p) f → Part false G f b → b.ty = t →
      d.ty = 3 → Has (W p) d → Part false G d b → Near n G W C t p q 1 d
  | step {k c b d} : Near n G W C t p q k c → Part false G c b → b.ty = t →
      d.ty = 3 → Has (W p) d → Part false G d b → Near n G W C t p q (k + 1) d

end Verif.Migrate
