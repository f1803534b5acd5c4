import Verif.Transfer.Spread

/-!
# Specification: layers of cells around the cells of a processor

Written without the functions of the model.
-/

namespace Verif.Layers

open Verif.Topology Verif.Transfer

variable {V : Type}

/-- The element of `G` is in the distributed mesh. -/
def InMesh (n : Nat) (W : Nat → Side V) (g : El) : Prop := ∃ p, p < n ∧ Has (W p) g

/-- `b` is on the boundary of the cell `c` of the distributed mesh. -/
structure CellAt (n : Nat) (G : Whole) (W : Nat → Side V) (c b : El) : Prop where
  cell : c.ty = 3
  mem : InMesh n W c
  part : Part false G c b

/-- `k` steps through elements of type `t` lead from a cell of processor `p` to the cell `c`. -/
inductive Within (n : Nat) (G : Whole) (W : Nat → Side V) (t p : Nat) : Nat → El → Prop
  | own {c} : c.ty = 3 → InMesh n W c → G.owner c = p → Within n G W t p 0 c
  | stay {k c} : Within n G W t p k c → Within n G W t p (k + 1) c
  | step {k c b d} : Within n G W t p k c → CellAt n G W c b → b.ty = t → CellAt n G W d b → Within n G W t p (k + 1) d

/-- The whole mesh is a mesh: boundaries without repetition, the nodes of a cell are those of its faces. -/
structure Regular (cn : Bool) (G : Whole) : Prop where
  low : ∀ e, (G.low e).Nodup
  nodes : cn = true → ∀ c, c.ty = 3 → (G.nodes c).Nodup ∧ ∀ x, x ∈ G.nodes c ↔ ∃ f ∈ G.low c, ∃ e ∈ G.low f, x ∈ G.low e

/-- A face has at most two cells. -/
def TwoCells (n : Nat) (G : Whole) (W : Nat → Side V) : Prop :=
  ∀ f, f.ty = 2 → ∀ a b c, CellAt n G W a f → CellAt n G W b f → CellAt n G W c f → a = b ∨ b = c ∨ a = c

/-- `b` is on a face between a cell of processor `q` and a cell of another processor. -/
def OnSkin (n : Nat) (G : Whole) (W : Nat → Side V) (q : Nat) (b : El) : Prop :=
  ∃ f c d, f.ty = 2 ∧ CellAt n G W c f ∧ CellAt n G W d f ∧ G.owner c = q ∧ G.owner d ≠ q ∧ Part false G f b

/-- Where cells of different processors meet in an element of type `t`, both processors have a face there with a cell of
another processor on the other side. -/
def Meets (n : Nat) (G : Whole) (W : Nat → Side V) (t : Nat) : Prop :=
  ∀ c d b, b.ty = t → CellAt n G W c b → CellAt n G W d b → G.owner c ≠ G.owner d → OnSkin n G W (G.owner c) b

/-- The owner of an element of type `t` has a cell there. -/
def Homely (n : Nat) (G : Whole) (W : Nat → Side V) (t : Nat) : Prop :=
  ∀ b, b.ty = t → InMesh n W b → ∃ c, CellAt n G W c b ∧ G.owner c = G.owner b

end Verif.Layers
