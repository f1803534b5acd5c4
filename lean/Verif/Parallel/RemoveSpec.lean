import Verif.Parallel.Remove

/-!
# What a user expects of the removal of ghosts
-/

namespace Verif.Parallel

/-- The elements below are there, and are one type lower; sets have none. -/
def Whole (n : Nat) (low : Nat → El → List El) (G : Nat → Local Nat) : Prop :=
  ∀ p, p < n → ∀ e, e ∈ (G p).elems → ∀ x, x ∈ low p e → x ∈ (G p).elems ∧ x.ty + 1 = e.ty ∧ e.ty ≤ 3

/-- The stored lists are those GatherParallelStorage computes. -/
def Stored (n : Nat) (W : Nat → Part) : Prop :=
  ∀ p, p < n → ∀ q i, (W p).sh q i = sharedList (fun _ => true) p (W p).L q i ∧
    (W p).gh q i = ghostList (fun _ => true) (W p).L q i

/-- What is kept if the elements `out` are taken away: the other cells and sets, everything that is not a ghost, and what
kept elements stand on. -/
inductive Kept (L : Local Nat) (low : El → List El) (out : El → Prop) : El → Prop where
  | top {e : El} : e ∈ L.elems → 3 ≤ e.ty → ¬ out e → Kept L low out e
  | own {e : El} : e ∈ L.elems → L.status e ≠ .ghost → Kept L low out e
  | under {x e : El} : Kept L low out x → e ∈ low x → Kept L low out e

end Verif.Parallel
