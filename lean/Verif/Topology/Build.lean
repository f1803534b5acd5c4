import Verif.Topology.Props

/-! A checked builder of concrete meshes, used for witnesses and examples. -/

namespace Verif.Topology

/-- A list of creations (type, number, boundary, nodes); `none` if an argument is not admissible. -/
def build (T : Topo) : List (Nat × Nat × List El × List El) → Option Topo
  | [] => some T
  | (ty, id, elems, nodes) :: ops =>
    if ty = 0 then match T.createNode id with
      | none => none
      | some T' => build T' ops
    else if (ty = 1 ∨ ty = 2 ∨ ty = 3) ∧ (∀ x ∈ elems, T.alive x = true ∧ x.ty + 1 = ty) ∧
        ∀ x ∈ nodes, T.alive x = true ∧ x.ty = 0 then
      match T.create false ty id elems nodes with
      | none => none
      | some (T', _) => build T' ops
    else none

theorem build_reach {cn : Bool} : ∀ (ops : List (Nat × Nat × List El × List El)) (T T' : Topo),
    Reach cn T → build T ops = some T' → Reach cn T' := by
  intro ops
  induction ops with
  | nil => intro T T' r h; cases h; exact r
  | cons o ops ih =>
    intro T T' r h
    obtain ⟨ty, id, elems, nodes⟩ := o
    unfold build at h
    split at h
    · split at h
      · cases h
      next T1 h1 => exact ih T1 T' (.createNode id r h1) h
    · split at h
      next hc =>
        split at h
        · cases h
        next T1 b h1 => exact ih T1 T' (.create false ty id elems nodes r ⟨hc.1, hc.2.1, hc.2.2⟩ h1) h
      · cases h

/-- Builder that also checks the conditions of `GoodArgs`. -/
def buildGood (T : Topo) : List (Nat × Nat × List El × List El) → Option Topo
  | [] => some T
  | (ty, id, elems, nodes) :: ops =>
    if ty = 0 then match T.createNode id with
      | none => none
      | some T' => buildGood T' ops
    else if (ty = 1 ∨ ty = 2 ∨ ty = 3) ∧ (∀ x ∈ elems, T.alive x = true ∧ x.ty + 1 = ty) ∧
        (∀ x ∈ nodes, T.alive x = true ∧ x.ty = 0) ∧ elems.Nodup ∧ nodes.Nodup ∧
        (∀ x ∈ elems, T.hid x = false) ∧
        (ty = 3 → (∀ n ∈ nodes, n ∈ elems.flatMap fun f => (T.low f).flatMap T.low) ∧
          ∀ n ∈ elems.flatMap fun f => (T.low f).flatMap T.low, n ∈ nodes) then
      match T.create false ty id elems nodes with
      | none => none
      | some (T', _) => buildGood T' ops
    else none

theorem build_good {cn : Bool} : ∀ (ops : List (Nat × Nat × List El × List El)) (T T' : Topo),
    GoodReach cn T → buildGood T ops = some T' → GoodReach cn T' := by
  intro ops
  induction ops with
  | nil => intro T T' r h; cases h; exact r
  | cons o ops ih =>
    intro T T' r h
    obtain ⟨ty, id, elems, nodes⟩ := o
    unfold buildGood at h
    split at h
    · split at h
      · cases h
      next T1 h1 => exact ih T1 T' (.createNode id r h1) h
    · split at h
      next hc =>
        split at h
        · cases h
        next T1 b h1 =>
          exact ih T1 T' (.create false ty id elems nodes r
            (goodArgs_of hc.1 hc.2.1 hc.2.2.1 hc.2.2.2.1 hc.2.2.2.2.1 hc.2.2.2.2.2.1 hc.2.2.2.2.2.2) h1) h
      · cases h

end Verif.Topology
