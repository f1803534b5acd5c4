import Verif.Refs.Model
import Verif.Sets.TreeSpec
import Verif.Topology.Spec

/-!
# Specification: no data refers to an element that does not exist

Independent of the functions that clean up.
-/

namespace Verif.Refs

open Verif.Topology (El Topo)
open Verif.Sets

/-- An element, or the mesh itself (`0`), that may hold data. -/
def World.holds (W : World) (h : Nat) : Prop := h = 0 ∨ W.live h = true

/-- `s` is an element set of the mesh. -/
def World.isSet (W : World) (s : Nat) : Prop := W.live s = true ∧ (elOf s).ty = 4

/-- Whatever names an element names one that exists: the references stored in tags, the elements of
sets, the links between sets, the arrays of shared and ghost elements. -/
structure NoDangling (W : World) : Prop where
  refs : ∀ t ∈ W.tags, W.remote t = false → ∀ h l, W.holds h → W.data t h = some l →
    ∀ x ∈ l, x = 0 ∨ W.live x = true
  elems : ∀ s, W.isSet s → ∀ x ∈ elements (W.sets s), W.live x = true
  links : ∀ s, W.isSet s → ((W.tree s).parent = 0 ∨ W.isSet (W.tree s).parent) ∧
    ((W.tree s).sibling = 0 ∨ W.isSet (W.tree s).sibling) ∧
    ((W.tree s).child = 0 ∨ W.isSet (W.tree s).child)
  shared : ∀ l ∈ W.shared, ∀ x ∈ l, W.live x = true

/-- How sets are deleted.  A hidden set is not a child of a hidden set; and if a set that has no
parent still has a link to a hidden set (`RemChild` leaves such links, C19), then the hidden set has
no parent either.  Both hold when sets are deleted by `DeleteSet`, which takes the set
away from its parent. -/
structure Orderly (W : World) : Prop where
  parent : ∀ s, W.marked s = true → W.marked (W.tree s).parent = false
  loose : ∀ s, (W.tree s).parent = 0 → W.marked (W.tree s).sibling = true →
    (W.tree (W.tree s).sibling).parent = 0

/-- `ApplyModification` returns: the loops along the links of sets come to an end. -/
def Applied (W W' : World) : Prop := ∃ m, ∀ n, m ≤ n → W.apply n = some W'

/-- `EndModification` returns. -/
def Ended (flip : Topo → El → Bool) (W W' : World) : Prop := ∃ m, ∀ n, m ≤ n → W.endMod flip n = some W'

/-- Histories of a mesh with sets and references in which elements are taken away only by
`Delete` within a modification that is ended by `ApplyModification` and `EndModification`. -/
inductive Hist (cn : Bool) : World → Prop
  /-- An empty mesh. -/
  | init (tags : List Nat) (remote : Nat → Bool) : Hist cn
      { T := Topo.init cn, setLast := 0, setLive := fun _ => false, setHid := fun _ => false
        sets := fun _ => ESet.empty, tree := Tree.init, tags := tags, remote := remote
        data := fun _ _ => none, shared := [] }
  /-- Any operations on nodes, edges, faces and cells that take no element away: creation, and, during
  a modification, `Delete`, `Hide`, `Show` and the functions that split and unite. -/
  | mesh {W : World} (T' : Topo) : Hist cn W → Topology.Reach cn T' →
      (∀ x, W.T.alive x = true → T'.alive x = true) → T'.hide = W.T.hide → Hist cn { W with T := T' }
  /-- A new set. -/
  | createSet {W : World} (i : Nat) : Hist cn W → W.setLive i = false →
      Hist cn { W with
        setLive := fun j => if j = i then true else W.setLive j
        setHid := fun j => if j = i then false else W.setHid j
        setLast := max W.setLast (i + 1) }
  /-- Data of a tag. -/
  | write {W : World} (t h : Nat) (l : Option (List Nat)) : Hist cn W → W.holds h →
      (∀ a, l = some a → ∀ x ∈ a, x = 0 ∨ W.live x = true) →
      Hist cn { W with data := fun t2 h2 => if t2 = t ∧ h2 = h then l else W.data t2 h2 }
  /-- Any change of the elements of a set. -/
  | setElems {W : World} (s : Nat) (e : ESet) : Hist cn W → W.isSet s →
      (∀ x ∈ elements e, W.live x = true) → Hist cn { W with
        sets := fun s2 => if s2 = s then e else W.sets s2 }
  /-- `AddChild`, `AddSibling`, `RemChild`, `RemSibling` between sets.  -/
  | treeOp {W : World} (n : Nat) (o : TOp) (t' : Tree) : Hist cn W →
      (match o with
        | .addChild p c => W.isSet p ∧ W.isSet c ∧ (W.tree c).parent = 0 ∧ (W.tree c).sibling = 0 ∧
            ¬ Within W.tree c p
        | .addSibling s c => W.isSet s ∧ W.isSet c ∧ (W.tree s).parent ≠ 0 ∧ (W.tree c).parent = 0 ∧
            (W.tree c).sibling = 0 ∧ ¬ Within W.tree c (W.tree s).parent
        | .remChild p c => W.isSet p ∧ W.isSet c ∧ (W.tree c).parent = p
        | .remSibling s c => W.isSet s ∧ W.isSet c ∧ (W.tree s).parent ≠ 0 ∧
            ∃ l, Chain W.tree (W.tree s).sibling l ∧ c ∈ l) →
      texec n W.tree o = some t' → Hist cn { W with tree := t' }
  /-- The lists of shared and ghost elements. -/
  | share {W : World} (ls : List (List Nat)) : Hist cn W → (∀ l ∈ ls, ∀ x ∈ l, W.live x = true) →
      Hist cn { W with shared := ls }
  | beginMod {W W' : World} : Hist cn W → W.beginMod = some W' → Hist cn W'
  /-- `Hide` or `Show` of a set. -/
  | hideSet {W : World} (s : Nat) (b : Bool) : Hist cn W → W.isSet s → W.T.hide = true →
      Hist cn { W with setHid := fun j => if j = (elOf s).id then b else W.setHid j }
  /-- `ApplyModification`, then `EndModification`. -/
  | finish {W W1 W2 : World} (flip : Topo → El → Bool) : Hist cn W → Orderly W →
      Applied W W1 → Ended flip W1 W2 → Hist cn W2

end Verif.Refs
