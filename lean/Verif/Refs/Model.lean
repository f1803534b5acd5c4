import Verif.Topology.Model
import Verif.Sets.TreeModel

/-!
# Model of the end of a modification: links to deleted elements

Models `Mesh::RemoveLinksToDeletedElements`, `/repo/Source/Mesh/modify.cpp` L1790-1902,
`Mesh::ApplyModification` L1904-2042, `Mesh::EndModification` L2121-2183 and `Mesh::Destroy` of a
set, L2195-2205.

Simplifications.
* A handle is a natural number, `0` is `InvalidHandle()`.  The handles of the elements with type
  number `ty` (`4` for sets) and local number `id` are numbered by `handleOf`; the layout of bits of a
  handle (C01) does not matter here.
* The marker given to `RemoveLinksToDeletedElements` is the hide marker, which is not private
  (modify.cpp L1753).
* Of the data on elements only the tags that hold references are modelled.  The arrays of a tag for
  one element are `none` where the tag is not defined or, on a type where it is sparse, the
  element has no data.
* The names of sets, geometric data and `AssignGlobalID` at the end of `EndModification`
  are left out.
-/

namespace Verif.Refs

open Verif.Topology (El Topo)
open Verif.Sets

/-- The element of a handle: type number (4 for sets) and local number. -/
def elOf (h : Nat) : El := ⟨(h - 1) % 5, (h - 1) / 5⟩

/-- The handle of an element, `ComposeHandleNum` (inmost_data.h L100). -/
def handleOf (x : El) : Nat := 1 + 5 * x.id + x.ty

/-- A mesh with the data that refers to its elements.  Sets are addressed by their handles;
`data t h` is the array of tag number `t` on the holder `h`, where the holder `0` is the mesh itself;
`shared` are the arrays of `shared_elements` and `ghost_elements`. -/
structure World where
  T : Topo
  setLast : Nat
  setLive : Nat → Bool
  setHid : Nat → Bool
  sets : Nat → ESet
  tree : Tree
  tags : List Nat
  remote : Nat → Bool
  data : Nat → Nat → Option (List Nat)
  shared : List (List Nat)

/-- `isValidElement(h)`, inmost_mesh.h L1526. -/
def World.live (W : World) (h : Nat) : Bool :=
  if h = 0 then false
  else if (elOf h).ty = 4 then W.setLive (elOf h).id else W.T.alive (elOf h)

/-- The bit of the hide marker of an element. -/
def World.marked (W : World) (h : Nat) : Bool :=
  if h = 0 then false
  else if (elOf h).ty = 4 then W.T.hide && W.setHid (elOf h).id else W.T.hid (elOf h)

/-- `GetMarker(h,mrk)`, inmost_mesh.h L2026 and L4002: asserts that the element exists (L1364, L4004). -/
def World.getMarker (W : World) (h : Nat) : Option Bool :=
  if W.live h then some (W.marked h) else none

/-! ## Data -/

/-- The loop over one array, modify.cpp L1863-1864. -/
def World.cleanArr (W : World) : List Nat → Option (List Nat)
  | [] => some []
  | x :: xs =>
    if x = 0 then (W.cleanArr xs).map (0 :: ·)
    else match W.getMarker x with
      | none => none
      | some true => (W.cleanArr xs).map (0 :: ·)
      | some false => (W.cleanArr xs).map (x :: ·)

/-- The sets that exist, in the order of their local numbers. -/
def World.setList (W : World) : List Nat :=
  ((List.range W.setLast).filter W.setLive).map fun i => handleOf ⟨4, i⟩

/-- The elements of type number `ty` that exist, in the order of their local numbers. -/
def World.elList (W : World) (ty : Nat) : List Nat :=
  ((List.range (W.T.last ty)).filter fun i => W.T.alive ⟨ty, i⟩).map fun i => handleOf ⟨ty, i⟩

/-- All holders of data: `NODE ... MESH`, modify.cpp L1798. -/
def World.holders (W : World) : List Nat :=
  [0, 1, 2, 3].flatMap W.elList ++ W.setList ++ [0]

/-- One holder, modify.cpp L1859-1865; nothing is done where there is no data (L1799, L1812). -/
def World.cleanData (t : Nat) (W : World) (h : Nat) : Option World :=
  match W.data t h with
  | none => some W
  | some l => match W.cleanArr l with
    | none => none
    | some l' => some { W with
        data := fun t2 h2 => if t2 = t ∧ h2 = h then some l' else W.data t2 h2 }

/-- A loop that may fail. -/
def each {α : Type} (f : World → α → Option World) : List α → World → Option World
  | [], W => some W
  | x :: xs, W => match f W x with
    | none => none
    | some W' => each f xs W'

/-- One tag, modify.cpp L1792-1870: only `DATA_REFERENCE`, not `DATA_REMOTE_REFERENCE`. -/
def World.cleanTag (W : World) (t : Nat) : Option World :=
  if W.remote t then some W else each (World.cleanData t) W.holders W

/-! ## Sets -/

/-- `GetMarker` of a set a link leads to, modify.cpp L1880-1884. -/
def linkMarked (lv mk : Nat → Bool) (h : Nat) : Option Bool := if lv h then some (mk h) else none

/-- `if( HaveParent() && GetParent()->GetMarker(mrk) ) GetParent()->RemChild(self())`,
modify.cpp L1880-1881. -/
def dropParent (lv mk : Nat → Bool) (n : Nat) (t : Tree) (x : Nat) : Option Tree :=
  if (t x).parent = 0 then some t
  else match linkMarked lv mk (t x).parent with
    | none => none
    | some true => remChild n t (t x).parent x
    | some false => some t

/-- `while( HaveChild() && GetChild()->GetMarker(mrk) ) RemChild(GetChild())`, modify.cpp L1882-1883;
the first argument bounds the number of passes. -/
def dropChildren (lv mk : Nat → Bool) : Nat → Tree → Nat → Option Tree
  | 0, _, _ => none
  | n + 1, t, x =>
    if (t x).child = 0 then some t
    else match linkMarked lv mk (t x).child with
      | none => none
      | some false => some t
      | some true => match remChild (n + 1) t x (t x).child with
        | none => none
        | some t' => dropChildren lv mk n t' x

/-- `while( HaveSibling() && GetSibling()->GetMarker(mrk) ) RemSibling(GetSibling())`,
modify.cpp L1884-1885. -/
def dropSiblings (lv mk : Nat → Bool) : Nat → Tree → Nat → Option Tree
  | 0, _, _ => none
  | n + 1, t, x =>
    if (t x).sibling = 0 then some t
    else match linkMarked lv mk (t x).sibling with
      | none => none
      | some false => some t
      | some true => match remSibling (n + 1) t x (t x).sibling with
        | none => none
        | some t' => dropSiblings lv mk n t' x

/-- The links of one set, modify.cpp L1880-1885. -/
def dropLinks (lv mk : Nat → Bool) (n : Nat) (t : Tree) (x : Nat) : Option Tree :=
  match dropParent lv mk n t x with
  | none => none
  | some t1 => match dropChildren lv mk n t1 x with
    | none => none
    | some t2 => dropSiblings lv mk n t2 x

/-- The loop over the elements of a set, modify.cpp L1886-1898; the mesh is not in the state of
modification here (L1909), so that the iterator skips only invalid handles. -/
def eraseMarkedIt (lv mk : Nat → Bool) (s : ESet) (pos : Nat) : Option ESet :=
  if h : pos < s.lc.length then
    match linkMarked lv mk s.lc[pos] with
    | none => none
    | some true =>
      if s.lc[pos] = 0 then none
      else eraseMarkedIt lv mk { s with lc := s.lc.set pos 0, holes := pos :: s.holes }
        (max (pos + 1) (skipHoles (s.lc.set pos 0) (pos + 1)))
    | some false => eraseMarkedIt lv mk s (max (pos + 1) (skipHoles s.lc (pos + 1)))
  else some s
termination_by s.lc.length - pos
decreasing_by all_goals (try simp only [List.length_set]); all_goals omega

/-- One set, modify.cpp L1875-1901. -/
def World.cleanSet (n : Nat) (W : World) (s : Nat) : Option World :=
  match dropLinks W.live W.marked n W.tree s with
  | none => none
  | some t => match eraseMarkedIt W.live W.marked (W.sets s) (skipHoles (W.sets s).lc 0) with
    | none => none
    | some e => some { W with tree := t, sets := fun s2 => if s2 = s then e else W.sets s2 }

/-- `RemoveLinksToDeletedElements`, modify.cpp L1790-1902. -/
def World.removeLinks (n : Nat) (W : World) : Option World :=
  match each World.cleanTag W.tags W with
  | none => none
  | some W1 => each (World.cleanSet n) W1.setList W1

/-- The arrays of shared and ghost elements, modify.cpp L2000-2022: every array is compacted in
place. -/
def compactAll (mk : Nat → Bool) : List (List Nat) → Option (List (List Nat))
  | [] => some []
  | l :: ls => match compact mk false l 0 0 with
    | none => none
    | some l' => (compactAll mk ls).map (l' :: ·)

/-- `ApplyModification`, modify.cpp L1904-2042. -/
def World.apply (n : Nat) (W : World) : Option World :=
  match W.removeLinks n with
  | none => none
  | some W1 => match compactAll W1.marked W1.shared with
    | none => none
    | some ls => some { W1 with shared := ls }

/-! ## The end of the modification -/

/-- `while( HaveChild() ) RemChild(GetChild())`, modify.cpp L2201-2202. -/
def dropAll : Nat → Tree → Nat → Option Tree
  | 0, _, _ => none
  | n + 1, t, x =>
    if (t x).child = 0 then some t
    else match remChild (n + 1) t x (t x).child with
      | none => none
      | some t' => dropAll n t' x

/-- The links in `Destroy` of a set, modify.cpp L2199-2202. -/
def unlinkSet (n : Nat) (t : Tree) (x : Nat) : Option Tree :=
  match if (t x).parent = 0 then some t else remChild n t (t x).parent x with
  | none => none
  | some t1 => dropAll n t1 x

/-- `Destroy` of a set, modify.cpp L2195-2207: the links, then all data of the set (its links,
elements and comparator are data of tags too) and its number. -/
def World.destroySet (n : Nat) (W : World) (s : Nat) : Option World :=
  match unlinkSet n W.tree s with
  | none => none
  | some t => some { W with
      tree := fun s2 => if s2 = s then ⟨0, 0, 0⟩ else t s2
      sets := fun s2 => if s2 = s then ESet.empty else W.sets s2
      setLive := fun i => if i = (elOf s).id then false else W.setLive i
      data := fun t h => if h = s then none else W.data t h }

/-- One set in `EndModification`, modify.cpp L2145-2151. -/
def World.endSet (n : Nat) (W : World) (s : Nat) : Option World :=
  if W.setHid (elOf s).id then W.destroySet n s else some W

/-- `EndModification`, modify.cpp L2121-2171: the sets, then cells, faces, edges and nodes; `Destroy`
of an element deletes its data (L2204-2205). -/
def World.endMod (flip : Topo → El → Bool) (n : Nat) (W : World) : Option World :=
  if W.T.hide then
    match each (World.endSet n) W.setList W with
    | none => none
    | some W1 => match W1.T.endMod flip with
      | none => none
      | some T' => some { W1 with
          T := T'
          data := fun t h =>
            if h ≠ 0 ∧ (elOf h).ty ≠ 4 ∧ T'.alive (elOf h) = false then none else W1.data t h }
  else none

/-- `BeginModification`, modify.cpp L1750-1758. -/
def World.beginMod (W : World) : Option World :=
  match W.T.beginMod with
  | none => none
  | some T' => some { W with T := T', setHid := fun _ => false }

end Verif.Refs
