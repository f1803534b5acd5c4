import Mathlib.Data.List.Nodup
import Mathlib.Data.List.Perm.Basic

/-!
# Adjacent elements of nodes and edges by type (C151)

Models `/repo/Source/Mesh/node.cpp` L7-379 and `/repo/Source/Mesh/edge.cpp` L6-312: `Node::getEdges`, `getFaces`, `getCells`, `Edge::getNodes`, `getFaces`, `getCells`, with and without a
marker, `Edge::getBeg`, `getEnd`, `SwapEnds`; `getNext` and `Count`, `/repo/Source/Mesh/modify.cpp` L2300-2316.

Simplifications: the branches of the code for `isPrivate(mask)` differ only in the function that reads the marker, which is here the given function `mask`. `hide = none` is `HideMarker() == 0`.
-/

namespace Verif.Adjacency.Typed

/-- connections, the hide marker, and connections of nodes to cells, if present (`LowConnTag().isDefined(NODE)`) -/
structure Mesh where
  high : Nat → List Nat
  low : Nat → List Nat
  nodeCells : Option (Nat → List Nat)
  hide : Option (Nat → Bool)

/-- the array of the result and the private marker `mrk` -/
structure Acc where
  aret : List Nat
  mrk : Nat → Bool

/-- the test `GetMarker(x, hm)`, false when nothing is hidden -/
def Mesh.hid (m : Mesh) (x : Nat) : Bool := match m.hide with
  | none => false
  | some h => h x

/-- the test of a marker: none in the functions without arguments, `invert ^ GetMarker(x, mask)` otherwise -/
def test (sel : Option ((Nat → Bool) × Bool)) (x : Nat) : Bool := match sel with
  | none => true
  | some (mask, invert) => xor invert (mask x)

/-- the innermost loop, e.g. node.cpp L92-97, L134-139, L231-238: elements that pass the tests and have no `mrk` are added and get it -/
def inner (m : Mesh) (sel : Option ((Nat → Bool) × Bool)) : List Nat → Acc → Acc
  | [], a => a
  | x :: r, a => inner m sel r
      (if !m.hid x && (test sel x && !a.mrk x) then ⟨a.aret ++ [x], fun y => if y = x then true else a.mrk y⟩ else a)

/-- a loop over elements that are not hidden, around another one, e.g. node.cpp L89-98 -/
def outer (m : Mesh) (body : Nat → Acc → Acc) : List Nat → Acc → Acc
  | [], a => a
  | x :: r, a => outer m body r (if !m.hid x then body x a else a)

/-- `aret.RemPrivateMarker(mrk)` -/
def clear (a : Acc) : Acc := ⟨a.aret, fun y => if a.aret.contains y then false else a.mrk y⟩

/-- a list of direct connections, node.cpp L7-63, edge.cpp L75-194 -/
def direct (m : Mesh) (sel : Option ((Nat → Bool) × Bool)) (l : List Nat) : List Nat :=
  l.filter fun x => test sel x && !m.hid x

/-- `Node::getEdges`, node.cpp L7-63 -/
def nodeEdges (m : Mesh) (sel : Option ((Nat → Bool) × Bool)) (n : Nat) : List Nat := direct m sel (m.high n)

/-- `Edge::getNodes`, edge.cpp L75-133 -/
def edgeNodes (m : Mesh) (sel : Option ((Nat → Bool) × Bool)) (e : Nat) : List Nat := direct m sel (m.low e)

/-- `Edge::getFaces`, edge.cpp L135-194 -/
def edgeFaces (m : Mesh) (sel : Option ((Nat → Bool) × Bool)) (e : Nat) : List Nat := direct m sel (m.high e)

/-- `Node::getFaces`, node.cpp L65-176, with the state of the private marker -/
def nodeFacesAcc (m : Mesh) (sel : Option ((Nat → Bool) × Bool)) (n : Nat) (mrk : Nat → Bool) : Acc :=
  clear (outer m (fun e => inner m sel (m.high e)) (m.high n) ⟨[], mrk⟩)

/-- `Edge::getCells`, edge.cpp L196-312: the same loops one level higher -/
def edgeCellsAcc (m : Mesh) (sel : Option ((Nat → Bool) × Bool)) (e : Nat) (mrk : Nat → Bool) : Acc :=
  clear (outer m (fun f => inner m sel (m.high f)) (m.high e) ⟨[], mrk⟩)

/-- `Node::getCells`, node.cpp L178-379 -/
def nodeCellsAcc (m : Mesh) (sel : Option ((Nat → Bool) × Bool)) (n : Nat) (mrk : Nat → Bool) : Acc :=
  match m.nodeCells with
  | some lc => ⟨direct m sel (lc n), mrk⟩
  | none => clear (outer m (fun e => outer m (fun f => inner m sel (m.high f)) (m.high e)) (m.high n) ⟨[], mrk⟩)

/-- `getNext` after the increment, modify.cpp L2303 -/
def skip (hid : Nat → Bool) (l : List Nat) : Nat → Nat → Nat
  | 0, k => k
  | fuel + 1, k => match l[k]? with
    | none => k
    | some x => if hid x then skip hid l fuel (k + 1) else k

/-- `getNext`, modify.cpp L2300-2305; `k` is one more than the argument, as ENUMUNDEF + 1 is 0 -/
def getNext (m : Mesh) (l : List Nat) (k : Nat) : Nat := skip m.hid l l.length k

/-- an access to the array with an index of `getNext`: `none` is out of range -/
inductive End where
  | invalid
  | node (h : Nat)
  | outOfRange
  deriving DecidableEq

def access (l : List Nat) (i : Nat) : End := match l[i]? with
  | some x => .node x
  | none => .outOfRange

/-- `Edge::getBeg`, edge.cpp L25-48 -/
def getBeg (m : Mesh) (e : Nat) : End :=
  let lc := m.low e
  match m.hide with
  | none => match lc.head? with
    | none => .invalid
    | some x => .node x
  | some _ =>
    if lc.isEmpty then .invalid
    else
      let i := getNext m lc 0
      if i ≠ lc.length then access lc i else .invalid

/-- `Edge::getEnd`, edge.cpp L49-73 -/
def getEnd (m : Mesh) (e : Nat) : End :=
  let lc := m.low e
  match m.hide with
  | none => if lc.length < 2 then .invalid else match lc.getLast? with
    | none => .outOfRange
    | some x => .node x
  | some _ =>
    if lc.isEmpty then .invalid
    else
      let i := getNext m lc 0
      let i := getNext m lc (i + 1)
      if i ≠ lc.length then access lc i else .invalid

/-- `Edge::SwapEnds`, edge.cpp L6-23: the new connections of the edge; `Count` is the length of the filtered list, modify.cpp L2307-2316 -/
def swapEnds (m : Mesh) (e : Nat) : List Nat :=
  let lc := m.low e
  if (lc.filter fun x => !m.hid x).length = 2 then
    let k1 := getNext m lc 0
    let k2 := getNext m lc (k1 + 1)
    match lc[k1]?, lc[k2]? with
    | some a, some b => (lc.set k1 b).set k2 a
    | _, _ => lc
  else lc

/-! ## Specification -/

/-- an element that takes part: not hidden during modification -/
def Visible (m : Mesh) (x : Nat) : Prop := ∀ h, m.hide = some h → h x = false

/-- the element has the marker, or does not have it when the choice is inverted; every element if no marker is given -/
def Chosen (sel : Option ((Nat → Bool) × Bool)) (x : Nat) : Prop := ∀ mask invert, sel = some (mask, invert) → (mask x = true ↔ invert = false)

/-! ## Lemmas -/

theorem visible_iff (m : Mesh) (x : Nat) : m.hid x = false ↔ Visible m x := by
  unfold Mesh.hid Visible
  cases m.hide <;> simp

theorem chosen_iff (sel : Option ((Nat → Bool) × Bool)) (x : Nat) : test sel x = true ↔ Chosen sel x := by
  unfold test Chosen
  rcases sel with _ | ⟨mask, invert⟩
  · simp
  · simp only [Option.some.injEq, Prod.mk.injEq]
    constructor
    · rintro h a b ⟨rfl, rfl⟩
      cases invert <;> simp_all
    · intro h
      have := h mask invert ⟨rfl, rfl⟩
      cases invert <;> simp_all

/-- the private marker is on exactly the elements of the array -/
def Synced (a : Acc) : Prop := (∀ x, a.mrk x = true ↔ x ∈ a.aret) ∧ a.aret.Nodup

/-- the tests of elements added -/
def good (m : Mesh) (sel : Option ((Nat → Bool) × Bool)) (x : Nat) : Bool := !m.hid x && test sel x

theorem inner_spec (m : Mesh) (sel : Option ((Nat → Bool) × Bool)) : ∀ (l : List Nat) (a : Acc), Synced a →
    Synced (inner m sel l a) ∧ ∀ x, x ∈ (inner m sel l a).aret ↔ x ∈ a.aret ∨ (x ∈ l ∧ good m sel x = true)
  | [], a, ha => ⟨ha, by simp [inner]⟩
  | y :: r, a, ha => by
    unfold inner
    by_cases hc : (!m.hid y && (test sel y && !a.mrk y)) = true
    · rw [if_pos hc]
      have hc' : m.hid y = false ∧ test sel y = true ∧ a.mrk y = false := by simpa using hc
      have hny : y ∉ a.aret := fun h => by have := (ha.1 y).2 h; rw [hc'.2.2] at this; cases this
      have hs : Synced ⟨a.aret ++ [y], fun z => if z = y then true else a.mrk z⟩ := by
        refine ⟨fun x => ?_, ?_⟩
        · by_cases e : x = y
          · simp [e]
          · simp [e, ha.1 x]
        · rw [List.nodup_append]
          refine ⟨ha.2, by simp, ?_⟩
          intro x hx z hz
          simp only [List.mem_singleton] at hz
          rw [hz]; intro e; exact hny (e ▸ hx)
      obtain ⟨h1, h2⟩ := inner_spec m sel r _ hs
      refine ⟨h1, fun x => ?_⟩
      rw [h2 x]
      have hg : good m sel y = true := by simp [good, hc'.1, hc'.2.1]
      constructor
      · rintro (h | h)
        · rcases List.mem_append.1 h with h | h
          · exact .inl h
          · simp only [List.mem_singleton] at h
            exact .inr ⟨by simp [h], h ▸ hg⟩
        · exact .inr ⟨by simp [h.1], h.2⟩
      · rintro (h | ⟨h, g⟩)
        · exact .inl (by simp [h])
        · rcases List.mem_cons.1 h with e | e
          · exact .inl (by simp [e])
          · exact .inr ⟨e, g⟩
    · rw [if_neg hc]
      obtain ⟨h1, h2⟩ := inner_spec m sel r a ha
      refine ⟨h1, fun x => ?_⟩
      rw [h2 x]
      constructor
      · rintro (h | h)
        · exact .inl h
        · exact .inr ⟨by simp [h.1], h.2⟩
      · rintro (h | ⟨h, g⟩)
        · exact .inl h
        · rcases List.mem_cons.1 h with e | e
          · subst e
            have hg : m.hid x = false ∧ test sel x = true := by simpa [good] using g
            simp only [hg.1, hg.2, Bool.not_false, Bool.true_and, Bool.not_eq_true'] at hc
            exact .inl ((ha.1 x).1 (by simpa using hc))
          · exact .inr ⟨e, g⟩

theorem outer_spec (m : Mesh) (body : Nat → Acc → Acc) (P : Nat → Nat → Prop)
    (hb : ∀ y a, Synced a → Synced (body y a) ∧ ∀ x, x ∈ (body y a).aret ↔ x ∈ a.aret ∨ P y x) : ∀ (l : List Nat) (a : Acc), Synced a →
    Synced (outer m body l a) ∧ ∀ x, x ∈ (outer m body l a).aret ↔ x ∈ a.aret ∨ ∃ y ∈ l, m.hid y = false ∧ P y x
  | [], a, ha => ⟨ha, by simp [outer]⟩
  | y :: r, a, ha => by
    unfold outer
    by_cases hy : m.hid y = false
    · rw [if_pos (by simp [hy])]
      obtain ⟨h1, h2⟩ := hb y a ha
      obtain ⟨h3, h4⟩ := outer_spec m body P hb r _ h1
      refine ⟨h3, fun x => ?_⟩
      rw [h4 x, h2 x, or_assoc]
      simp [hy]
    · rw [if_neg (by simpa using hy)]
      obtain ⟨h3, h4⟩ := outer_spec m body P hb r a ha
      refine ⟨h3, fun x => ?_⟩
      rw [h4 x]
      simp [hy]

theorem synced_empty : Synced ⟨[], fun _ => false⟩ := by simp [Synced]

theorem clear_spec {a : Acc} (h : Synced a) : (clear a).aret = a.aret ∧ (clear a).mrk = fun _ => false := by
  refine ⟨rfl, funext fun y => ?_⟩
  unfold clear
  by_cases hy : y ∈ a.aret
  · simp [hy]
  · have : a.mrk y = false := by
      have := mt (h.1 y).1 hy
      simpa using this
    simp [hy, this]

theorem good_iff (m : Mesh) (sel : Option ((Nat → Bool) × Bool)) (x : Nat) : good m sel x = true ↔ Visible m x ∧ Chosen sel x := by
  rw [← visible_iff, ← chosen_iff]
  simp [good]

/-- the result is the same as that of the loop without a marker, filtered -/
theorem inner_filter (m : Mesh) (sel : Option ((Nat → Bool) × Bool)) : ∀ (l : List Nat) (a b : Acc), Synced a → Synced b →
    a.aret = b.aret.filter (test sel) → (inner m sel l a).aret = (inner m none l b).aret.filter (test sel)
  | [], _, _, _, _, h => h
  | y :: r, a, b, ha, hb, h => by
    have sa := (inner_spec m sel [y] a ha).1
    have sb := (inner_spec m none [y] b hb).1
    have key : (inner m sel [y] a).aret = (inner m none [y] b).aret.filter (test sel) := by
      simp only [inner]
      by_cases hh : m.hid y = false
      · by_cases ht : test sel y = true
        · have hm : a.mrk y = b.mrk y := by
            rw [Bool.eq_iff_iff, ha.1, hb.1, h, List.mem_filter]
            simp [ht]
          cases hmy : b.mrk y
          · have hn : test none y = true := rfl
            simp [hh, ht, hn, hm, hmy, h]
          · simp [hh, ht, hm, hmy, h]
        · have ht' : test sel y = false := by simpa using ht
          have hn : test none y = true := rfl
          cases hmy : b.mrk y
          · simp [hh, ht', hn, hmy, h]
          · simp [hh, ht', hmy, h]
      · have hh' : m.hid y = true := by simpa using hh
        simp [hh', h]
    exact inner_filter m sel r _ _ sa sb key

theorem outer_filter (m : Mesh) (sel : Option ((Nat → Bool) × Bool)) (f g : Nat → Acc → Acc)
    (hs : ∀ y a b, Synced a → Synced b → a.aret = b.aret.filter (test sel) → Synced (f y a) ∧ Synced (g y b) ∧ (f y a).aret = (g y b).aret.filter (test sel)) :
    ∀ (l : List Nat) (a b : Acc), Synced a → Synced b → a.aret = b.aret.filter (test sel) →
    Synced (outer m f l a) ∧ Synced (outer m g l b) ∧ (outer m f l a).aret = (outer m g l b).aret.filter (test sel)
  | [], _, _, ha, hb, h => ⟨ha, hb, h⟩
  | y :: r, a, b, ha, hb, h => by
    unfold outer
    by_cases hy : m.hid y = false
    · rw [if_pos (by simp [hy]), if_pos (by simp [hy])]
      obtain ⟨h1, h2, h3⟩ := hs y a b ha hb h
      exact outer_filter m sel f g hs r _ _ h1 h2 h3
    · rw [if_neg (by simpa using hy), if_neg (by simpa using hy)]
      exact outer_filter m sel f g hs r a b ha hb h

/-! ## The property -/

/-- **C151**: direct connections are returned in their order, restricted to those that are not hidden and chosen. -/
theorem C151_direct (m : Mesh) (sel : Option ((Nat → Bool) × Bool)) (x y : Nat) :
    (y ∈ nodeEdges m sel x ↔ y ∈ m.high x ∧ Visible m y ∧ Chosen sel y) ∧ (nodeEdges m sel x).Sublist (m.high x) ∧
    (y ∈ edgeFaces m sel x ↔ y ∈ m.high x ∧ Visible m y ∧ Chosen sel y) ∧ (edgeFaces m sel x).Sublist (m.high x) ∧
    (y ∈ edgeNodes m sel x ↔ y ∈ m.low x ∧ Visible m y ∧ Chosen sel y) ∧ (edgeNodes m sel x).Sublist (m.low x) := by
  have key : ∀ l, y ∈ direct m sel l ↔ y ∈ l ∧ Visible m y ∧ Chosen sel y := by
    intro l
    rw [direct, List.mem_filter, ← good_iff, good, Bool.and_comm]
  exact ⟨key _, List.filter_sublist, key _, List.filter_sublist, key _, List.filter_sublist⟩

/-- **C151**: faces of a node are exactly the chosen faces over its edges, cells of an edge the chosen cells over its faces, through elements that are not hidden, each once; the private marker
is off everywhere after the call. -/
theorem C151_two_levels (m : Mesh) (sel : Option ((Nat → Bool) × Bool)) (n : Nat) :
    (∀ x, x ∈ (nodeFacesAcc m sel n fun _ => false).aret ↔ (∃ e ∈ m.high n, Visible m e ∧ x ∈ m.high e) ∧ Visible m x ∧ Chosen sel x) ∧
    (nodeFacesAcc m sel n fun _ => false).aret.Nodup ∧ (nodeFacesAcc m sel n fun _ => false).mrk = (fun _ => false) ∧
    (∀ x, x ∈ (edgeCellsAcc m sel n fun _ => false).aret ↔ (∃ f ∈ m.high n, Visible m f ∧ x ∈ m.high f) ∧ Visible m x ∧ Chosen sel x) ∧
    (edgeCellsAcc m sel n fun _ => false).aret.Nodup ∧ (edgeCellsAcc m sel n fun _ => false).mrk = (fun _ => false) := by
  obtain ⟨h1, h2⟩ := outer_spec m (fun e => inner m sel (m.high e)) (fun y x => x ∈ m.high y ∧ good m sel x = true)
    (fun y a ha => inner_spec m sel (m.high y) a ha) (m.high n) _ synced_empty
  have hm : ∀ x, x ∈ (outer m (fun e => inner m sel (m.high e)) (m.high n) ⟨[], fun _ => false⟩).aret ↔
      (∃ e ∈ m.high n, Visible m e ∧ x ∈ m.high e) ∧ Visible m x ∧ Chosen sel x := by
    intro x
    rw [h2 x]
    simp only [List.not_mem_nil, false_or, visible_iff, good_iff]
    constructor
    · rintro ⟨y, a, b, c, d⟩; exact ⟨⟨y, a, b, c⟩, d⟩
    · rintro ⟨⟨y, a, b, c⟩, d⟩; exact ⟨y, a, b, c, d⟩
  exact ⟨hm, h1.2, (clear_spec h1).2, hm, h1.2, (clear_spec h1).2⟩

/-- **C151**: without connections from nodes to cells, cells of a node are exactly the chosen cells over its faces and edges, each once; the private marker is off everywhere after the call. -/
theorem C151_cells (m : Mesh) (sel : Option ((Nat → Bool) × Bool)) (n : Nat) (hno : m.nodeCells = none) :
    (∀ x, x ∈ (nodeCellsAcc m sel n fun _ => false).aret ↔
      (∃ e ∈ m.high n, Visible m e ∧ ∃ f ∈ m.high e, Visible m f ∧ x ∈ m.high f) ∧ Visible m x ∧ Chosen sel x) ∧
    (nodeCellsAcc m sel n fun _ => false).aret.Nodup ∧ (nodeCellsAcc m sel n fun _ => false).mrk = (fun _ => false) := by
  obtain ⟨h1, h2⟩ := outer_spec m (fun e => outer m (fun f => inner m sel (m.high f)) (m.high e))
    (fun e x => ∃ f ∈ m.high e, m.hid f = false ∧ x ∈ m.high f ∧ good m sel x = true)
    (fun e a ha => outer_spec m (fun f => inner m sel (m.high f)) (fun y x => x ∈ m.high y ∧ good m sel x = true)
      (fun y a ha => inner_spec m sel (m.high y) a ha) (m.high e) a ha) (m.high n) _ synced_empty
  unfold nodeCellsAcc
  simp only [hno]
  refine ⟨fun x => ?_, h1.2, (clear_spec h1).2⟩
  rw [(clear_spec h1).1, h2 x]
  simp only [List.not_mem_nil, false_or, visible_iff, good_iff]
  constructor
  · rintro ⟨e, a, b, f, c, d, g, k⟩; exact ⟨⟨e, a, b, f, c, d, g⟩, k⟩
  · rintro ⟨⟨e, a, b, f, c, d, g⟩, k⟩; exact ⟨e, a, b, f, c, d, g, k⟩

/-- **C151**: if the connections from nodes to cells are right (each cell over faces and edges of the node once, and no cell is left visible without visible faces and edges), the answers with and
without them have the same elements. -/
theorem C151_node_cells (m : Mesh) (sel : Option ((Nat → Bool) × Bool)) (n : Nat) (lc : Nat → List Nat) (hlc : m.nodeCells = some lc) (hnd : (lc n).Nodup)
    (hright : ∀ x, Visible m x → (x ∈ lc n ↔ ∃ e ∈ m.high n, Visible m e ∧ ∃ f ∈ m.high e, Visible m f ∧ x ∈ m.high f)) :
    ((nodeCellsAcc m sel n fun _ => false).aret).Perm (nodeCellsAcc { m with nodeCells := none } sel n fun _ => false).aret := by
  obtain ⟨h1, h2, _⟩ := C151_cells { m with nodeCells := none } sel n rfl
  have e : (nodeCellsAcc m sel n fun _ => false).aret = direct m sel (lc n) := by simp [nodeCellsAcc, hlc]
  rw [e]
  refine (List.perm_ext_iff_of_nodup (hnd.filter _) h2).2 fun x => ?_
  rw [h1 x, List.mem_filter, Bool.and_comm]
  have := good_iff m sel x
  unfold good at this
  rw [this]
  constructor
  · rintro ⟨a, b, c⟩; exact ⟨(hright x b).1 a, b, c⟩
  · rintro ⟨a, b, c⟩; exact ⟨(hright x b).2 a, b, c⟩

/-- **C151**: a query with a marker gives what the query without it gives, in the same order, restricted to chosen elements; so the answers with `invert` and without it share the elements out. -/
theorem C151_filtered (m : Mesh) (sel : Option ((Nat → Bool) × Bool)) (n : Nat) (p : Nat → Bool) (hp : ∀ x, p x = true ↔ Chosen sel x) :
    nodeEdges m sel n = (nodeEdges m none n).filter p ∧ edgeNodes m sel n = (edgeNodes m none n).filter p ∧
    edgeFaces m sel n = (edgeFaces m none n).filter p ∧
    (nodeFacesAcc m sel n fun _ => false).aret = (nodeFacesAcc m none n fun _ => false).aret.filter p ∧
    (edgeCellsAcc m sel n fun _ => false).aret = (edgeCellsAcc m none n fun _ => false).aret.filter p ∧
    (nodeCellsAcc m sel n fun _ => false).aret = (nodeCellsAcc m none n fun _ => false).aret.filter p := by
  have hpt : p = test sel := by
    funext x
    rw [Bool.eq_iff_iff, hp, chosen_iff]
  subst hpt
  have hd : ∀ l, direct m sel l = (direct m none l).filter (test sel) := by
    intro l
    unfold direct
    rw [List.filter_filter]
    congr 1
  have hi : ∀ (y : Nat) (a b : Acc), Synced a → Synced b → a.aret = b.aret.filter (test sel) →
      Synced (inner m sel (m.high y) a) ∧ Synced (inner m none (m.high y) b) ∧ (inner m sel (m.high y) a).aret = (inner m none (m.high y) b).aret.filter (test sel) :=
    fun y a b ha hb h => ⟨(inner_spec m sel _ a ha).1, (inner_spec m none _ b hb).1, inner_filter m sel _ a b ha hb h⟩
  have h2 := (outer_filter m sel _ _ hi (m.high n) ⟨[], fun _ => false⟩ ⟨[], fun _ => false⟩ synced_empty synced_empty rfl).2.2
  refine ⟨hd _, hd _, hd _, h2, h2, ?_⟩
  unfold nodeCellsAcc
  cases hc : m.nodeCells with
  | some lc => exact hd _
  | none =>
    exact (outer_filter m sel (fun e => outer m (fun f => inner m sel (m.high f)) (m.high e)) (fun e => outer m (fun f => inner m none (m.high f)) (m.high e))
      (fun y a b ha hb h => outer_filter m sel (fun f => inner m sel (m.high f)) (fun f => inner m none (m.high f)) hi (m.high y) a b ha hb h)
      (m.high n) ⟨[], fun _ => false⟩ ⟨[], fun _ => false⟩ synced_empty synced_empty rfl).2.2

/-- **C151** (partial): for an edge of two visible nodes among any number of hidden ones, `getBeg` and `getEnd` are the first and the second of them, and `SwapEnds` exchanges them and leaves the
others in place. Without the hide marker the edge has two nodes. Missing: edges without visible nodes, see `C151_hidden_ends_fails`. -/
theorem C151_ends_partial (m : Mesh) (e : Nat) (l1 l2 l3 : List Nat) (a b : Nat) (hl : m.low e = l1 ++ a :: (l2 ++ b :: l3)) (ha : Visible m a) (hb : Visible m b)
    (h1 : ∀ x ∈ l1, ¬ Visible m x) (h2 : ∀ x ∈ l2, ¬ Visible m x) (h3 : ∀ x ∈ l3, ¬ Visible m x) :
    getBeg m e = .node a ∧ getEnd m e = .node b ∧ swapEnds m e = l1 ++ b :: (l2 ++ a :: l3) := by
  have hskip : ∀ (p q r : List Nat) (x : Nat), (∀ y ∈ q, m.hid y = true) → m.hid x = false → ∀ fuel, q.length < fuel →
      skip m.hid (p ++ (q ++ x :: r)) fuel p.length = p.length + q.length := by
    intro p q
    induction q generalizing p with
    | nil =>
      intro r x _ hx fuel hf
      obtain ⟨k, rfl⟩ : ∃ k, fuel = k + 1 := ⟨fuel - 1, by simp at hf; omega⟩
      simp [skip, hx]
    | cons y q ih =>
      intro r x hq hx fuel hf
      obtain ⟨k, rfl⟩ : ∃ k, fuel = k + 1 := ⟨fuel - 1, by simp at hf; omega⟩
      have hy : m.hid y = true := hq y (by simp)
      have := ih (p ++ [y]) r x (fun z hz => hq z (by simp [hz])) hx k (by simp at hf; omega)
      unfold skip
      simp only [List.cons_append, List.getElem?_append_right (Nat.le_refl _), Nat.sub_self, List.getElem?_cons_zero, hy, if_true]
      simp only [List.append_assoc, List.cons_append, List.nil_append, List.length_append, List.length_singleton] at this
      rw [this, List.length_cons]; omega
  have hid1 : ∀ x ∈ l1, m.hid x = true := fun x hx => by
    have := mt (visible_iff m x).1 (h1 x hx); simpa using this
  have hid2 : ∀ x ∈ l2, m.hid x = true := fun x hx => by
    have := mt (visible_iff m x).1 (h2 x hx); simpa using this
  have hid3 : ∀ x ∈ l3, m.hid x = true := fun x hx => by
    have := mt (visible_iff m x).1 (h3 x hx); simpa using this
  have hida := (visible_iff m a).2 ha
  have hidb := (visible_iff m b).2 hb
  have k1 : getNext m (m.low e) 0 = l1.length := by
    have := hskip [] l1 (l2 ++ b :: l3) a hid1 hida (m.low e).length (by rw [hl]; simp)
    simpa [getNext, hl] using this
  have k2 : getNext m (m.low e) (l1.length + 1) = l1.length + 1 + l2.length := by
    have := hskip (l1 ++ [a]) l2 l3 b hid2 hidb (m.low e).length (by rw [hl]; simp; omega)
    simpa [getNext, hl] using this
  have e1 : (m.low e)[l1.length]? = some a := by rw [hl]; simp
  have e2 : (m.low e)[l1.length + 1 + l2.length]? = some b := by
    have : m.low e = (l1 ++ [a] ++ l2) ++ b :: l3 := by rw [hl]; simp
    rw [this, List.getElem?_append_right (by simp; omega)]
    have z : l1.length + 1 + l2.length - (l1 ++ [a] ++ l2).length = 0 := by simp; omega
    rw [z]; rfl
  have hlen : (m.low e).length = l1.length + 1 + l2.length + 1 + l3.length := by rw [hl]; simp; omega
  have hne : (m.low e).isEmpty = false := by rw [hl]; simp
  refine ⟨?_, ?_, ?_⟩
  · unfold getBeg
    cases hh : m.hide with
    | some h =>
      simp only [hne, Bool.false_eq_true, if_false, k1, access, e1]
      rw [if_pos (by omega)]
    | none =>
      have : l1 = [] := by
        cases l1 with
        | nil => rfl
        | cons x r => exact absurd (fun h hx => by rw [hh] at hx; cases hx) (h1 x (by simp))
      subst this
      simp [hl]
  · unfold getEnd
    cases hh : m.hide with
    | some h =>
      simp only [hne, Bool.false_eq_true, if_false, k1, k2, access, e2]
      rw [if_pos (by omega)]
    | none =>
      have : l3 = [] := by
        cases l3 with
        | nil => rfl
        | cons x r => exact absurd (fun h hx => by rw [hh] at hx; cases hx) (h3 x (by simp))
      subst this
      simp only [hlen]
      rw [if_neg (by omega), hl]
      simp [List.getLast?_append, List.getLast?_cons]
  · unfold swapEnds
    have hc : ((m.low e).filter fun x => !m.hid x).length = 2 := by
      have f1 : ∀ l : List Nat, (∀ x ∈ l, m.hid x = true) → l.filter (fun x => !m.hid x) = [] := by
        intro l h
        rw [List.filter_eq_nil_iff]
        intro x hx; simp [h x hx]
      rw [hl]
      simp [List.filter_append, List.filter_cons, f1 l1 hid1, f1 l2 hid2, f1 l3 hid3, hida, hidb]
    simp only [hc, if_true, k1, k2, e1, e2]
    rw [hl]
    have s1 : (l1 ++ a :: (l2 ++ b :: l3)).set l1.length b = l1 ++ b :: (l2 ++ b :: l3) := by simp
    rw [s1]
    have s2 : l1 ++ b :: (l2 ++ b :: l3) = (l1 ++ [b] ++ l2) ++ b :: l3 := by simp
    have z : l1.length + 1 + l2.length - (l1 ++ [b] ++ l2).length = 0 := by simp; omega
    rw [s2, List.set_append_right _ _ (by simp; omega), z]
    simp

/-- If all nodes of an edge are hidden, `getEnd` reads behind the end of the array. -/
theorem C151_hidden_ends_fails (m : Mesh) (e : Nat) (a b : Nat) (hl : m.low e = [a, b]) (hh : m.hide = some fun _ => true) :
    getBeg m e = .invalid ∧ getEnd m e = .outOfRange := by
  simp [getBeg, getEnd, hl, hh, getNext, skip, access, Mesh.hid]

/-- Two edges over a node with a common face; the second face is hidden. -/
example : (nodeFacesAcc ⟨fun x => if x = 0 then [1, 2] else if x = 1 then [10, 11] else if x = 2 then [12, 10] else [], fun _ => [], none, some fun x => x == 11⟩ none 0
    fun _ => false).aret = [10, 12] := by decide

/-- Hypotheses of `C151_ends_partial` hold for an edge with a hidden node between the ends. -/
example : getEnd ⟨fun _ => [], fun _ => [4, 5, 6], none, some fun x => x == 5⟩ 0 = .node 6 :=
  (C151_ends_partial ⟨fun _ => [], fun _ => [4, 5, 6], none, some fun x => x == 5⟩ 0 [] [5] [] 4 6 rfl (by simp [Visible]) (by simp [Visible]) (by simp) (by simp [Visible]) (by simp)).2.1

end Verif.Adjacency.Typed
