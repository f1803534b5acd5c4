import Mathlib.Data.List.Nodup
import Mathlib.Data.List.Dedup
import Mathlib.Data.List.Perm.Subperm
import Mathlib.Data.Set.Image
import Mathlib.Algebra.Field.Basic
import Mathlib.Tactic.ByContra
import Mathlib.Tactic.Ring
import Mathlib.Tactic.NormNum

/-!
# Collapse of an edge (C148)

Models `Edge::CollapseEdge`, `/repo/Source/Mesh/modify.cpp` L1087-1207, with the creation of elements by `CreateEdge`, `CreateFace`, `CreateCell`
(`/repo/Source/Mesh/mesh.cpp` L1226-1301, L1328-1403, L1805-1868).

Simplifications: an element has the list of its lower elements; lists of upper elements, which the code uses to find elements, are read from it (C01, C12).
The three topology checks DUPLICATE_EDGE, DUPLICATE_FACE, DUPLICATE_CELL, which are on by default (inmost_mesh.h L126-130), are one flag; other checks are off.
Numbers stored in the tag "element_index" are the elements they stand for. Elements are taken in the order of their creation. Copies of data are not modelled
(see C145), nor hidden elements.
-/

namespace Verif.Topology.Collapse

/-- all elements of one type: those that exist, their lower elements, the next handle -/
structure Level where
  live : List Nat
  low : Nat → List Nat
  next : Nat

structure Mesh where
  nodes : List Nat
  nextNode : Nat
  edges : Level
  faces : Level
  cells : Level

/-- a value of the tag "element_index": 0, -1, or a new element -/
inductive Idx where
  | keep | drop | repl (h : Nat)

def upd {α : Type} (f : Nat → α) (h : Nat) (v : α) : Nat → α := fun x => if x = h then v else f x

/-- search for an element over all given ones, mesh.cpp L797-871 (C14), and creation, mesh.cpp L1237-1262, L1339-1362, L1816-1832 -/
def create (dup : Bool) (L : Level) (l : List Nat) : Nat × Level :=
  match if dup then L.live.find? (fun h => l.all fun x => (L.low h).contains x) else none with
  | some h => (h, L)
  | none => (L.next, ⟨L.live ++ [L.next], upd L.low L.next l, L.next + 1⟩)

/-- the replacement of lower elements, modify.cpp L1114-1115 (nodes), L1128-1137 (edges), L1157-1166 (faces) -/
def mapIdx (idx : Nat → Idx) (l : List Nat) : List Nat :=
  l.filterMap fun x => match idx x with
    | .keep => some x
    | .drop => none
    | .repl h => some h

/-- the body of the loops of modify.cpp L1111-1123, L1124-1145, L1153-1185; `ok`: is the element to be made anew -/
def step (dup : Bool) (ok : List Nat → Bool) (idxLow : Nat → Idx) (st : Level × (Nat → Idx)) (h : Nat) : Level × (Nat → Idx) :=
  let l := mapIdx idxLow (st.1.low h)
  if ok l then
    let r := create dup st.1 l
    (r.2, upd st.2 h (.repl r.1))
  else (st.1, upd st.2 h .drop)

def loop (dup : Bool) (ok : List Nat → Bool) (idxLow : Nat → Idx) (l : List Nat) (L : Level) : Level × (Nat → Idx) :=
  l.foldl (step dup ok idxLow) (L, fun _ => .keep)

/-- `getNodes` of a face, up to the order -/
def faceNodes (edges faces : Level) (f : Nat) : List Nat := ((faces.low f).flatMap edges.low).dedup

/-- modify.cpp L1116 -/
def okEdge (l : List Nat) : Bool := l[0]? != l[1]?

/-- modify.cpp L1138 -/
def okFace (l : List Nat) : Bool := decide (3 ≤ l.length)

/-- modify.cpp L1167-1176 -/
def okCell (edges faces : Level) (l : List Nat) : Bool :=
  decide (4 ≤ l.length) &&
    !(l.any fun f => (l.flatMap (faceNodes edges faces)).dedup.length == (faceNodes edges faces f).length)

/-- `Delete` of the old elements, modify.cpp L1201-1204 -/
def erase (L : Level) (t : List Nat) : Level := { L with live := L.live.filter fun h => !t.contains h }

section model
variable (dup : Bool) (m : Mesh) (A B : Nat)

/-- elements over the two nodes, modify.cpp L1105-1110 -/
def tE : List Nat := m.edges.live.filter fun e => (m.edges.low e).contains A || (m.edges.low e).contains B
def tF : List Nat := m.faces.live.filter fun f => (m.faces.low f).any fun e => (tE m A B).contains e
def tC : List Nat := m.cells.live.filter fun c => (m.cells.low c).any fun f => (tF m A B).contains f

/-- the new node for its two nodes, modify.cpp L1114-1115 -/
def idxN (x : Nat) : Idx := if x = A ∨ x = B then .repl m.nextNode else .keep

/-- the three loops, modify.cpp L1111-1123, L1124-1145, L1153-1185 -/
def rE : Level × (Nat → Idx) := loop dup okEdge (idxN m A B) (tE m A B) m.edges
def rF : Level × (Nat → Idx) := loop dup okFace (rE dup m A B).2 (tF m A B) m.faces
def rC : Level × (Nat → Idx) := loop dup (okCell (rE dup m A B).1 (rF dup m A B).1) (rF dup m A B).2 (tC m A B) m.cells

/-- `CollapseEdge` for the edge between `A` and `B`, modify.cpp L1087-1207 -/
def collapse : Mesh :=
  { nodes := (m.nodes ++ [m.nextNode]).filter fun x => !(x == A || x == B), nextNode := m.nextNode + 1,
    edges := erase (rE dup m A B).1 (tE m A B), faces := erase (rF dup m A B).1 (tF m A B), cells := erase (rC dup m A B).1 (tC m A B) }

end model

/-- a coordinate of the new node, modify.cpp L1093-1097 -/
def position {K : Type} [Field K] (half : K) (begBoundary endBoundary : Bool) (x y : K) : K :=
  let a := half
  let a := if begBoundary then a - half else a
  let a := if endBoundary then a + half else a
  (1 - a) * x + a * y

/-! ## Specification -/

section spec
variable (m : Mesh) (A B n : Nat)

/-- both ends become the new node -/
def merge (x : Nat) : Nat := if x = A ∨ x = B then n else x

/-- the nodes of an edge, the edges of a face by their nodes, the faces of a cell by their edges -/
def E (e : Nat) : Set Nat := {x | x ∈ m.edges.low e}
def F (f : Nat) : Set (Set Nat) := {s | ∃ e ∈ m.faces.low f, s = E m e}
def C (c : Nat) : Set (Set (Set Nat)) := {S | ∃ f ∈ m.cells.low c, S = F m f}

def TouchE (e : Nat) : Prop := A ∈ m.edges.low e ∨ B ∈ m.edges.low e
def TouchF (f : Nat) : Prop := ∃ e ∈ m.faces.low f, TouchE m A B e
def TouchC (c : Nat) : Prop := ∃ f ∈ m.cells.low c, TouchF m A B f

/-- an edge that becomes a point -/
def Point (e : Nat) : Prop := ∀ x ∈ m.edges.low e, x = A ∨ x = B

open Classical in
/-- a face that is away from the edge or still has three edges -/
def LivesF (f : Nat) : Prop := ¬ TouchF m A B f ∨ 3 ≤ ((m.faces.low f).filter fun e => decide (¬ Point m A B e)).length

/-- a face after the nodes are merged -/
def imgF (f : Nat) : Set (Set Nat) := {s | ∃ e ∈ m.faces.low f, ¬ Point m A B e ∧ s = merge A B n '' E m e}

def nodesOf (S : Set (Set Nat)) : Set Nat := {x | ∃ s ∈ S, x ∈ s}

/-- one of the faces has all nodes of the cell -/
def Flat (c : Nat) : Prop := ∃ f ∈ m.cells.low c, LivesF m A B f ∧
  ∀ g ∈ m.cells.low c, LivesF m A B g → nodesOf (imgF m A B n g) ⊆ nodesOf (imgF m A B n f)

open Classical in
/-- a cell that is away from the edge, or still has four faces and is not flat -/
def LivesC (c : Nat) : Prop := ¬ TouchC m A B c ∨
  (4 ≤ ((m.cells.low c).filter fun f => decide (LivesF m A B f)).length ∧ ¬ Flat m A B n c)

/-- a cell after the nodes are merged -/
def imgC (c : Nat) : Set (Set (Set Nat)) := {S | ∃ f ∈ m.cells.low c, LivesF m A B f ∧ S = imgF m A B n f}

/-- a mesh: edges between two nodes, faces and cells over elements that exist -/
structure WF : Prop where
  node : ∀ x ∈ m.nodes, x < m.nextNode
  edge : ∀ e ∈ m.edges.live, e < m.edges.next ∧ ∃ a b, m.edges.low e = [a, b] ∧ a ≠ b ∧ a ∈ m.nodes ∧ b ∈ m.nodes
  face : ∀ f ∈ m.faces.live, f < m.faces.next ∧ ∀ e ∈ m.faces.low f, e ∈ m.edges.live
  cell : ∀ c ∈ m.cells.live, c < m.cells.next ∧ ∀ f ∈ m.cells.low c, f ∈ m.faces.live
  nodupE : m.edges.live.Nodup
  nodupF : m.faces.live.Nodup
  nodupC : m.cells.live.Nodup

/-- no element is met by its collapsing part alone: true if edges of faces and faces of cells are closed -/
structure Proper : Prop where
  face : ∀ f ∈ m.faces.live, TouchF m A B f → ∃ e ∈ m.faces.low f, TouchE m A B e ∧ ¬ Point m A B e
  cell : ∀ c ∈ m.cells.live, TouchC m A B c → LivesC m A B n c → ∃ f ∈ m.cells.low c, TouchF m A B f ∧ LivesF m A B f

/-- after the nodes are merged, no face has all edges of another and more, no cell has all faces of another and more -/
structure Thin : Prop where
  face : ∀ f ∈ m.faces.live, ∀ g ∈ m.faces.live, LivesF m A B f → LivesF m A B g → imgF m A B n f ⊆ imgF m A B n g → imgF m A B n f = imgF m A B n g
  cell : ∀ c ∈ m.cells.live, ∀ d ∈ m.cells.live, LivesC m A B n c → LivesC m A B n d → imgC m A B n c ⊆ imgC m A B n d → imgC m A B n c = imgC m A B n d

end spec

/-! ## One level -/

structure LInv (dup : Bool) (ok : List Nat → Bool) (idx0 : Nat → Idx) (L0 : Level) (done : List Nat) (L : Level) (idx : Nat → Idx) : Prop where
  next : L0.next ≤ L.next
  old : ∀ h ∈ L0.live, h ∈ L.live
  low : ∀ h, h < L0.next → L.low h = L0.low h
  lt : ∀ h ∈ L.live, h < L.next
  new : ∀ h ∈ L.live, h ∈ L0.live ∨ (L0.next ≤ h ∧ ∃ g ∈ done, ok (mapIdx idx0 (L0.low g)) = true ∧ L.low h = mapIdx idx0 (L0.low g))
  made : ∀ g ∈ done, ok (mapIdx idx0 (L0.low g)) = true → ∃ h ∈ L.live, L0.next ≤ h ∧ idx g = .repl h ∧ mapIdx idx0 (L0.low g) ⊆ L.low h
  dropped : ∀ g ∈ done, ok (mapIdx idx0 (L0.low g)) = false → idx g = .drop
  kept : ∀ g, g ∉ done → idx g = .keep
  nodup : L.live.Nodup
  simple : dup = true → ∀ h ∈ L.live, ∀ h' ∈ L.live, L0.next ≤ h → L0.next ≤ h' → L.low h ⊆ L.low h' → L.low h' ⊆ L.low h → h = h'

theorem step_inv {dup : Bool} {ok : List Nat → Bool} {idx0 : Nat → Idx} {L0 : Level} {done : List Nat} {L : Level} {idx : Nat → Idx}
    (hlt0 : ∀ h ∈ L0.live, h < L0.next) (I : LInv dup ok idx0 L0 done L idx) (g : Nat) (hg : g ∈ L0.live)
    (hfresh : ok (mapIdx idx0 (L0.low g)) = true → ∃ x ∈ mapIdx idx0 (L0.low g), ∀ h ∈ L0.live, x ∉ L0.low h) :
    LInv dup ok idx0 L0 (done ++ [g]) (step dup ok idx0 (L, idx) g).1 (step dup ok idx0 (L, idx) g).2 := by
  have hlow : L.low g = L0.low g := I.low g (hlt0 g hg)
  have hkeep : ∀ {L' : Level} {v : Idx} (k : Nat), k ∉ done ++ [g] → upd idx g v k = .keep := by
    intro _ v k hk
    have h1 : k ≠ g := fun e => hk (by simp [e])
    have h2 : k ∉ done := fun e => hk (by simp [e])
    simp only [upd, h1, if_false]; exact I.kept k h2
  unfold step
  simp only [hlow]
  cases hok : ok (mapIdx idx0 (L0.low g)) with
  | false =>
    simp only [Bool.false_eq_true, if_false]
    refine ⟨I.next, I.old, I.low, I.lt, ?_, ?_, ?_, ?_, I.nodup, I.simple⟩
    · intro h hh
      rcases I.new h hh with c | ⟨c, k, hk, e⟩
      · exact .inl c
      · exact .inr ⟨c, k, by simp [hk], e⟩
    · intro k hk hok'
      rcases List.mem_append.1 hk with c | c
      · have : k ≠ g := fun e => by rw [e, hok] at hok'; cases hok'
        obtain ⟨h, h1, h2, h3, h4⟩ := I.made k c hok'
        exact ⟨h, h1, h2, by simp [upd, this, h3], h4⟩
      · rw [List.mem_singleton.1 c, hok] at hok'; cases hok'
    · intro k hk hok'
      by_cases e : k = g
      · simp [upd, e]
      · simp only [upd, e, if_false]
        exact I.dropped k (by simpa [e] using hk) hok'
    · exact fun k hk => hkeep (L' := L) k hk
  | true =>
    simp only [if_true]
    obtain ⟨x, hx, hxf⟩ := hfresh hok
    -- the element found or made
    have key : ∃ h' L', create dup L (mapIdx idx0 (L0.low g)) = (h', L') ∧ L0.next ≤ h' ∧ h' ∈ L'.live ∧
        mapIdx idx0 (L0.low g) ⊆ L'.low h' ∧
        ((L' = L) ∨ (h' = L.next ∧ L' = ⟨L.live ++ [L.next], upd L.low L.next (mapIdx idx0 (L0.low g)), L.next + 1⟩ ∧
          (dup = true → ∀ k ∈ L.live, ¬ mapIdx idx0 (L0.low g) ⊆ L.low k))) := by
      unfold create
      cases hf : (if dup then L.live.find? (fun h => (mapIdx idx0 (L0.low g)).all fun x => (L.low h).contains x) else none) with
      | none =>
        refine ⟨_, _, rfl, I.next, by simp, by simp [upd], .inr ⟨rfl, rfl, ?_⟩⟩
        intro hd k hk hsub
        rw [hd] at hf
        simp only [if_true] at hf
        have := List.find?_eq_none.1 hf k hk
        apply this
        simp only [List.all_eq_true]
        intro y hy
        simpa using hsub hy
      | some h =>
        have hd : dup = true := by cases dup with | true => rfl | false => simp at hf
        rw [hd] at hf
        simp only [if_true] at hf
        have hmem := List.mem_of_find?_eq_some hf
        have hall := List.find?_some hf
        have hsub : mapIdx idx0 (L0.low g) ⊆ L.low h := by
          intro y hy
          have := List.all_eq_true.1 hall y hy
          simpa using this
        refine ⟨h, L, rfl, ?_, hmem, hsub, .inl rfl⟩
        rcases I.new h hmem with c | ⟨c, _⟩
        · exact absurd (hsub hx) (by rw [I.low h (hlt0 h c)]; exact hxf h c)
        · exact c
    obtain ⟨h', L', hc, hn, hmem, hsub, hcase⟩ := key
    rw [hc]
    rcases hcase with e | ⟨e1, e2, hnone⟩
    · subst e
      refine ⟨I.next, I.old, I.low, I.lt, ?_, ?_, ?_, fun k hk => hkeep (L' := L') k hk, I.nodup, I.simple⟩
      · intro h hh
        rcases I.new h hh with c | ⟨c, k, hk, e⟩
        · exact .inl c
        · exact .inr ⟨c, k, by simp [hk], e⟩
      · intro k hk hok'
        by_cases e : k = g
        · subst e; exact ⟨h', hmem, hn, by simp [upd], hsub⟩
        · obtain ⟨h, h1, h2, h3, h4⟩ := I.made k (by simpa [e] using hk) hok'
          exact ⟨h, h1, h2, by simp [upd, e, h3], h4⟩
      · intro k hk hok'
        by_cases e : k = g
        · rw [e, hok] at hok'; cases hok'
        · simp only [upd, e, if_false]; exact I.dropped k (by simpa [e] using hk) hok'
    · subst e1 e2
      have hnew : ∀ k ∈ L.live, k ≠ L.next := fun k hk e => by have := I.lt k hk; omega
      refine ⟨?_, ?_, ?_, ?_, ?_, ?_, ?_, fun k hk => hkeep (L' := L) k hk, ?_, ?_⟩
      · have := I.next; simp only; omega
      · intro h hh; simp [I.old h hh]
      · intro h hh
        have : h ≠ L.next := by omega
        simp only [upd, this, if_false]; exact I.low h hh
      · intro h hh
        simp only [List.mem_append, List.mem_singleton] at hh
        rcases hh with c | c
        · have := I.lt h c; simp only; omega
        · simp only; omega
      · intro h hh
        simp only [List.mem_append, List.mem_singleton] at hh
        rcases hh with c | c
        · rcases I.new h c with c' | ⟨c', k, hk, e, e'⟩
          · exact .inl c'
          · exact .inr ⟨c', k, by simp [hk], e, by simp [upd, hnew h c, e']⟩
        · exact .inr ⟨c ▸ hn, g, by simp, hok, by simp [upd, c]⟩
      · intro k hk hok'
        by_cases e : k = g
        · subst e; exact ⟨L.next, hmem, hn, by simp [upd], hsub⟩
        · obtain ⟨h, h1, h2, h3, h4⟩ := I.made k (by simpa [e] using hk) hok'
          exact ⟨h, by simp [h1], h2, by simp [upd, e, h3], by simpa [upd, hnew h h1] using h4⟩
      · intro k hk hok'
        by_cases e : k = g
        · rw [e, hok] at hok'; cases hok'
        · simp only [upd, e, if_false]; exact I.dropped k (by simpa [e] using hk) hok'
      · simp only
        rw [List.nodup_append]
        refine ⟨I.nodup, by simp, ?_⟩
        intro a ha b hb
        rw [List.mem_singleton.1 hb]
        exact hnew a ha
      · intro hd h hh k hk h1 h2 s1 s2
        simp only [List.mem_append, List.mem_singleton] at hh hk
        rcases hh with c | c <;> rcases hk with c' | c'
        · simp only [upd, hnew h c, hnew k c', if_false] at s1 s2
          exact I.simple hd h c k c' h1 h2 s1 s2
        · subst c'
          simp only [upd, hnew h c, if_false, if_true] at s2
          exact absurd s2 (hnone hd h c)
        · subst c
          simp only [upd, hnew k c', if_false, if_true] at s1
          exact absurd s1 (hnone hd k c')
        · rw [c, c']

theorem foldl_inv {dup : Bool} {ok : List Nat → Bool} {idx0 : Nat → Idx} {L0 : Level} (hlt0 : ∀ h ∈ L0.live, h < L0.next) :
    ∀ (T done : List Nat) (L : Level) (idx : Nat → Idx), LInv dup ok idx0 L0 done L idx → (∀ g ∈ T, g ∈ L0.live) →
    (∀ g ∈ T, ok (mapIdx idx0 (L0.low g)) = true → ∃ x ∈ mapIdx idx0 (L0.low g), ∀ h ∈ L0.live, x ∉ L0.low h) →
    LInv dup ok idx0 L0 (done ++ T) (T.foldl (step dup ok idx0) (L, idx)).1 (T.foldl (step dup ok idx0) (L, idx)).2
  | [], done, L, idx, I, _, _ => by simpa using I
  | g :: T, done, L, idx, I, h1, h2 => by
    have I1 := step_inv hlt0 I g (h1 g (by simp)) (h2 g (by simp))
    have := foldl_inv hlt0 T (done ++ [g]) _ _ I1 (fun k hk => h1 k (by simp [hk])) (fun k hk => h2 k (by simp [hk]))
    simpa using this

theorem loop_inv {dup : Bool} {ok : List Nat → Bool} {idx0 : Nat → Idx} {L0 : Level} (hlt0 : ∀ h ∈ L0.live, h < L0.next) (hnd : L0.live.Nodup)
    (T : List Nat) (h1 : ∀ g ∈ T, g ∈ L0.live)
    (h2 : ∀ g ∈ T, ok (mapIdx idx0 (L0.low g)) = true → ∃ x ∈ mapIdx idx0 (L0.low g), ∀ h ∈ L0.live, x ∉ L0.low h) :
    LInv dup ok idx0 L0 T (loop dup ok idx0 T L0).1 (loop dup ok idx0 T L0).2 := by
  have I : LInv dup ok idx0 L0 [] L0 (fun _ => .keep) :=
    ⟨Nat.le_refl _, fun _ h => h, fun _ _ => rfl, hlt0, fun _ h => .inl h, fun _ h => by simp at h, fun _ h => by simp at h, fun _ _ => rfl, hnd,
      fun _ h hh _ _ h1 => absurd (hlt0 h hh) (by omega)⟩
  have := foldl_inv hlt0 T [] L0 _ I h1 h2
  rw [List.nil_append] at this
  exact this

/-! ## The mesh -/

theorem mem_mapIdx {idx : Nat → Idx} {l : List Nat} {x : Nat} :
    x ∈ mapIdx idx l ↔ ∃ y ∈ l, (idx y = .keep ∧ x = y) ∨ idx y = .repl x := by
  unfold mapIdx
  rw [List.mem_filterMap]
  refine exists_congr fun y => and_congr_right fun _ => ?_
  cases idx y with
  | keep => simp [eq_comm]
  | drop => simp
  | repl h => simp

theorem length_mapIdx {idx : Nat → Idx} (p : Nat → Bool) : ∀ l : List Nat, (∀ y ∈ l, p y = true ↔ idx y ≠ .drop) →
    (mapIdx idx l).length = (l.filter p).length
  | [], _ => rfl
  | y :: r, h => by
    have ih := length_mapIdx p r fun z hz => h z (by simp [hz])
    unfold mapIdx at ih ⊢
    have hy := h y (by simp)
    cases hi : idx y with
    | keep => rw [List.filterMap_cons, hi, List.filter_cons, if_pos (hy.2 (by simp [hi]))]; simp [ih]
    | drop => rw [List.filterMap_cons, hi, List.filter_cons, if_neg (fun e => (hy.1 e) hi)]; simp [ih]
    | repl k => rw [List.filterMap_cons, hi, List.filter_cons, if_pos (hy.2 (by simp [hi]))]; simp [ih]

section mesh
variable {dup : Bool} {m : Mesh} {A B : Nat}

theorem mem_tE {e : Nat} : e ∈ tE m A B ↔ e ∈ m.edges.live ∧ TouchE m A B e := by simp [tE, TouchE]

theorem mem_tF (W : WF m) {f : Nat} : f ∈ tF m A B ↔ f ∈ m.faces.live ∧ TouchF m A B f := by
  simp only [tF, List.mem_filter, List.any_eq_true, List.contains_iff_mem, mem_tE, TouchF]
  refine and_congr_right fun hf => exists_congr fun e => and_congr_right fun he => ?_
  simp [(W.face f hf).2 e he]

theorem mem_tC (W : WF m) {c : Nat} : c ∈ tC m A B ↔ c ∈ m.cells.live ∧ TouchC m A B c := by
  simp only [tC, List.mem_filter, List.any_eq_true, List.contains_iff_mem, mem_tF W, TouchC]
  refine and_congr_right fun hf => exists_congr fun e => and_congr_right fun he => ?_
  simp [(W.cell c hf).2 e he]

theorem mapIdx_nodes (l : List Nat) : mapIdx (idxN m A B) l = l.map (merge A B m.nextNode) := by
  unfold mapIdx
  rw [← List.filterMap_eq_map]
  congr 1
  funext x
  by_cases h : x = A ∨ x = B <;> simp [idxN, merge, h]

theorem okEdge_iff (W : WF m) {e : Nat} (he : e ∈ m.edges.live) :
    okEdge (mapIdx (idxN m A B) (m.edges.low e)) = true ↔ ¬ Point m A B e := by
  obtain ⟨_, a, b, hl, hab, ha, hb⟩ := W.edge e he
  have ha := W.node a ha
  have hb := W.node b hb
  rw [mapIdx_nodes, hl]
  simp only [okEdge, Point, hl, List.map_cons, List.map_nil]
  by_cases h1 : a = A ∨ a = B <;> by_cases h2 : b = A ∨ b = B <;> simp [merge, h1, h2] <;> omega

theorem fresh_node (W : WF m) {e : Nat} (he : TouchE m A B e) :
    ∃ x ∈ mapIdx (idxN m A B) (m.edges.low e), ∀ h ∈ m.edges.live, x ∉ m.edges.low h := by
  refine ⟨m.nextNode, ?_, ?_⟩
  · rw [mem_mapIdx]
    rcases he with h | h
    · exact ⟨A, h, .inr (by simp [idxN])⟩
    · exact ⟨B, h, .inr (by simp [idxN])⟩
  · intro h hh hx
    obtain ⟨_, a, b, hl, _, ha, hb⟩ := W.edge h hh
    have ha := W.node a ha
    have hb := W.node b hb
    rw [hl] at hx
    simp at hx
    omega

theorem invE (W : WF m) : LInv dup okEdge (idxN m A B) m.edges (tE m A B) (rE dup m A B).1 (rE dup m A B).2 :=
  loop_inv (fun h hh => (W.edge h hh).1) W.nodupE _ (fun _ hg => (mem_tE.1 hg).1) fun _ hg _ => fresh_node W (mem_tE.1 hg).2

theorem E_collapse (h : Nat) : E (collapse dup m A B) h = {x | x ∈ (rE dup m A B).1.low h} := rfl

theorem merge_E (W : WF m) {e : Nat} (he : ¬ TouchE m A B e) : merge A B m.nextNode '' E m e = E m e := by
  have : ∀ x ∈ E m e, merge A B m.nextNode x = x := by
    intro x hx
    have : ¬ (x = A ∨ x = B) := by
      rintro (c | c)
      · exact he (.inl (c ▸ hx))
      · exact he (.inr (c ▸ hx))
    simp [merge, this]
  ext x
  constructor
  · rintro ⟨y, hy, rfl⟩; rw [this y hy]; exact hy
  · intro hx; exact ⟨x, hx, this x hx⟩

theorem liveE (W : WF m) {h : Nat} : h ∈ (collapse dup m A B).edges.live ↔ h ∈ (rE dup m A B).1.live ∧ (m.edges.next ≤ h ∨ ¬ TouchE m A B h) := by
  have I := invE (dup := dup) (A := A) (B := B) W
  simp only [collapse, erase, List.mem_filter]
  refine and_congr_right fun hh => ?_
  simp only [Bool.not_eq_true', List.contains_eq_mem, decide_eq_false_iff_not, mem_tE]
  rcases I.new h hh with c | ⟨c, _⟩
  · have := (W.edge h c).1
    have h2 : ¬ m.edges.next ≤ h := by omega
    simp [c, h2]
  · have : h ∉ m.edges.live := fun e => by have := (W.edge h e).1; omega
    simp [c, this]

theorem E_new (W : WF m) {e : Nat} (he : e ∈ m.edges.live) :
    (Point m A B e ∧ (rE dup m A B).2 e = .drop) ∨
    (¬ Point m A B e ∧ ¬ TouchE m A B e ∧ (rE dup m A B).2 e = .keep ∧ e ∈ (collapse dup m A B).edges.live ∧
      E (collapse dup m A B) e = merge A B m.nextNode '' E m e) ∨
    (¬ Point m A B e ∧ TouchE m A B e ∧ ∃ h ∈ (collapse dup m A B).edges.live, m.edges.next ≤ h ∧ (rE dup m A B).2 e = .repl h ∧
      E (collapse dup m A B) h = merge A B m.nextNode '' E m e) := by
  have I := invE (dup := dup) (A := A) (B := B) W
  by_cases ht : TouchE m A B e
  · by_cases hp : Point m A B e
    · refine .inl ⟨hp, I.dropped e (mem_tE.2 ⟨he, ht⟩) ?_⟩
      rw [← Bool.not_eq_true, okEdge_iff W he]; exact fun h => h hp
    · obtain ⟨h, h1, h2, h3, h4⟩ := I.made e (mem_tE.2 ⟨he, ht⟩) ((okEdge_iff W he).2 hp)
      refine .inr (.inr ⟨hp, ht, h, (liveE W).2 ⟨h1, .inl h2⟩, h2, h3, ?_⟩)
      rw [E_collapse]
      have himg : merge A B m.nextNode '' E m e = {x | x ∈ mapIdx (idxN m A B) (m.edges.low e)} := by
        rw [mapIdx_nodes]; ext x; simp [E]
      rw [himg]
      have hok := (okEdge_iff W he).2 hp
      rcases I.new h h1 with c | ⟨_, g, hg, hgok, hgl⟩
      · have := (W.edge h c).1; omega
      · rw [hgl] at h4 ⊢
        obtain ⟨_, a, b, hl, _, _, _⟩ := W.edge e he
        obtain ⟨_, a', b', hl', _, _, _⟩ := W.edge g (mem_tE.1 hg).1
        rw [mapIdx_nodes, mapIdx_nodes, hl, hl'] at h4 ⊢
        rw [mapIdx_nodes, hl] at hok
        simp only [List.map_cons, List.map_nil, okEdge] at h4 hok ⊢
        generalize merge A B m.nextNode a = p at *
        generalize merge A B m.nextNode b = q at *
        generalize merge A B m.nextNode a' = p' at *
        generalize merge A B m.nextNode b' = q' at *
        have hpq : p ≠ q := by simpa using hok
        have k1 := h4 (a := p) (by simp)
        have k2 := h4 (a := q) (by simp)
        simp only [List.mem_cons, List.not_mem_nil, or_false] at k1 k2
        ext x
        simp only [List.mem_cons, List.not_mem_nil, or_false, Set.mem_setOf_eq]
        omega
  · have hp : ¬ Point m A B e := by
      obtain ⟨_, a, b, hl, _⟩ := W.edge e he
      intro h
      have := h a (by simp [hl])
      rcases this with c | c
      · exact ht (.inl (by simp [hl, c]))
      · exact ht (.inr (by simp [hl, c]))
    refine .inr (.inl ⟨hp, ht, I.kept e (fun h => ht (mem_tE.1 h).2), (liveE W).2 ⟨I.old e he, .inr ht⟩, ?_⟩)
    rw [merge_E W ht, E_collapse, I.low e (W.edge e he).1]
    rfl

theorem E_back (W : WF m) {h : Nat} (hh : h ∈ (collapse dup m A B).edges.live) :
    ∃ e ∈ m.edges.live, ¬ Point m A B e ∧ E (collapse dup m A B) h = merge A B m.nextNode '' E m e := by
  have I := invE (dup := dup) (A := A) (B := B) W
  obtain ⟨h1, h2⟩ := (liveE W).1 hh
  rcases I.new h h1 with c | ⟨c, g, hg, hgok, hgl⟩
  · rcases h2 with h2 | h2
    · have := (W.edge h c).1; omega
    · rcases E_new (dup := dup) (A := A) (B := B) W c with ⟨hp, e⟩ | ⟨hp, _, _, _, e⟩ | ⟨_, ht, _⟩
      · rw [I.kept h (fun e => h2 (mem_tE.1 e).2)] at e; cases e
      · exact ⟨h, c, hp, e⟩
      · exact absurd ht h2
  · refine ⟨g, (mem_tE.1 hg).1, (okEdge_iff W (mem_tE.1 hg).1).1 hgok, ?_⟩
    rw [E_collapse, hgl, mapIdx_nodes]
    ext x; simp [E]

/-! ### Faces -/

open Classical in
theorem okFace_iff (W : WF m) {f : Nat} (hf : f ∈ m.faces.live) : okFace (mapIdx (rE dup m A B).2 (m.faces.low f)) = true ↔
    3 ≤ ((m.faces.low f).filter fun e => decide (¬ Point m A B e)).length := by
  unfold okFace
  rw [decide_eq_true_iff, length_mapIdx (fun e => decide (¬ Point m A B e))]
  intro e he
  rcases E_new (dup := dup) (A := A) (B := B) W ((W.face f hf).2 e he) with ⟨hp, e⟩ | ⟨hp, _, e, _⟩ | ⟨hp, _, h, _, _, e, _⟩ <;> simp [hp, e]

/-- edges of a face after the replacement -/
theorem face_edges (W : WF m) {f : Nat} (hf : f ∈ m.faces.live) :
    (∀ x ∈ mapIdx (rE dup m A B).2 (m.faces.low f), x ∈ (collapse dup m A B).edges.live) ∧
    {s | ∃ x ∈ mapIdx (rE dup m A B).2 (m.faces.low f), s = E (collapse dup m A B) x} = imgF m A B m.nextNode f := by
  refine ⟨fun x hx => ?_, ?_⟩
  · obtain ⟨e, he, hc⟩ := mem_mapIdx.1 hx
    rcases E_new (dup := dup) (A := A) (B := B) W ((W.face f hf).2 e he) with ⟨_, e1⟩ | ⟨_, _, e1, e2, _⟩ | ⟨_, _, h, e2, _, e1, _⟩
    · rw [e1] at hc; simp at hc
    · rw [e1] at hc; simp at hc; exact hc ▸ e2
    · rw [e1] at hc; simp at hc; exact hc ▸ e2
  · ext s
    simp only [Set.mem_setOf_eq, imgF]
    constructor
    · rintro ⟨x, hx, rfl⟩
      obtain ⟨e, he, hc⟩ := mem_mapIdx.1 hx
      rcases E_new (dup := dup) (A := A) (B := B) W ((W.face f hf).2 e he) with ⟨_, e1⟩ | ⟨hp, _, e1, e2, e3⟩ | ⟨hp, _, h, e2, _, e1, e3⟩
      · rw [e1] at hc; simp at hc
      · rw [e1] at hc; simp at hc; exact ⟨e, he, hp, hc ▸ e3⟩
      · rw [e1] at hc; simp at hc; exact ⟨e, he, hp, hc ▸ e3⟩
    · rintro ⟨e, he, hp, rfl⟩
      rcases E_new (dup := dup) (A := A) (B := B) W ((W.face f hf).2 e he) with ⟨hp', _⟩ | ⟨_, _, e1, e2, e3⟩ | ⟨_, _, h, e2, _, e1, e3⟩
      · exact absurd hp' hp
      · exact ⟨e, mem_mapIdx.2 ⟨e, he, .inl ⟨e1, rfl⟩⟩, e3.symm⟩
      · exact ⟨h, mem_mapIdx.2 ⟨e, he, .inr e1⟩, e3.symm⟩

theorem invF (W : WF m) (P : Proper m A B m.nextNode) :
    LInv dup okFace (rE dup m A B).2 m.faces (tF m A B) (rF dup m A B).1 (rF dup m A B).2 := by
  refine loop_inv (fun h hh => (W.face h hh).1) W.nodupF _ (fun _ hg => ((mem_tF W).1 hg).1) fun g hg _ => ?_
  obtain ⟨hl, ht⟩ := (mem_tF W).1 hg
  obtain ⟨e, he, hte, hp⟩ := P.face g hl ht
  rcases E_new (dup := dup) (A := A) (B := B) W ((W.face g hl).2 e he) with ⟨hp', _⟩ | ⟨_, ht', _⟩ | ⟨_, _, h, e2, e4, e1, e3⟩
  · exact absurd hp' hp
  · exact absurd hte ht'
  · refine ⟨h, mem_mapIdx.2 ⟨e, he, .inr e1⟩, fun k hk hx => ?_⟩
    have := (W.edge h ((W.face k hk).2 h hx)).1
    omega

theorem liveF (W : WF m) (P : Proper m A B m.nextNode) {h : Nat} : h ∈ (collapse dup m A B).faces.live ↔
    h ∈ (rF dup m A B).1.live ∧ (m.faces.next ≤ h ∨ ¬ TouchF m A B h) := by
  have I := invF (dup := dup) W P
  simp only [collapse, erase, List.mem_filter]
  refine and_congr_right fun hh => ?_
  simp only [Bool.not_eq_true', List.contains_eq_mem, decide_eq_false_iff_not, mem_tF W]
  rcases I.new h hh with c | ⟨c, _⟩
  · have := (W.face h c).1
    have h2 : ¬ m.faces.next ≤ h := by omega
    simp [c, h2]
  · have : h ∉ m.faces.live := fun e => by have := (W.face h e).1; omega
    simp [c, this]

theorem F_collapse (h : Nat) : F (collapse dup m A B) h = {s | ∃ e ∈ (rF dup m A B).1.low h, s = E (collapse dup m A B) e} := rfl

/-- a face away from the edge -/
theorem F_untouched (W : WF m) (P : Proper m A B m.nextNode) {f : Nat} (hf : f ∈ m.faces.live) (ht : ¬ TouchF m A B f) :
    (collapse dup m A B).faces.low f = m.faces.low f ∧ F (collapse dup m A B) f = imgF m A B m.nextNode f := by
  have I := invF (dup := dup) W P
  have hl := I.low f (W.face f hf).1
  refine ⟨hl, ?_⟩
  rw [F_collapse, hl, ← (face_edges (dup := dup) W hf).2]
  have : mapIdx (rE dup m A B).2 (m.faces.low f) = m.faces.low f := by
    unfold mapIdx
    conv_rhs => rw [← List.filterMap_some (l := m.faces.low f)]
    apply List.filterMap_congr
    intro e he
    rw [(invE (dup := dup) W).kept e (fun h => ht ⟨e, he, (mem_tE.1 h).2⟩)]
  rw [this]

/-- the faces that come from a face -/
theorem F_new (W : WF m) (P : Proper m A B m.nextNode) {f : Nat} (hf : f ∈ m.faces.live) :
    (¬ LivesF m A B f ∧ (rF dup m A B).2 f = .drop) ∨
    (LivesF m A B f ∧ ¬ TouchF m A B f ∧ (rF dup m A B).2 f = .keep ∧ f ∈ (collapse dup m A B).faces.live ∧
      F (collapse dup m A B) f = imgF m A B m.nextNode f) ∨
    (LivesF m A B f ∧ TouchF m A B f ∧ ∃ h ∈ (collapse dup m A B).faces.live, m.faces.next ≤ h ∧ (rF dup m A B).2 f = .repl h ∧
      imgF m A B m.nextNode f ⊆ F (collapse dup m A B) h) := by
  have I := invF (dup := dup) W P
  by_cases ht : TouchF m A B f
  · by_cases hl : LivesF m A B f
    · have hok := (okFace_iff (dup := dup) (A := A) (B := B) W hf).2 (hl.resolve_left fun h => h ht)
      obtain ⟨h, h1, h2, h3, h4⟩ := I.made f ((mem_tF W).2 ⟨hf, ht⟩) hok
      refine .inr (.inr ⟨hl, ht, h, (liveF W P).2 ⟨h1, .inl h2⟩, h2, h3, ?_⟩)
      rw [← (face_edges (dup := dup) W hf).2, F_collapse]
      rintro s ⟨x, hx, rfl⟩
      exact ⟨x, h4 hx, rfl⟩
    · refine .inl ⟨hl, I.dropped f ((mem_tF W).2 ⟨hf, ht⟩) ?_⟩
      rw [← Bool.not_eq_true, okFace_iff W hf]
      exact fun h => hl (.inr h)
  · exact .inr (.inl ⟨.inl ht, ht, I.kept f (fun h => ht ((mem_tF W).1 h).2), (liveF W P).2 ⟨I.old f hf, .inr ht⟩, (F_untouched W P hf ht).2⟩)

theorem F_back (W : WF m) (P : Proper m A B m.nextNode) {h : Nat} (hh : h ∈ (collapse dup m A B).faces.live) :
    (∃ f ∈ m.faces.live, LivesF m A B f ∧ F (collapse dup m A B) h = imgF m A B m.nextNode f) ∧
    ∀ e ∈ (collapse dup m A B).faces.low h, e ∈ (collapse dup m A B).edges.live := by
  have I := invF (dup := dup) W P
  obtain ⟨h1, h2⟩ := (liveF W P).1 hh
  rcases I.new h h1 with c | ⟨c, g, hg, hgok, hgl⟩
  · have ht : ¬ TouchF m A B h := h2.resolve_left (by have := (W.face h c).1; omega)
    obtain ⟨k1, k2⟩ := F_untouched (dup := dup) W P c ht
    refine ⟨⟨h, c, .inl ht, k2⟩, ?_⟩
    rw [k1]
    intro e he
    exact (liveE W).2 ⟨(invE (dup := dup) W).old e ((W.face h c).2 e he), .inr fun hte => ht ⟨e, he, hte⟩⟩
  · obtain ⟨gl, gt⟩ := (mem_tF W).1 hg
    refine ⟨⟨g, gl, .inr ((okFace_iff (dup := dup) W gl).1 hgok), ?_⟩, ?_⟩
    · rw [F_collapse, hgl, (face_edges (dup := dup) W gl).2]
    · intro e he
      exact (face_edges (dup := dup) W gl).1 e (by rw [← hgl]; exact he)

/-- no face has all edges of another and more: then the face found is the one sought -/
theorem F_exact (W : WF m) (P : Proper m A B m.nextNode) (T : Thin m A B m.nextNode) {f h : Nat} (hf : f ∈ m.faces.live) (hl : LivesF m A B f)
    (hh : h ∈ (collapse dup m A B).faces.live) (hs : imgF m A B m.nextNode f ⊆ F (collapse dup m A B) h) :
    F (collapse dup m A B) h = imgF m A B m.nextNode f := by
  obtain ⟨⟨g, gl, gL, ge⟩, _⟩ := F_back W P hh
  rw [ge] at hs ⊢
  exact (T.face f hf g gl hl gL hs).symm

/-! ### Cells -/

open Classical in
theorem cell_faces (W : WF m) (P : Proper m A B m.nextNode) (T : Thin m A B m.nextNode) {c : Nat} (hc : c ∈ m.cells.live) :
    (∀ x ∈ mapIdx (rF dup m A B).2 (m.cells.low c), x ∈ (collapse dup m A B).faces.live) ∧
    {S | ∃ x ∈ mapIdx (rF dup m A B).2 (m.cells.low c), S = F (collapse dup m A B) x} = imgC m A B m.nextNode c ∧
    (mapIdx (rF dup m A B).2 (m.cells.low c)).length = ((m.cells.low c).filter fun f => decide (LivesF m A B f)).length := by
  have key : ∀ f ∈ m.cells.low c, (¬ LivesF m A B f ∧ (rF dup m A B).2 f = .drop) ∨
      (LivesF m A B f ∧ ∃ h ∈ (collapse dup m A B).faces.live, F (collapse dup m A B) h = imgF m A B m.nextNode f ∧
        (((rF dup m A B).2 f = .keep ∧ h = f) ∨ (rF dup m A B).2 f = .repl h)) := by
    intro f hf
    have hfl := (W.cell c hc).2 f hf
    rcases F_new (dup := dup) W P hfl with h | ⟨h1, h2, h3, h4, h5⟩ | ⟨h1, h2, h, h3, _, h4, h5⟩
    · exact .inl h
    · exact .inr ⟨h1, f, h4, h5, .inl ⟨h3, rfl⟩⟩
    · exact .inr ⟨h1, h, h3, F_exact W P T hfl h1 h3 h5, .inr h4⟩
  refine ⟨fun x hx => ?_, ?_, ?_⟩
  · obtain ⟨f, hf, hx⟩ := mem_mapIdx.1 hx
    rcases key f hf with ⟨_, e⟩ | ⟨_, h, h1, _, ⟨e, e'⟩ | e⟩
    · rw [e] at hx; simp at hx
    · rw [e] at hx; simp at hx; rw [hx, ← e']; exact h1
    · rw [e] at hx; simp at hx; rw [← hx]; exact h1
  · ext S
    simp only [Set.mem_setOf_eq, imgC]
    constructor
    · rintro ⟨x, hx, rfl⟩
      obtain ⟨f, hf, hx⟩ := mem_mapIdx.1 hx
      rcases key f hf with ⟨_, e⟩ | ⟨hl, h, _, hF, ⟨e, e'⟩ | e⟩
      · rw [e] at hx; simp at hx
      · rw [e] at hx; simp at hx; exact ⟨f, hf, hl, by rw [hx, ← e', hF, e']⟩
      · rw [e] at hx; simp at hx; exact ⟨f, hf, hl, by rw [← hx, hF]⟩
    · rintro ⟨f, hf, hl, rfl⟩
      rcases key f hf with ⟨hn, e⟩ | ⟨hl, h, _, hF, ⟨e, e'⟩ | e⟩
      · exact absurd hl hn
      · exact ⟨h, mem_mapIdx.2 ⟨f, hf, .inl ⟨e, e'⟩⟩, hF.symm⟩
      · exact ⟨h, mem_mapIdx.2 ⟨f, hf, .inr e⟩, hF.symm⟩
  · apply length_mapIdx
    intro f hf
    rcases key f hf with ⟨hn, e⟩ | ⟨hl, h, _, hF, ⟨e, e'⟩ | e⟩
    · simp [hn, e]
    · simp [hl, e]
    · simp [hl, e]

theorem mem_faceNodes {x f : Nat} : x ∈ faceNodes (rE dup m A B).1 (rF dup m A B).1 f ↔ x ∈ nodesOf (F (collapse dup m A B) f) := by
  simp only [faceNodes, List.mem_dedup, List.mem_flatMap, nodesOf, F_collapse, Set.mem_setOf_eq]
  constructor
  · rintro ⟨e, he, hx⟩
    exact ⟨_, ⟨e, he, rfl⟩, hx⟩
  · rintro ⟨s, ⟨e, he, rfl⟩, hx⟩
    exact ⟨e, he, hx⟩

open Classical in
theorem okCell_iff (W : WF m) (P : Proper m A B m.nextNode) (T : Thin m A B m.nextNode) {c : Nat} (hc : c ∈ m.cells.live) :
    okCell (rE dup m A B).1 (rF dup m A B).1 (mapIdx (rF dup m A B).2 (m.cells.low c)) = true ↔
    4 ≤ ((m.cells.low c).filter fun f => decide (LivesF m A B f)).length ∧ ¬ Flat m A B m.nextNode c := by
  obtain ⟨_, k2, k3⟩ := cell_faces (dup := dup) W P T hc
  unfold okCell
  rw [Bool.and_eq_true, decide_eq_true_iff, k3]
  refine and_congr_right fun _ => ?_
  rw [Bool.not_eq_true', ← Bool.not_eq_true, not_iff_not, List.any_eq_true]
  generalize hl : mapIdx (rF dup m A B).2 (m.cells.low c) = l at *
  -- membership by faces of the cell
  have toF : ∀ f ∈ m.cells.low c, LivesF m A B f → ∃ x ∈ l, F (collapse dup m A B) x = imgF m A B m.nextNode f := by
    intro f hf hL
    have : imgF m A B m.nextNode f ∈ imgC m A B m.nextNode c := ⟨f, hf, hL, rfl⟩
    rw [← k2] at this
    obtain ⟨x, hx, e⟩ := this
    exact ⟨x, hx, e.symm⟩
  have ofF : ∀ x ∈ l, ∃ f ∈ m.cells.low c, LivesF m A B f ∧ F (collapse dup m A B) x = imgF m A B m.nextNode f := by
    intro x hx
    have : F (collapse dup m A B) x ∈ imgC m A B m.nextNode c := by rw [← k2]; exact ⟨x, hx, rfl⟩
    exact this
  have hsub : ∀ x ∈ l, (faceNodes (rE dup m A B).1 (rF dup m A B).1 x) ⊆ (l.flatMap (faceNodes (rE dup m A B).1 (rF dup m A B).1)).dedup := by
    intro x hx y hy
    exact List.mem_dedup.2 (List.mem_flatMap.2 ⟨x, hx, hy⟩)
  constructor
  · rintro ⟨x, hx, he⟩
    have he := eq_of_beq he
    obtain ⟨f, hf, hL, hF⟩ := ofF x hx
    refine ⟨f, hf, hL, fun g hg hgL y hy => ?_⟩
    obtain ⟨z, hz, hzF⟩ := toF g hg hgL
    have hp := (List.subperm_of_subset (List.nodup_dedup _) (hsub x hx)).perm_of_length_le (Nat.le_of_eq he)
    rw [← hF, ← mem_faceNodes]
    apply hp.mem_iff.2
    apply hsub z hz
    rw [mem_faceNodes, hzF]
    exact hy
  · rintro ⟨f, hf, hL, hall⟩
    obtain ⟨x, hx, hF⟩ := toF f hf hL
    refine ⟨x, hx, beq_iff_eq.2 ?_⟩
    have h2 : (l.flatMap (faceNodes (rE dup m A B).1 (rF dup m A B).1)).dedup ⊆ faceNodes (rE dup m A B).1 (rF dup m A B).1 x := by
      intro y hy
      obtain ⟨z, hz, hyz⟩ := List.mem_flatMap.1 (List.mem_dedup.1 hy)
      obtain ⟨g, hg, hgL, hgF⟩ := ofF z hz
      rw [mem_faceNodes, hgF] at hyz
      rw [mem_faceNodes, hF]
      exact hall g hg hgL hyz
    exact Nat.le_antisymm (List.subperm_of_subset (List.nodup_dedup _) h2).length_le
      (List.subperm_of_subset (List.nodup_dedup _) (hsub x hx)).length_le

theorem invC (W : WF m) (P : Proper m A B m.nextNode) (T : Thin m A B m.nextNode) :
    LInv dup (okCell (rE dup m A B).1 (rF dup m A B).1) (rF dup m A B).2 m.cells (tC m A B) (rC dup m A B).1 (rC dup m A B).2 := by
  refine loop_inv (fun h hh => (W.cell h hh).1) W.nodupC _ (fun _ hg => ((mem_tC W).1 hg).1) fun g hg hok => ?_
  obtain ⟨hl, ht⟩ := (mem_tC W).1 hg
  obtain ⟨f, hf, htf, hL⟩ := P.cell g hl ht (.inr ((okCell_iff W P T hl).1 hok))
  rcases F_new (dup := dup) W P ((W.cell g hl).2 f hf) with ⟨h, _⟩ | ⟨_, h2, _⟩ | ⟨_, _, h, _, h3, h4, _⟩
  · exact absurd hL h
  · exact absurd htf h2
  · refine ⟨h, mem_mapIdx.2 ⟨f, hf, .inr h4⟩, fun k hk hx => ?_⟩
    have := (W.face h ((W.cell k hk).2 h hx)).1
    omega

theorem liveC (W : WF m) (P : Proper m A B m.nextNode) (T : Thin m A B m.nextNode) {h : Nat} : h ∈ (collapse dup m A B).cells.live ↔
    h ∈ (rC dup m A B).1.live ∧ (m.cells.next ≤ h ∨ ¬ TouchC m A B h) := by
  have I := invC (dup := dup) W P T
  simp only [collapse, erase, List.mem_filter]
  refine and_congr_right fun hh => ?_
  simp only [Bool.not_eq_true', List.contains_eq_mem, decide_eq_false_iff_not, mem_tC W]
  rcases I.new h hh with c | ⟨c, _⟩
  · have := (W.cell h c).1
    have h2 : ¬ m.cells.next ≤ h := by omega
    simp [c, h2]
  · have : h ∉ m.cells.live := fun e => by have := (W.cell h e).1; omega
    simp [c, this]

theorem C_collapse (h : Nat) : C (collapse dup m A B) h = {S | ∃ f ∈ (rC dup m A B).1.low h, S = F (collapse dup m A B) f} := rfl

theorem C_untouched (W : WF m) (P : Proper m A B m.nextNode) (T : Thin m A B m.nextNode) {c : Nat} (hc : c ∈ m.cells.live) (ht : ¬ TouchC m A B c) :
    (collapse dup m A B).cells.low c = m.cells.low c ∧ C (collapse dup m A B) c = imgC m A B m.nextNode c := by
  have I := invC (dup := dup) W P T
  have hl := I.low c (W.cell c hc).1
  refine ⟨hl, ?_⟩
  rw [C_collapse, hl, ← (cell_faces (dup := dup) W P T hc).2.1]
  have : mapIdx (rF dup m A B).2 (m.cells.low c) = m.cells.low c := by
    unfold mapIdx
    conv_rhs => rw [← List.filterMap_some (l := m.cells.low c)]
    apply List.filterMap_congr
    intro e he
    rw [(invF (dup := dup) W P).kept e (fun h => ht ⟨e, he, ((mem_tF W).1 h).2⟩)]
  rw [this]

theorem C_back (W : WF m) (P : Proper m A B m.nextNode) (T : Thin m A B m.nextNode) {h : Nat} (hh : h ∈ (collapse dup m A B).cells.live) :
    (∃ c ∈ m.cells.live, LivesC m A B m.nextNode c ∧ C (collapse dup m A B) h = imgC m A B m.nextNode c) ∧
    ∀ f ∈ (collapse dup m A B).cells.low h, f ∈ (collapse dup m A B).faces.live := by
  have I := invC (dup := dup) W P T
  obtain ⟨h1, h2⟩ := (liveC W P T).1 hh
  rcases I.new h h1 with c | ⟨c, g, hg, hgok, hgl⟩
  · have ht : ¬ TouchC m A B h := h2.resolve_left (by have := (W.cell h c).1; omega)
    obtain ⟨k1, k2⟩ := C_untouched (dup := dup) W P T c ht
    refine ⟨⟨h, c, .inl ht, k2⟩, ?_⟩
    rw [k1]
    intro f hf
    exact (liveF W P).2 ⟨(invF (dup := dup) W P).old f ((W.cell h c).2 f hf), .inr fun hte => ht ⟨f, hf, hte⟩⟩
  · obtain ⟨gl, gt⟩ := (mem_tC W).1 hg
    refine ⟨⟨g, gl, .inr ((okCell_iff (dup := dup) W P T gl).1 hgok), ?_⟩, ?_⟩
    · rw [C_collapse, hgl, (cell_faces (dup := dup) W P T gl).2.1]
    · intro f hf
      exact (cell_faces (dup := dup) W P T gl).1 f (by rw [← hgl]; exact hf)

theorem C_new (W : WF m) (P : Proper m A B m.nextNode) (T : Thin m A B m.nextNode) {c : Nat} (hc : c ∈ m.cells.live) (hl : LivesC m A B m.nextNode c) :
    ∃ h ∈ (collapse dup m A B).cells.live, C (collapse dup m A B) h = imgC m A B m.nextNode c := by
  have I := invC (dup := dup) W P T
  by_cases ht : TouchC m A B c
  · obtain ⟨h, h1, h2, _, h4⟩ := I.made c ((mem_tC W).2 ⟨hc, ht⟩) ((okCell_iff W P T hc).2 (hl.resolve_left fun e => e ht))
    have hh : h ∈ (collapse dup m A B).cells.live := (liveC W P T).2 ⟨h1, .inl h2⟩
    refine ⟨h, hh, ?_⟩
    obtain ⟨⟨d, dl, dL, de⟩, _⟩ := C_back W P T hh
    have hs : imgC m A B m.nextNode c ⊆ C (collapse dup m A B) h := by
      rw [← (cell_faces (dup := dup) W P T hc).2.1, C_collapse]
      rintro S ⟨x, hx, rfl⟩
      exact ⟨x, h4 hx, rfl⟩
    rw [de] at hs ⊢
    exact (T.cell c hc d dl hl dL hs).symm
  · exact ⟨c, (liveC W P T).2 ⟨I.old c hc, .inr ht⟩, (C_untouched W P T hc ht).2⟩

/-- a new element has a part with the new node -/
theorem new_E (W : WF m) {h : Nat} (hh : h ∈ (collapse dup m A B).edges.live) (hn : m.edges.next ≤ h) : m.nextNode ∈ E (collapse dup m A B) h := by
  have I := invE (dup := dup) (A := A) (B := B) W
  obtain ⟨h1, _⟩ := (liveE W).1 hh
  rcases I.new h h1 with c | ⟨_, g, hg, _, hgl⟩
  · have := (W.edge h c).1; omega
  · rw [E_collapse, hgl]
    show m.nextNode ∈ mapIdx (idxN m A B) (m.edges.low g)
    rw [mem_mapIdx]
    rcases (mem_tE.1 hg).2 with h | h
    · exact ⟨A, h, .inr (by simp [idxN])⟩
    · exact ⟨B, h, .inr (by simp [idxN])⟩

theorem old_E (W : WF m) {h : Nat} (hh : h ∈ (collapse dup m A B).edges.live) (hn : ¬ m.edges.next ≤ h) :
    h ∈ m.edges.live ∧ ¬ TouchE m A B h ∧ E (collapse dup m A B) h = E m h ∧ m.nextNode ∉ E m h := by
  have I := invE (dup := dup) (A := A) (B := B) W
  obtain ⟨h1, h2⟩ := (liveE W).1 hh
  rcases I.new h h1 with c | ⟨c, _⟩
  · refine ⟨c, h2.resolve_left hn, ?_, ?_⟩
    · rw [E_collapse, I.low h (by omega)]; rfl
    · obtain ⟨_, a, b, hl, _, ha, hb⟩ := W.edge h c
      have ha := W.node a ha
      have hb := W.node b hb
      intro hx
      have : m.nextNode ∈ m.edges.low h := hx
      rw [hl] at this
      simp at this
      omega
  · exact absurd c hn

theorem new_F (W : WF m) (P : Proper m A B m.nextNode) {h : Nat} (hh : h ∈ (collapse dup m A B).faces.live) :
    m.faces.next ≤ h ↔ m.nextNode ∈ nodesOf (F (collapse dup m A B) h) := by
  have I := invF (dup := dup) W P
  obtain ⟨h1, h2⟩ := (liveF W P).1 hh
  rcases I.new h h1 with c | ⟨c, g, hg, hok, hgl⟩
  · have hlt := (W.face h c).1
    refine ⟨fun e => by omega, ?_⟩
    rintro ⟨s, ⟨e, he, rfl⟩, hx⟩
    have he : e ∈ (rF dup m A B).1.low h := he
    rw [I.low h hlt] at he
    have hel := (W.face h c).2 e he
    have hee : e ∈ (collapse dup m A B).edges.live :=
      (liveE W).2 ⟨(invE (dup := dup) W).old e hel, .inr fun t => (h2.resolve_left (by omega)) ⟨e, he, t⟩⟩
    have := old_E W hee (by have := (W.edge e hel).1; omega)
    rw [this.2.2.1] at hx
    exact absurd hx this.2.2.2
  · refine ⟨fun _ => ?_, fun _ => c⟩
    obtain ⟨gl, gt⟩ := (mem_tF W).1 hg
    obtain ⟨e, he, hte, hp⟩ := P.face g gl gt
    rcases E_new (dup := dup) (A := A) (B := B) W ((W.face g gl).2 e he) with ⟨hp', _⟩ | ⟨_, ht', _⟩ | ⟨_, _, k, e2, e4, e1, e3⟩
    · exact absurd hp' hp
    · exact absurd hte ht'
    · refine ⟨E (collapse dup m A B) k, ⟨k, ?_, rfl⟩, new_E W e2 e4⟩
      show k ∈ (rF dup m A B).1.low h
      rw [hgl]
      exact mem_mapIdx.2 ⟨e, he, .inr e1⟩

/-! ## The property -/

/-- **C148**: the edges after the collapse are exactly the old ones with both ends replaced by the new node, except those that became a point. -/
theorem C148_edges (W : WF m) (s : Set Nat) :
    (∃ h ∈ (collapse dup m A B).edges.live, E (collapse dup m A B) h = s) ↔
    ∃ e ∈ m.edges.live, ¬ Point m A B e ∧ s = merge A B m.nextNode '' E m e := by
  constructor
  · rintro ⟨h, hh, rfl⟩
    exact E_back W hh
  · rintro ⟨e, he, hp, rfl⟩
    rcases E_new (dup := dup) (A := A) (B := B) W he with ⟨hp', _⟩ | ⟨_, _, _, h, e⟩ | ⟨_, _, h, h1, _, _, e⟩
    · exact absurd hp' hp
    · exact ⟨_, h, e⟩
    · exact ⟨h, h1, e⟩

/-- **C148** (partial): the faces after the collapse are exactly the old ones over the replaced edges, except those that lost edges down to two. Missing: faces
that have all edges of another one, see `Thin`. -/
theorem C148_faces_partial (W : WF m) (P : Proper m A B m.nextNode) (T : Thin m A B m.nextNode) (S : Set (Set Nat)) :
    (∃ h ∈ (collapse dup m A B).faces.live, F (collapse dup m A B) h = S) ↔
    ∃ f ∈ m.faces.live, LivesF m A B f ∧ S = imgF m A B m.nextNode f := by
  constructor
  · rintro ⟨h, hh, rfl⟩
    exact (F_back W P hh).1
  · rintro ⟨f, hf, hl, rfl⟩
    rcases F_new (dup := dup) W P hf with ⟨h, _⟩ | ⟨_, _, _, h, e⟩ | ⟨_, _, h, h1, _, _, e⟩
    · exact absurd hl h
    · exact ⟨_, h, e⟩
    · exact ⟨h, h1, F_exact W P T hf hl h1 e⟩

/-- **C148** (partial): the cells after the collapse are exactly the old ones over the replaced faces, except those that lost faces down to three or have one
face with all nodes. Missing: degenerate cells that this test does not find, see `C148_degenerate_cell_fails`. -/
theorem C148_cells_partial (W : WF m) (P : Proper m A B m.nextNode) (T : Thin m A B m.nextNode) (S : Set (Set (Set Nat))) :
    (∃ h ∈ (collapse dup m A B).cells.live, C (collapse dup m A B) h = S) ↔
    ∃ c ∈ m.cells.live, LivesC m A B m.nextNode c ∧ S = imgC m A B m.nextNode c := by
  constructor
  · rintro ⟨h, hh, rfl⟩
    exact (C_back W P T hh).1
  · rintro ⟨c, hc, hl, rfl⟩
    exact C_new W P T hc hl

/-- **C148**: the result is a mesh again, without the two nodes: no element refers to a deleted one. -/
theorem C148_mesh (W : WF m) (P : Proper m A B m.nextNode) (T : Thin m A B m.nextNode) (hA : A ∈ m.nodes) (hB : B ∈ m.nodes) :
    WF (collapse dup m A B) ∧ ∀ x, x ∈ (collapse dup m A B).nodes ↔ x = m.nextNode ∨ (x ∈ m.nodes ∧ x ≠ A ∧ x ≠ B) := by
  have hA' := W.node A hA
  have hB' := W.node B hB
  have hnodes : ∀ x, x ∈ (collapse dup m A B).nodes ↔ x = m.nextNode ∨ (x ∈ m.nodes ∧ x ≠ A ∧ x ≠ B) := by
    intro x
    simp only [collapse, List.mem_filter, List.mem_append, List.mem_singleton, Bool.not_eq_true', Bool.or_eq_false_iff, beq_eq_false_iff_ne]
    constructor
    · rintro ⟨h | h, h1, h2⟩
      · exact .inr ⟨h, h1, h2⟩
      · exact .inl h
    · rintro (h | ⟨h, h1, h2⟩)
      · exact ⟨.inr h, by omega, by omega⟩
      · exact ⟨.inl h, h1, h2⟩
  have IE := invE (dup := dup) (A := A) (B := B) W
  have IF := invF (dup := dup) W P
  have IC := invC (dup := dup) W P T
  refine ⟨⟨?_, ?_, ?_, ?_, ?_, ?_, ?_⟩, hnodes⟩
  · intro x hx
    show x < m.nextNode + 1
    rcases (hnodes x).1 hx with h | ⟨h, _⟩
    · omega
    · have := W.node x h; omega
  · intro e he
    obtain ⟨h1, h2⟩ := (liveE W).1 he
    refine ⟨IE.lt e h1, ?_⟩
    rcases IE.new e h1 with c | ⟨c, g, hg, hok, hgl⟩
    · have ht : ¬ TouchE m A B e := h2.resolve_left (by have := (W.edge e c).1; omega)
      obtain ⟨hlt, a, b, hl, hab, ha, hb⟩ := W.edge e c
      refine ⟨a, b, (IE.low e hlt).trans hl, hab, (hnodes a).2 (.inr ⟨ha, ?_, ?_⟩), (hnodes b).2 (.inr ⟨hb, ?_, ?_⟩)⟩
      · rintro rfl; exact ht (.inl (by simp [hl]))
      · rintro rfl; exact ht (.inr (by simp [hl]))
      · rintro rfl; exact ht (.inl (by simp [hl]))
      · rintro rfl; exact ht (.inr (by simp [hl]))
    · obtain ⟨_, a, b, hl, hab, ha, hb⟩ := W.edge g (mem_tE.1 hg).1
      rw [mapIdx_nodes, hl] at hok hgl
      have hm : ∀ x ∈ m.nodes, merge A B m.nextNode x ∈ (collapse dup m A B).nodes := by
        intro x hx
        rw [hnodes]
        by_cases h : x = A ∨ x = B
        · exact .inl (by simp [merge, h])
        · exact .inr (by simp only [merge, h, if_false]; exact ⟨hx, fun e => h (.inl e), fun e => h (.inr e)⟩)
      exact ⟨_, _, hgl, by simpa [okEdge] using hok, hm a ha, hm b hb⟩
  · intro f hf
    exact ⟨IF.lt f ((liveF W P).1 hf).1, (F_back W P hf).2⟩
  · intro c hc
    exact ⟨IC.lt c ((liveC W P T).1 hc).1, (C_back W P T hc).2⟩
  · exact IE.nodup.filter _
  · exact IF.nodup.filter _
  · exact IC.nodup.filter _

/-- **C148**: elements away from the edge stay as they are, with the same lower elements. -/
theorem C148_away (W : WF m) (P : Proper m A B m.nextNode) (T : Thin m A B m.nextNode) :
    (∀ e ∈ m.edges.live, ¬ TouchE m A B e → e ∈ (collapse dup m A B).edges.live ∧ (collapse dup m A B).edges.low e = m.edges.low e) ∧
    (∀ f ∈ m.faces.live, ¬ TouchF m A B f → f ∈ (collapse dup m A B).faces.live ∧ (collapse dup m A B).faces.low f = m.faces.low f) ∧
    (∀ c ∈ m.cells.live, ¬ TouchC m A B c → c ∈ (collapse dup m A B).cells.live ∧ (collapse dup m A B).cells.low c = m.cells.low c) := by
  refine ⟨fun e he ht => ⟨(liveE W).2 ⟨(invE W).old e he, .inr ht⟩, (invE (dup := dup) W).low e (W.edge e he).1⟩,
    fun f hf ht => ⟨(liveF W P).2 ⟨(invF W P).old f hf, .inr ht⟩, (F_untouched W P hf ht).1⟩,
    fun c hc ht => ⟨(liveC W P T).2 ⟨(invC W P T).old c hc, .inr ht⟩, (C_untouched W P T hc ht).1⟩⟩

/-- **C148**: with checks for duplicates, a mesh without two edges over the same nodes and two faces over the same edges stays so. -/
theorem C148_no_duplicates (W : WF m) (P : Proper m A B m.nextNode)
    (hE : ∀ e ∈ m.edges.live, ∀ e' ∈ m.edges.live, E m e = E m e' → e = e')
    (hF : ∀ f ∈ m.faces.live, ∀ f' ∈ m.faces.live, F m f = F m f' → f = f') :
    (∀ e ∈ (collapse true m A B).edges.live, ∀ e' ∈ (collapse true m A B).edges.live, E (collapse true m A B) e = E (collapse true m A B) e' → e = e') ∧
    (∀ f ∈ (collapse true m A B).faces.live, ∀ f' ∈ (collapse true m A B).faces.live, F (collapse true m A B) f = F (collapse true m A B) f' → f = f') := by
  have hedges : ∀ e ∈ (collapse true m A B).edges.live, ∀ e' ∈ (collapse true m A B).edges.live,
      E (collapse true m A B) e = E (collapse true m A B) e' → e = e' := by
    intro e he e' he' heq
    by_cases h1 : m.edges.next ≤ e <;> by_cases h2 : m.edges.next ≤ e'
    · refine (invE (dup := true) W).simple rfl e ((liveE W).1 he).1 e' ((liveE W).1 he').1 h1 h2 ?_ ?_
      · intro x hx
        have : x ∈ E (collapse true m A B) e := hx
        rw [heq] at this
        exact this
      · intro x hx
        have : x ∈ E (collapse true m A B) e' := hx
        rw [← heq] at this
        exact this
    · have k1 := new_E W he h1
      have k2 := old_E W he' h2
      rw [heq, k2.2.2.1] at k1
      exact absurd k1 k2.2.2.2
    · have k1 := new_E W he' h2
      have k2 := old_E W he h1
      rw [← heq, k2.2.2.1] at k1
      exact absurd k1 k2.2.2.2
    · have k1 := old_E W he h1
      have k2 := old_E W he' h2
      exact hE e k1.1 e' k2.1 (by rw [← k1.2.2.1, ← k2.2.2.1, heq])
  refine ⟨hedges, ?_⟩
  have hsub : ∀ f ∈ (collapse true m A B).faces.live, ∀ f' ∈ (collapse true m A B).faces.live,
      F (collapse true m A B) f = F (collapse true m A B) f' → (collapse true m A B).faces.low f ⊆ (collapse true m A B).faces.low f' := by
    intro f hf f' hf' heq x hx
    have : E (collapse true m A B) x ∈ F (collapse true m A B) f := ⟨x, hx, rfl⟩
    rw [heq] at this
    obtain ⟨y, hy, e⟩ := this
    rw [hedges x ((F_back W P hf).2 x hx) y ((F_back W P hf').2 y hy) e]
    exact hy
  intro f hf f' hf' heq
  have hiff : m.faces.next ≤ f ↔ m.faces.next ≤ f' := by rw [new_F W P hf, new_F W P hf', heq]
  by_cases h1 : m.faces.next ≤ f
  · exact (invF (dup := true) W P).simple rfl f ((liveF W P).1 hf).1 f' ((liveF W P).1 hf').1 h1 (hiff.1 h1)
      (hsub f hf f' hf' heq) (hsub f' hf' f hf heq.symm)
  · have h2 : ¬ m.faces.next ≤ f' := fun h => h1 (hiff.2 h)
    have key : ∀ k, k ∈ (collapse true m A B).faces.live → ¬ m.faces.next ≤ k →
        k ∈ m.faces.live ∧ F (collapse true m A B) k = F m k := by
      intro k hk hn
      obtain ⟨k1, k2⟩ := (liveF W P).1 hk
      rcases (invF (dup := true) W P).new k k1 with c | ⟨c, _⟩
      · refine ⟨c, ?_⟩
        have ht := k2.resolve_left hn
        have hl := (F_untouched (dup := true) W P c ht).1
        ext s
        constructor
        · rintro ⟨e, he, rfl⟩
          rw [hl] at he
          exact ⟨e, he, (by rw [E_collapse, (invE (dup := true) W).low e (W.edge e ((W.face k c).2 e he)).1]; rfl)⟩
        · rintro ⟨e, he, rfl⟩
          exact ⟨e, by rw [hl]; exact he, (by rw [E_collapse, (invE (dup := true) W).low e (W.edge e ((W.face k c).2 e he)).1]; rfl)⟩
      · exact absurd c hn
    obtain ⟨a1, a2⟩ := key f hf h1
    obtain ⟨b1, b2⟩ := key f' hf' h2
    exact hF f a1 f' b1 (by rw [← a2, ← b2, heq])

end mesh

/-- **C148**: the new node is at the end that is on the boundary, if just one is, and in the middle otherwise. -/
theorem C148_position {K : Type} [Field K] (half x y : K) (h : half + half = 1) :
    position half true false x y = x ∧ position half false true x y = y ∧
    position half true true x y = half * (x + y) ∧ position half false false x y = half * (x + y) := by
  have h' : 1 - half = half := by rw [← h]; ring
  refine ⟨?_, ?_, ?_, ?_⟩
  · simp [position]
  · simp [position, h]
  · simp only [position, if_true, sub_self, zero_add, h']; ring
  · simp only [position, Bool.false_eq_true, if_false, h']; ring

/-- two pyramids over a triangle: nodes 0 1 2, 3 above and 4 below, one cell -/
def bipyramid : Mesh where
  nodes := [0, 1, 2, 3, 4]
  nextNode := 5
  edges := ⟨[0, 1, 2, 3, 4, 5, 6, 7, 8],
    fun e => [[0, 1], [1, 2], [2, 0], [3, 0], [3, 1], [3, 2], [4, 0], [4, 1], [4, 2]].getD e [], 9⟩
  faces := ⟨[0, 1, 2, 3, 4, 5], fun f => [[3, 0, 4], [4, 1, 5], [5, 2, 3], [6, 0, 7], [7, 1, 8], [8, 2, 6]].getD f [], 6⟩
  cells := ⟨[0], fun c => [[0, 1, 2, 3, 4, 5]].getD c [], 1⟩

/-- The test for degenerate cells misses this one: two faces remain, each twice, and the cell is kept. -/
theorem C148_degenerate_cell_fails : (collapse true bipyramid 0 1).cells.live = [1] ∧
    (collapse true bipyramid 0 1).cells.low 1 = [6, 6, 7, 7] ∧ (collapse true bipyramid 0 1).faces.live = [6, 7] := by
  decide +kernel

/-- Without the checks the collapse makes two edges over the same nodes. -/
theorem C148_unchecked_fails : ∃ e ∈ (collapse false bipyramid 0 1).edges.live, ∃ e' ∈ (collapse false bipyramid 0 1).edges.live,
    e ≠ e' ∧ (collapse false bipyramid 0 1).edges.low e = (collapse false bipyramid 0 1).edges.low e' := by
  decide +kernel

/-- a pyramid: nodes 0 1 2 3 below, 4 above -/
def pyramid : Mesh where
  nodes := [0, 1, 2, 3, 4]
  nextNode := 5
  edges := ⟨[0, 1, 2, 3, 4, 5, 6, 7], fun e => [[0, 1], [1, 2], [2, 3], [3, 0], [4, 0], [4, 1], [4, 2], [4, 3]].getD e [], 8⟩
  faces := ⟨[0, 1, 2, 3, 4], fun f => [[0, 1, 2, 3], [4, 0, 5], [5, 1, 6], [6, 2, 7], [7, 3, 4]].getD f [], 5⟩
  cells := ⟨[0], fun c => [[0, 1, 2, 3, 4]].getD c [], 1⟩

instance (m : Mesh) (A B e : Nat) : Decidable (Point m A B e) := by unfold Point; infer_instance
instance (m : Mesh) (A B e : Nat) : Decidable (TouchE m A B e) := by unfold TouchE; infer_instance
instance (m : Mesh) (A B f : Nat) : Decidable (TouchF m A B f) := by unfold TouchF; infer_instance

theorem livesF_iff (m : Mesh) (A B f : Nat) : LivesF m A B f ↔
    ¬ TouchF m A B f ∨ 3 ≤ ((m.faces.low f).filter fun e => decide (¬ Point m A B e)).length := by
  unfold LivesF
  convert Iff.rfl

instance (m : Mesh) (A B f : Nat) : Decidable (LivesF m A B f) := decidable_of_iff' _ (livesF_iff m A B f)

/-- no face has an image inside that of another, if each has an edge that is not there -/
theorem thin_of (m : Mesh) (A B n : Nat) (h : ∀ f ∈ m.faces.live, ∀ g ∈ m.faces.live, LivesF m A B f → LivesF m A B g → f ≠ g →
    ∃ e ∈ m.faces.low f, ¬ Point m A B e ∧ ∀ e' ∈ m.faces.low g, ¬ Point m A B e' →
      ∃ x ∈ m.edges.low e, ∀ y ∈ m.edges.low e', merge A B n x ≠ merge A B n y)
    (hc : ∀ c ∈ m.cells.live, ∀ d ∈ m.cells.live, c = d) : Thin m A B n := by
  refine ⟨fun f hf g hg lf lg hs => ?_, fun c hc' d hd _ _ _ => by rw [hc c hc' d hd]⟩
  by_cases hfg : f = g
  · rw [hfg]
  · obtain ⟨e, he, hp, hall⟩ := h f hf g hg lf lg hfg
    obtain ⟨e', he', hp', heq⟩ := hs ⟨e, he, hp, rfl⟩
    obtain ⟨x, hx, hy⟩ := hall e' he' hp'
    have : merge A B n x ∈ merge A B n '' E m e := ⟨x, hx, rfl⟩
    rw [heq] at this
    obtain ⟨y, hy', e⟩ := this
    exact absurd e.symm (hy y hy')

/-- The hypotheses hold for the pyramid; its cell becomes a tetrahedron. -/
example : WF pyramid ∧ Proper pyramid 0 1 5 ∧ Thin pyramid 0 1 5 ∧ (collapse true pyramid 0 1).cells.live = [1] ∧
    ((collapse true pyramid 0 1).cells.low 1).length = 4 := by
  refine ⟨⟨by decide, ?_, by decide, by decide, by decide, by decide, by decide⟩, ⟨by decide, ?_⟩, thin_of _ _ _ _ (by decide +kernel) (by decide), by decide +kernel, by decide +kernel⟩
  · intro e he
    simp only [pyramid, List.mem_cons, List.not_mem_nil, or_false] at he
    rcases he with rfl | rfl | rfl | rfl | rfl | rfl | rfl | rfl <;> exact ⟨by decide, _, _, rfl, by decide, by decide, by decide⟩
  · intro c hc _ _
    have : c = 0 := by simpa [pyramid] using hc
    subst this
    exact ⟨0, by decide, by decide, by decide +kernel⟩

end Verif.Topology.Collapse
