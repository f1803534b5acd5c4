import Verif.Topology.UniteFaces

/-!
# Specification vocabulary for mesh connectivity

* `Above T h x` : `x` is `h` or is built on `h` (has `h` among the boundary of its boundary ...).
* `Below T a b` : `a` is `b`, or on the boundary of `b`, or on the boundary of that ..., with all these
  elements not hidden.
* `Reach` : states reached by any history of calls on an empty mesh.
* `GoodReach` : histories in which elements are created with repetition-free boundaries of elements that
  are not hidden, cells with the nodes of their faces, and removed by `Delete`.
-/

namespace Verif.Topology

/-- `x` is `h`, or is reached from `h` through upper connections of nodes, edges, faces. -/
inductive Above (T : Topo) (h : El) : El → Prop
  | refl : Above T h h
  | step {y x} : Above T h y → y.ty < 3 → x ∈ T.high y → Above T h x

/-- The arguments of a creation of an element with the given type: the boundary consists of live
elements one type below, the nodes of live nodes. -/
structure CreateArgs (T : Topo) (ty : Nat) (elems nodes : List El) : Prop where
  tyOk : ty = 1 ∨ ty = 2 ∨ ty = 3
  elemsOk : ∀ x ∈ elems, T.alive x = true ∧ x.ty + 1 = ty
  nodesOk : ∀ x ∈ nodes, T.alive x = true ∧ x.ty = 0

/-- Admissible arguments of `UniteEdges`: different edges; without hide marker, no other edge ends in a
node that is removed. -/
structure UniteOk (T : Topo) (edges : List El) : Prop where
  ty : ∀ x ∈ edges, x.ty = 1
  nodup : edges.Nodup
  free : T.hide = false → ∀ n, 2 ≤ (T.endsOf edges).count n → ∀ x ∈ T.high n, x ∈ edges

/-- Admissible arguments of `SplitFace`: a face that no cell has twice, loops of existing edges, nodes that the cells
of the face do not have yet.  The faces `ret` that result differ and were no faces of these cells. -/
structure SplitFaceOk (T : Topo) (f : El) (cnodes : List El) (loops : List (List El)) (ret : List El) : Prop where
  ty : f.ty = 2
  once : (T.cellsOf f).Nodup
  edges : ∀ l ∈ loops, ∀ e ∈ l, T.alive e = true ∧ e.ty = 1
  nodes : ∀ n ∈ cnodes, T.alive n = true ∧ n.ty = 0
  nodesOnce : cnodes.Nodup
  fresh : T.cn = true → ∀ c ∈ T.cellsOf f, ∀ n ∈ cnodes, n ∉ T.high c
  nodup : ret.Nodup
  other : ∀ c ∈ T.cellsOf f, ∀ g ∈ ret, g ≠ f → g ∉ T.low c

/-- Admissible arguments of the removals and the creation in `UniteFaces`: different faces, their cells, edges and nodes to
be removed, and existing edges that are not removed for the new face. -/
structure UniteFacesOk (T : Topo) (faces cells inner nodes edges : List El) : Prop where
  face : ∀ f ∈ faces, f.ty = 2
  nodup : faces.Nodup
  cellsOk : ∀ c, c ∈ cells ↔ ∃ f ∈ faces, c ∈ T.cellsOf f
  innerOk : ∀ e ∈ inner, e.ty = 1
  nodesOk : ∀ n ∈ nodes, n.ty = 0
  edgesOk : ∀ e ∈ edges, T.alive e = true ∧ e.ty = 1 ∧ e ∉ inner

/-- Histories.  `flip` is the decision about the orientation of faces; it may differ from call to
call.  `permLow` is any reordering of the boundary of an element
(`FixEdgeOrder`, face.cpp L258-472, cell.cpp L90-303). -/
inductive Reach (cn : Bool) : Topo → Prop
  | init : Reach cn (Topo.init cn)
  | createNode {T T'} (id : Nat) : Reach cn T → T.createNode id = some T' → Reach cn T'
  | create {T T' r} (dup : Bool) (ty id : Nat) (elems nodes : List El) : Reach cn T →
      CreateArgs T ty elems nodes → T.create dup ty id elems nodes = some (T', r) → Reach cn T'
  | delete {T T'} (flip : Topo → El → Bool) (h : El) : Reach cn T → T.alive h = true →
      T.delete flip h = some T' → Reach cn T'
  | destroy {T T'} (flip : Topo → El → Bool) (h : El) : Reach cn T →
      T.destroy flip h = some T' → Reach cn T'
  | hideOp {T T'} (flip : Topo → El → Bool) (h : El) : Reach cn T →
      T.hideOp flip h = some T' → Reach cn T'
  | showOp {T T'} (h : El) : Reach cn T → T.showOp h = some T' → Reach cn T'
  | beginMod {T T'} : Reach cn T → T.beginMod = some T' → Reach cn T'
  | endMod {T T'} (flip : Topo → El → Bool) : Reach cn T → T.endMod flip = some T' → Reach cn T'
  | fixNormal {T T'} (flip : Topo → El → Bool) (f : El) : Reach cn T →
      T.fixNormal flip f = some T' → Reach cn T'
  | permLow {T T'} (x : El) (l : List El) : Reach cn T → l.Perm (T.low x) →
      T.modLow x (fun _ => l) = some T' → Reach cn T'
  | connect {T T'} (h : El) (adj : List El) : Reach cn T → T.connect h adj = some T' → Reach cn T'
  | disconnect {T T'} (flip : Topo → El → Bool) (h : El) (adj : List El) : Reach cn T →
      T.disconnect flip h adj = some T' → Reach cn T'
  | splitEdge {T T' ret} (flip : Topo → El → Bool) (dup prot : Bool) (e : El) (nodes : List El)
      (ids : List Nat) : Reach cn T → e.ty = 1 → (∀ x ∈ nodes, T.alive x = true ∧ x.ty = 0) →
      T.splitEdge flip dup prot e nodes ids = some (T', ret) → Reach cn T'
  | uniteEdges {T T' r} (flip : Topo → El → Bool) (dup : Bool) (prot : El → Bool) (edges : List El)
      (id : Nat) : Reach cn T → UniteOk T edges →
      T.uniteEdges flip dup prot edges id = some (T', r) → Reach cn T'
  | splitFace {T T' ret} (flip : Topo → El → Bool) (dup : Bool) (f : El) (cnodes : List El)
      (loops : List (List El)) (ids : List Nat) : Reach cn T → SplitFaceOk T f cnodes loops ret →
      T.splitFaceRun flip dup f cnodes loops ids = some (T', ret) → Reach cn T'
  | uniteFaces {T T' r} (flip : Topo → El → Bool) (dup : Bool) (faces cells inner nodes edges : List El) (id : Nat) :
      Reach cn T → UniteFacesOk T faces cells inner nodes edges →
      T.uniteFacesRun flip dup faces cells inner nodes edges id = some (T', r) → Reach cn T'

/-- `a` is reached from `b` by going to boundaries, through elements that are not hidden. -/
inductive Below (T : Topo) (a : El) : El → Prop
  | refl : T.hid a = false → Below T a a
  | step {b c} : Below T a b → b ∈ T.low c → 0 < c.ty → T.hid c = false → Below T a c

/-- Well-formed arguments: the boundary is given without repetitions and is not hidden; the nodes of a
cell are the nodes of the edges of its faces, each once.  (Without explicit nodes CreateCell uses
`RestoreCellNodes`, mesh.cpp L1437-1670, whose default branch computes this list.) -/
structure GoodArgs (T : Topo) (ty : Nat) (elems nodes : List El) : Prop extends
    CreateArgs T ty elems nodes where
  nodup : elems.Nodup
  nodesNodup : nodes.Nodup
  visible : ∀ x ∈ elems, T.hid x = false
  nodesAre : ty = 3 → ∀ n, n ∈ nodes ↔ ∃ f ∈ elems, ∃ e ∈ T.low f, n ∈ T.low e

/-- Histories with well-formed arguments. -/
inductive GoodReach (cn : Bool) : Topo → Prop
  | init : GoodReach cn (Topo.init cn)
  | createNode {T T'} (id : Nat) : GoodReach cn T → T.createNode id = some T' → GoodReach cn T'
  | create {T T' r} (dup : Bool) (ty id : Nat) (elems nodes : List El) : GoodReach cn T →
      GoodArgs T ty elems nodes → T.create dup ty id elems nodes = some (T', r) → GoodReach cn T'
  | delete {T T'} (flip : Topo → El → Bool) (h : El) : GoodReach cn T → T.alive h = true →
      T.delete flip h = some T' → GoodReach cn T'
  | destroy {T T'} (flip : Topo → El → Bool) (h : El) : GoodReach cn T →
      T.destroy flip h = some T' → GoodReach cn T'
  | beginMod {T T'} : GoodReach cn T → T.beginMod = some T' → GoodReach cn T'
  | endMod {T T'} (flip : Topo → El → Bool) : GoodReach cn T → T.endMod flip = some T' →
      GoodReach cn T'
  | fixNormal {T T'} (flip : Topo → El → Bool) (f : El) : GoodReach cn T →
      T.fixNormal flip f = some T' → GoodReach cn T'
  | permLow {T T'} (x : El) (l : List El) : GoodReach cn T → l.Perm (T.low x) →
      T.modLow x (fun _ => l) = some T' → GoodReach cn T'

end Verif.Topology
