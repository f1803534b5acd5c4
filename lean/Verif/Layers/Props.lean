import Verif.Layers.Check
import Verif.Transfer.Props

/-!
# Property C99: layers of ghost cells
-/

namespace Verif.Layers

open Verif.Topology Verif.Transfer

variable {V : Type}

/-- C99: the elements through which layers are built.  For every processor `q` a processor finds the faces between its
cells and the cells of `q` (bridge FACE), or the edges or nodes that are both on a face between a cell of its own and a cell of
another processor and on a face between a cell of `q` and a cell of another processor; nothing else, and no assertion
fails. -/
theorem C99_skin {n : Nat} {cn : Bool} {G : Whole} {W : Nat → Side V} (H : Spread n cn G W) (R : Regular cn G)
    (two : TwoCells n G W) {t : Nat} (ht : t < 3) :
    (∃ bridge, SkinSet n t W bridge) ∧ ∀ bridge, SkinSet n t W bridge → ∀ p, p < n → ∀ q b,
      b ∈ bridge p q ↔ (W p).T.alive b = true ∧ b.ty = t ∧ q < n ∧ q ≠ p ∧
        if t = 2 then ∃ c d, CellAt n G W c (name (W p).num b) ∧ CellAt n G W d (name (W p).num b) ∧ G.owner c = p ∧ G.owner d = q
        else OnSkin n G W p (name (W p).num b) ∧ OnSkin n G W q (name (W p).num b) :=
  ⟨skinSet_exists H R two ht, fun _ h _ hp q b => skinSet_mem H R two ht h hp q b⟩

/-- C99: the call ends: no assertion fails. -/
theorem C99_completes {n : Nat} {cn : Bool} {G : Whole} {W : Nat → Side V} (ok : G.Ok) (H : Spread n cn G W) (R : Regular cn G)
    (two : TwoCells n G W) (byNum : Nat → Bool) (dup : Bool) {pick : Topo → Nat → Nat} (fresh : Fresh cn pick) {t : Nat} (ht : t < 3)
    (layers : Nat) : ∃ W', ExchangeGhost n t byNum dup pick layers W W' :=
  ghost_exists ok fresh H R two ht layers

/-- C99: no processor gets a cell that is more than `layers` steps away from its own cells; what it had it keeps, with the same
handles. -/
theorem C99_only {n : Nat} {cn : Bool} {G : Whole} {W W' : Nat → Side V} (ok : G.Ok) (H : Spread n cn G W) (R : Regular cn G)
    (two : TwoCells n G W) {byNum : Nat → Bool} {dup : Bool} {pick : Topo → Nat → Nat} (fresh : Fresh cn pick) {t layers : Nat}
    (h : ExchangeGhost n t byNum dup pick layers W W') (p : Nat) (hp : p < n) :
    (∀ g, Has (W' p) g → Has (W p) g ∨ ∃ c, Within n G W t p layers c ∧ Part cn G c g) ∧ Kept (W p) (W' p) :=
  ⟨(ghost_result ok fresh H R two h).2.1 p hp, (ghost_result ok fresh H R two h).2.2.2.1 p hp⟩

/-- C99: if wherever cells of different processors meet in an element of the bridge type there is a face of the skin of both, and
the owner of an element of the bridge type has a cell there, each processor gets exactly the cells within `layers` steps, with
all they are built of. -/
theorem C99_layers_partial {n : Nat} {cn : Bool} {G : Whole} {W W' : Nat → Side V} (ok : G.Ok) (H : Spread n cn G W)
    (R : Regular cn G) (two : TwoCells n G W) {byNum : Nat → Bool} {dup : Bool} {pick : Topo → Nat → Nat} (fresh : Fresh cn pick)
    {t layers : Nat} (meets : Meets n G W t) (homely : Homely n G W t) (h : ExchangeGhost n t byNum dup pick layers W W')
    (p : Nat) (hp : p < n) (g : El) :
    Has (W' p) g ↔ Has (W p) g ∨ ∃ c, Within n G W t p layers c ∧ Part cn G c g := by
  obtain ⟨-, h1, h2, h3, -⟩ := ghost_result ok fresh H R two h
  refine ⟨h1 p hp g, ?_⟩
  rintro (h | ⟨c, hc, hpt⟩)
  · exact (h3 p hp).has h
  · exact h2 ⟨meets, homely⟩ p hp c g hc hpt

/-- C99: with faces as the bridge the first condition always holds: a processor gets exactly the cells within `layers` steps
through faces. -/
theorem C99_faces {n : Nat} {cn : Bool} {G : Whole} {W W' : Nat → Side V} (ok : G.Ok) (H : Spread n cn G W)
    (R : Regular cn G) (two : TwoCells n G W) {byNum : Nat → Bool} {dup : Bool} {pick : Topo → Nat → Nat} (fresh : Fresh cn pick)
    {layers : Nat} (homely : Homely n G W 2) (h : ExchangeGhost n 2 byNum dup pick layers W W') (p : Nat) (hp : p < n) (g : El) :
    Has (W' p) g ↔ Has (W p) g ∨ ∃ c, Within n G W 2 p layers c ∧ Part cn G c g :=
  C99_layers_partial ok H R two fresh (fun c d b hb hc hd ho => ⟨b, c, d, hb, hc, hd, rfl, fun h => ho h.symm, .self⟩) homely h p hp g

/-- C99: afterwards the processors know who has what: the list of processors of every copy of every element names exactly
the processors that have it, statuses and stored lists of shared and ghost elements are right. -/
theorem C99_partition {n : Nat} {cn : Bool} {G : Whole} {W W' : Nat → Side V} (ok : G.Ok) (H : Spread n cn G W) (R : Regular cn G)
    (two : TwoCells n G W) {byNum : Nat → Bool} {dup : Bool} {pick : Topo → Nat → Nat} (fresh : Fresh cn pick) {t layers : Nat}
    (h : ExchangeGhost n t byNum dup pick layers W W') : Spread n cn G W' :=
  (ghost_result ok fresh H R two h).1

/-- C99: if all copies of each element have the same values before, so they have afterwards, the values of the owner. -/
theorem C99_values {n : Nat} {cn : Bool} {G : Whole} {W W' : Nat → Side V} (ok : G.Ok) (H : Spread n cn G W) (R : Regular cn G)
    (two : TwoCells n G W) {byNum : Nat → Bool} {dup : Bool} {pick : Topo → Nat → Nat} (fresh : Fresh cn pick) {t layers : Nat}
    (h : ExchangeGhost n t byNum dup pick layers W W') (f : El → V) (hf : SameValues n W f) : SameValues n W' f :=
  (ghost_result ok fresh H R two h).2.2.2.2 f hf

/-! ## Example: the three tetrahedra -/

theorem tets_reach (p : Nat) (_ : p < 3) : Reach true (tets p).T := (tets_spread.piece p ‹_›).reach

theorem tets_ty : ∀ e x, x ∈ (ofRows tetRows).low e → x.ty < e.ty := ty_check (by decide +kernel)

theorem tets_reg : Regular true (ofRows tetRows) := reg_check (by decide +kernel)

theorem tets_two : TwoCells 3 (ofRows tetRows) tets := two_check tets_reach tets_ty (by decide +kernel)

theorem tets_meets (t : Nat) (ht : t < 3) : Meets 3 (ofRows tetRows) tets t :=
  meets_check tets_reach tets_ty (by revert t; decide +kernel)

theorem tets_homely (t : Nat) (ht : t < 3) : Homely 3 (ofRows tetRows) tets t :=
  homely_check tets_reach tets_ty (by revert t; decide +kernel)

theorem tets_nodes {g x : El} (h : x ∈ (ofRows tetRows).nodes g) : x.ty = 0 := by
  have key : ∀ r ∈ tetRows, ∀ k ∈ (ofRows tetRows).nodes r.e, k.ty = 0 := by decide +kernel
  rcases ofRows_row tetRows g with ⟨r, hr, rfl⟩ | ⟨-, h2⟩
  · exact key r hr _ h
  · rw [h2] at h; cases h

/-- Only the cell itself is a cell among its parts. -/
theorem tets_cell {a b : El} (h : Part true (ofRows tetRows) a b) (hb : b.ty = 3) (ha : a.ty = 3) : b = a := by
  have hle : ∀ z, Part true (ofRows tetRows) a z → z.ty ≤ a.ty := by
    intro z hz
    induction hz with
    | self => exact Nat.le_refl _
    | low _ _ hk ih => have := tets_ty _ _ hk; omega
    | nodes _ _ _ hk _ => have := tets_nodes hk; omega
  cases h with
  | self => rfl
  | low hx _ hk => have := tets_ty _ _ hk; have := hle _ hx; omega
  | nodes _ _ _ hk => have := tets_nodes hk; omega

/-- Cells of processor 0 after ExchangeGhost on the three tetrahedra. -/
theorem tets_ghost {t layers : Nat} {W' : Nat → Side Nat} (ht : t < 3) (h : ExchangeGhost 3 t (fun _ => true) true endPick layers tets W')
    (i : Nat) : Has (W' 0) ⟨3, i⟩ ↔ Has (tets 0) ⟨3, i⟩ ∨ Within 3 (ofRows tetRows) tets t 0 layers ⟨3, i⟩ := by
  rw [C99_layers_partial tets_ok tets_spread tets_reg tets_two (endPick_fresh (cn := true)) (tets_meets t ht) (tets_homely t ht) h 0
    (by decide)]
  constructor
  · rintro (h | ⟨c, hc, hp⟩)
    · exact Or.inl h
    · right
      obtain ⟨c3, q, hq, hc'⟩ := hc.cell
      rw [show (⟨3, i⟩ : El) = c from tets_cell hp rfl c3]
      exact hc
  · rintro (h | h)
    · exact Or.inl h
    · exact Or.inr ⟨_, h, .self⟩

/-- One layer through faces: processor 0 gets the cell of processor 1 but not that of processor 2; two layers: both; one layer
through nodes: both. -/
example : (∃ W', ExchangeGhost 3 2 (fun _ => true) true endPick 1 tets W' ∧ Has (W' 0) ⟨3, 1⟩ ∧ ¬ Has (W' 0) ⟨3, 2⟩ ∧
      Spread 3 true (ofRows tetRows) W') ∧
    (∃ W', ExchangeGhost 3 2 (fun _ => true) true endPick 2 tets W' ∧ Has (W' 0) ⟨3, 2⟩ ∧ ¬ Has (tets 0) ⟨3, 2⟩) ∧
    ∃ W', ExchangeGhost 3 0 (fun _ => true) true endPick 1 tets W' ∧ Has (W' 0) ⟨3, 2⟩ := by
  have hw : ∀ t k i, (Within 3 (ofRows tetRows) tets t 0 k ⟨3, i⟩ ↔ ∃ x ∈ withinL 3 (ofRows tetRows) tets t 0 k, x.1 = ⟨3, i⟩) :=
    fun t k i => (withinL_iff tets_reach tets_ty).2
  have r : Reach true (tets 0).T := tets_reach 0 (by decide)
  refine ⟨?_, ?_, ?_⟩
  · obtain ⟨W', h⟩ := C99_completes tets_ok tets_spread tets_reg tets_two (fun _ => true) true (endPick_fresh (cn := true)) (t := 2)
      (by decide) 1
    refine ⟨W', h, ?_, ?_, C99_partition tets_ok tets_spread tets_reg tets_two (endPick_fresh (cn := true)) h⟩
    · rw [tets_ghost (by decide) h, hw]; right; decide +kernel
    · rw [tets_ghost (by decide) h, hw, ← hasB_iff r]; decide +kernel
  · obtain ⟨W', h⟩ := C99_completes tets_ok tets_spread tets_reg tets_two (fun _ => true) true (endPick_fresh (cn := true)) (t := 2)
      (by decide) 2
    refine ⟨W', h, ?_, ?_⟩
    · rw [tets_ghost (by decide) h, hw]; right; decide +kernel
    · rw [← hasB_iff r]; decide +kernel
  · obtain ⟨W', h⟩ := C99_completes tets_ok tets_spread tets_reg tets_two (fun _ => true) true (endPick_fresh (cn := true)) (t := 0)
      (by decide) 1
    refine ⟨W', h, ?_⟩
    rw [tets_ghost (by decide) h, hw]; right; decide +kernel

/-! ## Cells that meet in a node only -/

/-- Two tetrahedra with a common node. -/
def ptRows : List Row := [
  ⟨⟨0, 0⟩, [], [], 0⟩, ⟨⟨0, 1⟩, [], [], 0⟩, ⟨⟨0, 2⟩, [], [], 0⟩, ⟨⟨0, 3⟩, [], [], 0⟩, ⟨⟨0, 4⟩, [], [], 1⟩,
  ⟨⟨0, 5⟩, [], [], 1⟩, ⟨⟨0, 6⟩, [], [], 1⟩, ⟨⟨1, 0⟩, [⟨0, 0⟩, ⟨0, 1⟩], [], 0⟩, ⟨⟨1, 1⟩, [⟨0, 0⟩, ⟨0, 2⟩], [], 0⟩,
  ⟨⟨1, 2⟩, [⟨0, 0⟩, ⟨0, 3⟩], [], 0⟩, ⟨⟨1, 3⟩, [⟨0, 1⟩, ⟨0, 2⟩], [], 0⟩, ⟨⟨1, 4⟩, [⟨0, 1⟩, ⟨0, 3⟩], [], 0⟩,
  ⟨⟨1, 5⟩, [⟨0, 2⟩, ⟨0, 3⟩], [], 0⟩, ⟨⟨1, 6⟩, [⟨0, 3⟩, ⟨0, 4⟩], [], 1⟩, ⟨⟨1, 7⟩, [⟨0, 3⟩, ⟨0, 5⟩], [], 1⟩,
  ⟨⟨1, 8⟩, [⟨0, 3⟩, ⟨0, 6⟩], [], 1⟩, ⟨⟨1, 9⟩, [⟨0, 4⟩, ⟨0, 5⟩], [], 1⟩, ⟨⟨1, 10⟩, [⟨0, 4⟩, ⟨0, 6⟩], [], 1⟩,
  ⟨⟨1, 11⟩, [⟨0, 5⟩, ⟨0, 6⟩], [], 1⟩, ⟨⟨2, 0⟩, [⟨1, 0⟩, ⟨1, 1⟩, ⟨1, 3⟩], [], 0⟩,
  ⟨⟨2, 1⟩, [⟨1, 0⟩, ⟨1, 2⟩, ⟨1, 4⟩], [], 0⟩, ⟨⟨2, 2⟩, [⟨1, 1⟩, ⟨1, 2⟩, ⟨1, 5⟩], [], 0⟩,
  ⟨⟨2, 3⟩, [⟨1, 3⟩, ⟨1, 4⟩, ⟨1, 5⟩], [], 0⟩, ⟨⟨2, 4⟩, [⟨1, 6⟩, ⟨1, 7⟩, ⟨1, 9⟩], [], 1⟩,
  ⟨⟨2, 5⟩, [⟨1, 6⟩, ⟨1, 8⟩, ⟨1, 10⟩], [], 1⟩, ⟨⟨2, 6⟩, [⟨1, 7⟩, ⟨1, 8⟩, ⟨1, 11⟩], [], 1⟩,
  ⟨⟨2, 7⟩, [⟨1, 9⟩, ⟨1, 10⟩, ⟨1, 11⟩], [], 1⟩,
  ⟨⟨3, 0⟩, [⟨2, 0⟩, ⟨2, 1⟩, ⟨2, 2⟩, ⟨2, 3⟩], [⟨0, 0⟩, ⟨0, 1⟩, ⟨0, 2⟩, ⟨0, 3⟩], 0⟩,
  ⟨⟨3, 1⟩, [⟨2, 4⟩, ⟨2, 5⟩, ⟨2, 6⟩, ⟨2, 7⟩], [⟨0, 3⟩, ⟨0, 4⟩, ⟨0, 5⟩, ⟨0, 6⟩], 1⟩]
/-- The numbers of the elements of the two processors. -/
def ptNums : List (List (List Nat)) := [
  [[0, 1, 2, 3], [0, 1, 2, 3, 4, 5], [0, 1, 2, 3], [0]], [[3, 4, 5, 6], [6, 7, 8, 9, 10, 11], [4, 5, 6, 7], [1]]]

def ptNum (p : Nat) (e : El) : Nat := ((ptNums.getD p []).getD e.ty []).getD e.id 0

def ptProcs (g : El) : List Nat := (List.range 2).filter fun p => ((ptNums.getD p []).getD g.ty []).contains g.id

def ptBare (p : Nat) : Side Nat where
  T := tetT
  num := ptNum p
  owner := fun e => ((ofRows ptRows).owner (name (ptNum p) e) : Int)
  procs := fun e => ptProcs (name (ptNum p) e)
  status := fun e => if (ofRows ptRows).owner (name (ptNum p) e) ≠ p then .ghost
    else if ptProcs (name (ptNum p) e) = [p] then .owned else .shared
  val := ptNum p
  sh := fun _ _ => []
  gh := fun _ _ => []

/-- The two processors. -/
def pts : Nat → Side Nat := stored 2 ptBare

theorem pts_ok : (ofRows ptRows).Ok := ok_check (by decide +kernel)

theorem pts_spread : Spread 2 true (ofRows ptRows) pts := spread_check (fun _ _ => reach_tetT) (by decide +kernel)

theorem pts_reach (p : Nat) (_ : p < 2) : Reach true (pts p).T := (pts_spread.piece p ‹_›).reach

theorem pts_ty : ∀ e x, x ∈ (ofRows ptRows).low e → x.ty < e.ty := ty_check (by decide +kernel)

theorem pts_reg : Regular true (ofRows ptRows) := reg_check (by decide +kernel)

theorem pts_two : TwoCells 2 (ofRows ptRows) pts := two_check pts_reach pts_ty (by decide +kernel)

/-- C99: cells of two processors that have a node in common but no face are not found: `ExchangeGhost(1,NODE)` does not give
processor 0 the cell of processor 1, although the cells share a node. -/
theorem C99_node_fails : ∃ (n : Nat) (G : Whole) (W : Nat → Side Nat), G.Ok ∧ Spread n true G W ∧ Regular true G ∧ TwoCells n G W ∧
    Homely n G W 0 ∧ (∃ W', ExchangeGhost n 0 (fun _ => true) true endPick 1 W W') ∧
    ∃ c, Within n G W 0 0 1 c ∧ ∀ W', ExchangeGhost n 0 (fun _ => true) true endPick 1 W W' → ¬ Has (W' 0) c := by
  refine ⟨2, ofRows ptRows, pts, pts_ok, pts_spread, pts_reg, pts_two, homely_check pts_reach pts_ty (by decide +kernel),
    C99_completes pts_ok pts_spread pts_reg pts_two _ _ (endPick_fresh (cn := true)) (by decide) 1, ⟨3, 1⟩,
    ((withinL_iff pts_reach pts_ty).2).2 (by decide +kernel), ?_⟩
  rintro W' ⟨-, bridge, hb, cur, hc, W1, X, hx, hW⟩
  have hnone : ∀ p, p < 2 → ∀ q, bridge p q = [] := by
    intro p hp q
    rw [List.eq_nil_iff_forall_not_mem]
    intro b hbm
    obtain ⟨-, -, -, -, hs⟩ := (skinSet_mem pts_spread pts_reg pts_two (by decide) hb hp q b).1 hbm
    obtain ⟨⟨f, c, d, f2, hc, hd, oc, od, -⟩, -⟩ := hs
    obtain ⟨c', hc', rfl, hfc⟩ := (mem_cellParts pts_reach pts_ty).1 hc
    obtain ⟨d', hd', rfl, hfd⟩ := (mem_cellParts pts_reach pts_ty).1 hd
    have key : ∀ c ∈ cellParts 2 (ofRows ptRows) pts, ∀ f ∈ c.2, f.ty = 2 → ∀ d ∈ cellParts 2 (ofRows ptRows) pts, f ∈ d.2 →
        (ofRows ptRows).owner c.1 = (ofRows ptRows).owner d.1 := by decide +kernel
    exact od ((key c' hc' f hfc f2 d' hd' hfd).symm.trans oc)
  have hcur : ∀ p, p < 2 → ∀ q, (cur p q).2 = [] := by
    intro p hp q
    have := hc p hp q
    rw [hnone p hp q] at this
    injection this with this
    rw [← this]
  intro hh
  rw [hW 0 (by decide)] at hh
  rcases ((exchange_result pts_ok pts_spread (endPick_fresh (cn := true)) (fun p _ => marked_sendto _ _) hx).2.1 0 (by decide) _).1 hh with
    h | ⟨p, hp, -, e, he, hq, -⟩
  · rw [← hasB_iff (pts_reach 0 (by decide))] at h
    revert h
    decide +kernel
  · have := ((mem_sendtoOf (pts_spread.sorted p hp e he)).1 hq).2.1
    rw [hcur p hp 0] at this
    cases this

end Verif.Layers
