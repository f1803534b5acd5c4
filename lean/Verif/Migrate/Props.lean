import Verif.Migrate.Result
import Verif.Layers.Props

/-!
# C100, C101: redistribution of the mesh
-/

namespace Verif.Migrate

open Verif.Topology Verif.Transfer Verif.Layers

variable {V : Type}

section
variable {n : Nat} {cn : Bool} {G : Whole} {W W' : Nat → Side V} {new : Nat → El → Nat} {C : El → Nat} {t layers : Nat}
  {pick : Topo → Nat → Nat} {flip : Topo → El → Bool} {dup : Bool}

/-- C100: for every order in which messages arrive the call ends: no assertion fails. -/
theorem C100_completes_partial (ok : G.Ok) (H : Spread n cn G W) (R : Regular cn G) (covered : Covered n G W) (given : Given n W new C)
    (fresh : Fresh cn pick) (ht : t < 3 ∨ t = 4) (dup : Bool) (flip : Topo → El → Bool)
    (arr : Nat → List (Nat × Msg (Pay V)) → List (Nat × Msg (Pay V))) (ha : ∀ q l, (arr q l).Perm l) :
    ∃ W', Redistribute n t layers dup pick flip new W W' ∧
      ∃ own np Z X, Plan n t layers W new own np ∧
        MoveMarked n dup pick flip (fun p => sendNew p (load (W p) (own p) (np p))) (fun p => load (W p) (own p) (np p)) Z X ∧
        (∀ q, X.order q = arr q (mail n X.box q)) ∧ ∀ p, p < n → W' p = unload (Z p) := by
  obtain ⟨W', own, np, Z, X, h1, h2, h3, h4⟩ := redistribute_exists (layers := layers) ok H R covered given fresh ht dup flip arr ha
  exact ⟨W', ⟨ht, own, np, Z, X, h1, h2, h4⟩, own, np, Z, X, h1, h2, h3, h4⟩

/-- C100: afterwards the mesh is distributed correctly: the cells have the owners the user has asked for, every element has one
owner and all copies know it, the list of processors of every copy names exactly the processors that have it, statuses
and stored lists are right; and no element is lost. -/
theorem C100_partition_partial (ok : G.Ok) (H : Spread n cn G W) (R : Regular cn G) (covered : Covered n G W)
    (given : Given n W new C) (fresh : Fresh cn pick) (h : Redistribute n t layers dup pick flip new W W') :
    (∃ O, (∀ c, c.ty = 3 → InMesh n W c → O c = C c) ∧ Spread n cn { G with owner := O } W') ∧
      ∀ g, InMesh n W' g ↔ InMesh n W g := by
  obtain ⟨NC, D⟩ := redistribute_done ok H R covered given fresh h
  refine ⟨D.spread, fun g => ⟨?_, ?_⟩⟩
  · rintro ⟨q, hq, hg⟩
    obtain ⟨c, hc, -⟩ := (D.has q hq g).1 hg
    exact inMesh_at H hc
  · rintro ⟨p, hp, hg⟩
    obtain ⟨c, c1, c2, c3⟩ := covered p hp g hg
    have hm : InMesh n W c := ⟨p, hp, c2⟩
    have hs := D.cells.self c c1 hm
    exact ⟨C c, D.cells.range c c1 _ hs, (D.has _ (D.cells.range c c1 _ hs) g).2 ⟨c, ⟨c1, hm, c3⟩, hs⟩⟩

/-- C100: every processor has the cells it owns now; what it has besides cells are exactly the boundaries of its cells. -/
theorem C100_own_partial (ok : G.Ok) (H : Spread n cn G W) (R : Regular cn G) (covered : Covered n G W)
    (given : Given n W new C) (fresh : Fresh cn pick) (h : Redistribute n t layers dup pick flip new W W') (q : Nat) (hq : q < n) :
    (∀ c, c.ty = 3 → InMesh n W c → C c = q → Has (W' q) c) ∧
      ∀ g, Has (W' q) g ↔ ∃ c, CellAt n G W c g ∧ Has (W' q) c := by
  obtain ⟨NC, D⟩ := redistribute_done ok H R covered given fresh h
  have hcell : ∀ c, c.ty = 3 → InMesh n W c → NC c q → Has (W' q) c := fun c h3 hm hs => (D.has q hq c).2 ⟨c, ⟨h3, hm, .self⟩, hs⟩
  refine ⟨fun c h3 hm hc => hcell c h3 hm (hc ▸ D.cells.self c h3 hm), fun g => ⟨fun hg => ?_, ?_⟩⟩
  · obtain ⟨c, c1, c2⟩ := (D.has q hq g).1 hg
    exact ⟨c, c1, hcell c c1.cell c1.mem c2⟩
  · rintro ⟨c, c1, hc⟩
    obtain ⟨d, d1, d2⟩ := (D.has q hq c).1 hc
    exact (D.has q hq g).2 ⟨d, ⟨d1.cell, d1.mem, part_trans d1.part c1.part⟩, d2⟩

/-- C100: without layers every processor has exactly the cells it owns and their boundaries. -/
theorem C100_cells_partial (ok : G.Ok) (H : Spread n cn G W) (R : Regular cn G) (covered : Covered n G W)
    (given : Given n W new C) (fresh : Fresh cn pick) (hl : layers = 0 ∨ t = 4)
    (h : Redistribute n t layers dup pick flip new W W') (q : Nat) (hq : q < n) (g : El) :
    Has (W' q) g ↔ ∃ c, CellAt n G W c g ∧ C c = q := by
  obtain ⟨NC, D⟩ := redistribute_done ok H R covered given fresh h
  rw [D.has q hq]
  constructor
  · rintro ⟨c, c1, c2⟩; exact ⟨c, c1, (D.cells.none hl c c1.cell q c2).symm⟩
  · rintro ⟨c, c1, rfl⟩; exact ⟨c, c1, D.cells.self c c1.cell c1.mem⟩

/-- C100: no data is lost or mixed up: if all copies of each element have the same values before, so they have afterwards. -/
theorem C100_values_partial (ok : G.Ok) (H : Spread n cn G W) (R : Regular cn G) (covered : Covered n G W)
    (given : Given n W new C) (fresh : Fresh cn pick) (h : Redistribute n t layers dup pick flip new W W') (f : El → V)
    (hf : SameValues n W f) : SameValues n W' f := by
  obtain ⟨NC, D⟩ := redistribute_done ok H R covered given fresh h
  intro q hq x hx
  obtain ⟨p, hp, e, he, hn, hv⟩ := D.vals q hq x hx
  rw [← hv, ← hn]
  exact hf p hp e he

/-- C101: no processor gets a cell that is more than `layers` steps away from the cells it owns now. -/
theorem C101_only (ok : G.Ok) (H : Spread n cn G W) (R : Regular cn G) (covered : Covered n G W)
    (given : Given n W new C) (fresh : Fresh cn pick) (h : Redistribute n t layers dup pick flip new W W') (q : Nat) (hq : q < n)
    (g : El) (hg : Has (W' q) g) : ∃ c, Within n { G with owner := C } W t q layers c ∧ Part false G c g := by
  obtain ⟨NC, D⟩ := redistribute_done ok H R covered given fresh h
  obtain ⟨c, c1, c2⟩ := (D.has q hq g).1 hg
  have hown : C c = q → Within n { G with owner := C } W t q layers c := fun h => within_le (Nat.zero_le _) (.own c1.cell c1.mem h)
  refine ⟨c, ?_, c1.part⟩
  by_cases hl : layers = 0 ∨ t = 4
  · exact hown (D.cells.none hl c c1.cell q c2).symm
  · rcases D.cells.sound hl c c1.cell q c2 with h | ⟨p, i, hp, hi, hn⟩
    · exact hown h.symm
    · exact within_le hi (near_within H hp hn).2.2

/-- C101: with one layer through faces a processor has exactly the cells it owns and their neighbours, with their boundaries. -/
theorem C101_faces (ok : G.Ok) (H : Spread n cn G W) (R : Regular cn G) (covered : Covered n G W)
    (given : Given n W new C) (fresh : Fresh cn pick) (two : TwoCells n G W)
    (h : Redistribute n 2 1 dup pick flip new W W') (q : Nat) (hq : q < n) (g : El) :
    Has (W' q) g ↔ ∃ c, Within n { G with owner := C } W 2 q 1 c ∧ Part false G c g := by
  refine ⟨C101_only ok H R covered given fresh h q hq g, ?_⟩
  rintro ⟨c, hc, hp⟩
  obtain ⟨NC, D⟩ := redistribute_done ok H R covered given fresh h
  have hm := within_mesh hc
  exact (D.has q hq g).2 ⟨c, ⟨hm.1, hm.2, hp⟩, D.cells.first (by decide) rfl two c hm.1 q hc⟩

/-- C101: if one processor has the whole mesh before, as after reading a file, and wherever cells of different new owners meet in
an element of the bridge type there is a face of the skin of both, a processor has exactly the cells within `layers` steps, with their boundaries. -/
theorem C101_layers_partial (ok : G.Ok) (H : Spread n cn G W) (R : Regular cn G) (covered : Covered n G W)
    (given : Given n W new C) (fresh : Fresh cn pick) (two : TwoCells n G W) (meets : Meets n { G with owner := C } W t)
    (whole : ∃ p, p < n ∧ ∀ g, InMesh n W g → Has (W p) g) (hl : layers ≠ 0) (ht : t ≠ 4)
    (h : Redistribute n t layers dup pick flip new W W') (q : Nat) (hq : q < n) (g : El) :
    Has (W' q) g ↔ ∃ c, Within n { G with owner := C } W t q layers c ∧ Part false G c g := by
  refine ⟨C101_only ok H R covered given fresh h q hq g, ?_⟩
  rintro ⟨c, hc, hp⟩
  obtain ⟨NC, D⟩ := redistribute_done ok H R covered given fresh h
  have hm := within_mesh hc
  exact (D.has q hq g).2 ⟨c, ⟨hm.1, hm.2, hp⟩, D.cells.whole (by simp [hl, ht]) two meets whole c hm.1 q hc⟩

end

/-! ## Example: the three tetrahedra -/

/-- The user moves the cells: `C` are the new owners by number of the cell. -/
def wish (C : Nat → Nat) (p : Nat) (e : El) : Nat := C ((tets p).num e)

theorem tets_covered : Covered 3 (ofRows tetRows) tets := by
  intro p hp g ⟨e, he, hn⟩
  have key : ∀ p, p < 3 → ∀ e ∈ alls (tets p).T, ((parts (ofRows tetRows) 3 ⟨3, p⟩).contains (name (tets p).num e) &&
    hasB (tets p) ⟨3, p⟩) = true := by decide +kernel
  have := key p hp e ((mem_alls (tets_reach p hp) e).2 he)
  rw [Bool.and_eq_true, List.contains_iff_mem] at this
  exact ⟨⟨3, p⟩, rfl, (hasB_iff (tets_reach p hp) _).1 this.2, hn ▸ parts_sound this.1⟩

theorem tets_given {C : Nat → Nat} (hC : ∀ i, C i < 3) : Given 3 tets (wish C) (fun g => C g.id) :=
  fun p _ e _ _ _ => ⟨rfl, hC _⟩

theorem part_true {G : Whole} {g h : El} (hp : Part false G g h) : Part true G g h := by
  induction hp with
  | self => exact .self
  | low _ h0 hk ih => exact .low ih h0 hk
  | nodes _ _ h => cases h

theorem stored_same {n p : Nat} {D : Nat → Side Nat} : (stored n D p).val = (D p).val ∧ (stored n D p).num = (D p).num := by
  unfold stored recompute
  split
  · rename_i h
    exact ⟨rfl, rfl⟩
  · exact ⟨rfl, rfl⟩

theorem tets_val (p : Nat) (e : El) : (tets p).val e = (name (tets p).num e).id := by
  show (stored 3 tetBare p).val e = (stored 3 tetBare p).num e
  rw [stored_same.1, stored_same.2]; rfl

theorem tets_mesh (i : Nat) (hi : i < 3) : InMesh 3 tets ⟨3, i⟩ :=
  ⟨i, hi, (hasB_iff (tets_reach i hi) _).1 (by revert i; decide +kernel)⟩

/-- The new owners of the second example: the first cell stays on processor 0, the others are on processor 1. -/
def cut (i : Nat) : Nat := if i = 0 then 0 else 1

theorem cut_lt (i : Nat) : cut i < 3 := by unfold cut; split <;> omega

/-- Steps between the cells with these owners. -/
theorem tets_within {t q k : Nat} {c : El} : Within 3 { ofRows tetRows with owner := fun g => cut g.id } tets t q k c ↔
    ∃ x ∈ withinL 3 { ofRows tetRows with owner := fun g => cut g.id } tets t q k, x.1 = c :=
  (withinL_iff (G := { ofRows tetRows with owner := fun g => cut g.id }) tets_reach tets_ty).2

/-- The first cell moves to processor 2, the second stays, the third goes to processor 1; without layers processor 0 is empty and
processor 1 has the last two. -/
example : ∃ W', Redistribute 3 4 0 true endPick (fun _ _ => false) (wish fun i => if i = 0 then 2 else 1) tets W' ∧
    Has (W' 2) ⟨3, 0⟩ ∧ Has (W' 1) ⟨3, 1⟩ ∧ Has (W' 1) ⟨3, 2⟩ ∧ (∀ g, ¬ Has (W' 0) g) ∧ ¬ Has (W' 2) ⟨3, 1⟩ ∧
    SameValues 3 W' (fun g => g.id) := by
  have hC : ∀ i, (if i = 0 then 2 else 1) < 3 := fun i => by split <;> omega
  obtain ⟨W', h, -⟩ := C100_completes_partial (layers := 0) (t := 4) tets_ok tets_spread tets_reg tets_covered (tets_given hC)
    (endPick_fresh (cn := true)) (Or.inr rfl) true (fun _ _ => false) (fun _ l => l.reverse) (fun _ l => l.reverse_perm)
  have key := C100_cells_partial tets_ok tets_spread tets_reg tets_covered (tets_given hC) (endPick_fresh (cn := true)) (Or.inl rfl) h
  have hm := tets_mesh
  refine ⟨W', h, (key 2 (by omega) _).2 ⟨⟨3, 0⟩, ⟨rfl, hm 0 (by omega), .self⟩, rfl⟩,
    (key 1 (by omega) _).2 ⟨⟨3, 1⟩, ⟨rfl, hm 1 (by omega), .self⟩, rfl⟩, (key 1 (by omega) _).2 ⟨⟨3, 2⟩, ⟨rfl, hm 2 (by omega), .self⟩, rfl⟩,
    fun g hg => ?_, fun hg => ?_,
    C100_values_partial tets_ok tets_spread tets_reg tets_covered (tets_given hC) (endPick_fresh (cn := true)) h _ (fun p _ e _ => tets_val p e)⟩
  · obtain ⟨c, -, hc⟩ := (key 0 (by omega) g).1 hg
    split at hc <;> omega
  · obtain ⟨c, c1, hc⟩ := (key 2 (by omega) _).1 hg
    have hcc : (⟨3, 1⟩ : El) = c := tets_cell (part_true c1.part) rfl c1.cell
    subst hcc
    simp at hc

/-- One layer through faces: processor 0 gets the second cell, not the third. -/
example : ∃ W', Redistribute 3 2 1 true endPick (fun _ _ => false) (wish cut) tets W' ∧
    Has (W' 0) ⟨3, 1⟩ ∧ Has (W' 1) ⟨3, 0⟩ ∧ ¬ Has (W' 0) ⟨3, 2⟩ ∧
      ∃ O, O ⟨3, 2⟩ = 1 ∧ Spread 3 true { ofRows tetRows with owner := O } W' := by
  obtain ⟨W', h, -⟩ := C100_completes_partial (layers := 1) (t := 2) tets_ok tets_spread tets_reg tets_covered (tets_given cut_lt)
    (endPick_fresh (cn := true)) (Or.inl (by omega)) true (fun _ _ => false) (fun _ l => l.reverse) (fun _ l => l.reverse_perm)
  have key := C101_faces tets_ok tets_spread tets_reg tets_covered (tets_given cut_lt) (endPick_fresh (cn := true)) tets_two h
  obtain ⟨⟨O, h1, h2⟩, -⟩ := C100_partition_partial tets_ok tets_spread tets_reg tets_covered (tets_given cut_lt) (endPick_fresh (cn := true)) h
  refine ⟨W', h, (key 0 (by omega) _).2 ⟨⟨3, 1⟩, tets_within.2 (by decide +kernel), .self⟩,
    (key 1 (by omega) _).2 ⟨⟨3, 0⟩, tets_within.2 (by decide +kernel), .self⟩, fun hg => ?_, O, h1 ⟨3, 2⟩ rfl (tets_mesh 2 (by omega)), h2⟩
  obtain ⟨c, hc, hp⟩ := (key 0 (by omega) _).1 hg
  have : (⟨3, 2⟩ : El) = c := tets_cell (part_true hp) rfl (within_mesh hc).1
  subst this
  exact absurd (tets_within.1 hc) (by decide +kernel)

/-- C101 fails for more than one layer, and for one layer through nodes: the cells are chosen by what each processor sees before
the redistribution. Processor 0 should get the third cell: it is two steps away through faces and one step through nodes. -/
theorem C101_layers_fails : ∃ (n : Nat) (G : Whole) (W : Nat → Side Nat) (new : Nat → El → Nat) (C : El → Nat),
    G.Ok ∧ Spread n true G W ∧ Regular true G ∧ Covered n G W ∧ Given n W new C ∧ TwoCells n G W ∧
    (∀ t, t < 3 → Meets n { G with owner := C } W t) ∧
    ∀ t layers, (t = 2 ∧ layers = 2 ∨ t = 0 ∧ layers = 1) → ∃ W', Redistribute n t layers true endPick (fun _ _ => false) new W W' ∧
      ∃ q c, q < n ∧ Within n { G with owner := C } W t q layers c ∧ ¬ Has (W' q) c := by
  refine ⟨3, ofRows tetRows, tets, wish cut, fun g => cut g.id, tets_ok, tets_spread, tets_reg, tets_covered, tets_given cut_lt, tets_two,
    fun t ht => meets_check tets_reach tets_ty (by revert t; decide +kernel), fun t layers htl => ?_⟩
  obtain ⟨W', h, -⟩ := C100_completes_partial (layers := layers) (t := t) tets_ok tets_spread tets_reg tets_covered (tets_given cut_lt)
    (endPick_fresh (cn := true)) (Or.inl (by omega)) true (fun _ _ => false) (fun _ l => l) (fun _ l => .refl l)
  refine ⟨W', h, 0, ⟨3, 2⟩, by omega, tets_within.2 ?_, fun hg => ?_⟩
  · rcases htl with ⟨rfl, rfl⟩ | ⟨rfl, rfl⟩ <;> decide +kernel
  · obtain ⟨NC, D⟩ := redistribute_done tets_ok tets_spread tets_reg tets_covered (tets_given cut_lt) (endPick_fresh (cn := true)) h
    obtain ⟨c, c1, c2⟩ := (D.has 0 (by omega) _).1 hg
    have : (⟨3, 2⟩ : El) = c := tets_cell (part_true c1.part) rfl c1.cell
    subst this
    rcases D.cells.sound (by omega) _ rfl 0 c2 with h | ⟨p, i, hp, -, hn⟩
    · simp [cut] at h
    · have hp2 := (near_within tets_spread hp hn).2.1
      rw [← hasB_iff (tets_reach p hp)] at hp2
      have key : ∀ p, p < 3 → hasB (tets p) ⟨3, 2⟩ = true → p = 2 := by decide +kernel
      have hp2 : p = 2 := key p hp hp2
      subst hp2
      have hnone : ∀ i c, ¬ Near 3 (ofRows tetRows) tets (fun g => cut g.id) t 2 0 i c := by
        intro i c hn
        induction hn with
        | @first c f b d h1 h2 h3 h4 _ _ _ _ _ =>
          obtain ⟨x, hx, rfl, hf⟩ := (mem_cellParts tets_reach tets_ty).1 h1
          have key : ∀ x ∈ cellParts 3 (ofRows tetRows) tets, cut x.1.id = 0 → ∀ f ∈ x.2, f.ty = 2 → hasB (tets 2) f = false := by decide +kernel
          rw [← hasB_iff (tets_reach 2 (by omega)), key x hx h2 f hf h3] at h4
          cases h4
        | step _ _ _ _ _ _ ih => exact ih
      exact hnone i _ hn

/-! ## Example: the mesh on one processor -/

/-- The three tetrahedra on one processor. -/
def oneRows : List Row := tetRows.map fun r => { r with owner := 0 }

def oneT : Topo := (build (Topo.init true) (tetRows.map fun r => (r.e.ty, r.e.id, r.low, r.nodes))).get (by decide +kernel)

theorem reach_oneT : Reach true oneT := build_reach _ _ _ .init (getEq _)

def oneBare (p : Nat) : Side Nat where
  T := if p = 0 then oneT else Topo.init true
  num := fun e => e.id
  owner := fun _ => 0
  procs := fun _ => [0]
  status := fun _ => .owned
  val := fun e => e.id
  sh := fun _ _ => []
  gh := fun _ _ => []

/-- Processor 0 has everything, the other two nothing. -/
def one : Nat → Side Nat := stored 3 oneBare

theorem one_reach0 (p : Nat) (_ : p < 3) : Reach true (oneBare p).T := by
  show Reach true (if p = 0 then oneT else Topo.init true)
  split
  · exact reach_oneT
  · exact .init

theorem one_spread : Spread 3 true (ofRows oneRows) one := spread_check one_reach0 (by decide +kernel)

theorem one_ok : (ofRows oneRows).Ok := ok_check (by decide +kernel)

theorem one_reach (p : Nat) (_ : p < 3) : Reach true (one p).T := (one_spread.piece p ‹_›).reach

theorem one_ty : ∀ e x, x ∈ (ofRows oneRows).low e → x.ty < e.ty := ty_check (by decide +kernel)

theorem one_reg : Regular true (ofRows oneRows) := reg_check (by decide +kernel)

theorem one_two : TwoCells 3 (ofRows oneRows) one := two_check one_reach one_ty (by decide +kernel)

theorem one_empty : ∀ p, p < 3 → p ≠ 0 → ∀ g, ¬ Has (one p) g := by
  rintro p hp h0 g ⟨e, he, -⟩
  have key : ∀ p, p < 3 → p ≠ 0 → alls (one p).T = [] := by decide +kernel
  have := (mem_alls (one_reach p hp) e).2 he
  rw [key p hp h0] at this
  cases this

theorem one_covered : Covered 3 (ofRows oneRows) one := by
  intro p hp g hg
  by_cases h0 : p = 0
  · subst h0
    obtain ⟨e, he, rfl⟩ := hg
    have key : ∀ e ∈ alls (one 0).T, ∃ c ∈ ([⟨3, 0⟩, ⟨3, 1⟩, ⟨3, 2⟩] : List El), (parts (ofRows oneRows) 3 c).contains (name (one 0).num e) = true ∧
      hasB (one 0) c = true ∧ c.ty = 3 := by decide +kernel
    obtain ⟨c, -, h1, h2, h3⟩ := key e ((mem_alls (one_reach 0 (by omega)) e).2 he)
    rw [List.contains_iff_mem] at h1
    exact ⟨c, h3, (hasB_iff (one_reach 0 (by omega)) _).1 h2, parts_sound h1⟩
  · exact absurd hg (one_empty p hp h0 g)

/-- The mesh is read on one processor and distributed with two layers: processor 0 has the first cell and now gets the third one too. -/
example : ∃ W', Redistribute 3 2 2 true endPick (fun _ _ => false) (fun _ e => cut e.id) one W' ∧ Has (W' 0) ⟨3, 2⟩ ∧ Has (W' 1) ⟨3, 0⟩ ∧
    (∀ g, ¬ Has (W' 2) g) ∧ ¬ Has (one 1) ⟨3, 0⟩ := by
  have given : Given 3 one (fun _ e => cut e.id) (fun g => cut g.id) := fun p _ e _ _ _ =>
    ⟨(by show cut e.id = cut ((stored 3 oneBare p).num e); rw [stored_same.2]; rfl), cut_lt _⟩
  obtain ⟨W', h, -⟩ := C100_completes_partial (layers := 2) (t := 2) one_ok one_spread one_reg one_covered given
    (endPick_fresh (cn := true)) (Or.inl (by omega)) true (fun _ _ => false) (fun _ l => l) (fun _ l => .refl l)
  have whole : ∃ p, p < 3 ∧ ∀ g, InMesh 3 one g → Has (one p) g := ⟨0, by omega, fun g ⟨p, hp, hg⟩ => by
    by_cases h0 : p = 0
    · exact h0 ▸ hg
    · exact absurd hg (one_empty p hp h0 g)⟩
  have key := C101_layers_partial one_ok one_spread one_reg one_covered given (endPick_fresh (cn := true)) one_two
    (meets_check one_reach one_ty (by decide +kernel)) whole (by omega) (by omega) h
  have hw : ∀ {t q k : Nat} {c : El}, Within 3 { ofRows oneRows with owner := fun g => cut g.id } one t q k c ↔
    ∃ x ∈ withinL 3 { ofRows oneRows with owner := fun g => cut g.id } one t q k, x.1 = c :=
      (withinL_iff (G := { ofRows oneRows with owner := fun g => cut g.id }) one_reach one_ty).2
  refine ⟨W', h, (key 0 (by omega) _).2 ⟨⟨3, 2⟩, hw.2 (by decide +kernel), .self⟩,
    (key 1 (by omega) _).2 ⟨⟨3, 0⟩, hw.2 (by decide +kernel), .self⟩, fun g hg => ?_, one_empty 1 (by omega) (by omega) _⟩
  obtain ⟨c, hc, -⟩ := (key 2 (by omega) g).1 hg
  obtain ⟨c0, -, -, h0⟩ := within_own hc
  have h0 : cut c0.id = 2 := h0
  unfold cut at h0
  split at h0 <;> omega

end Verif.Migrate
