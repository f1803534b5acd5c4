import Verif.Parallel.Boundary
import Verif.Parallel.SyncProps
import Mathlib.Data.List.Perm.Subperm

/-!
# C83 on several processors
-/

namespace Verif.Parallel

/-- The home of a copy: the copy of the owner. -/
def Home (G : Nat → Local Int) (p : Nat) (e : El) (q : Nat) (f : El) : Prop :=
  (p = q ∧ e = f ∧ (G p).status e ≠ .ghost) ∨ GhostOf G p e q f

/-- Two copies, on processors with numbers below `n`, of one element of the distributed mesh. -/
def Copies (n : Nat) (G : Nat → Local Int) (p : Nat) (e : El) (p' : Nat) (e' : El) : Prop :=
  p' < n ∧ e' ∈ (G p').elems ∧ ∃ q f, Home G p e q f ∧ Home G p' e' q f

/-- The global number `i` belongs to a cell that has the face `e` of processor `p`, on some
processor. -/
def Touches (n : Nat) (G : Nat → Local Int) (cells : Nat → El → List Int) (p : Nat) (e : El) (i : Int) : Prop :=
  ∃ p' e', Copies n G p e p' e' ∧ i ∈ cells p' e'

theorem bound_final {n k : Nat} {cells : Nat → El → List Int} {G G2 : Nat → Local Int} (D : Distributed n G)
    (hc : ∀ p, p < n → ∀ e, e ∈ (G p).elems → e.ty = 2 → (cells p e).Nodup)
    (hst : ∀ p, p < n → ∀ e, e ∈ (G p).elems → (G p).status e ≠ .shared → (G p).status e ≠ .ghost →
      ∀ p' e', ¬ GhostOf G p' e' p e)
    (h : BoundRun n k cells G G2) {p : Nat} (hp : p < n) {e : El} (he : e ∈ (G p).elems) (h2 : e.ty = 2) :
    (G2 p).elems = (G p).elems ∧ ∃ l, (G2 p).data k e = some l ∧ l.Nodup ∧ ∀ i, i ∈ l ↔ Touches n G cells p e i := by
  obtain ⟨G1, h1, hx⟩ := h
  obtain ⟨D1, hs1, s1, hsel, hsh, hot⟩ := bound_mid D hc h1
  obtain ⟨x1, x2⟩ := exchange_collective D1 hs1 (by simp) hx
  have s2 : SameMesh n G G2 := s1.trans (sameMesh_data x1)
  refine ⟨s2.elems p hp, ?_⟩
  -- the arrays of owners
  have own : ∀ q, q < n → ∀ f, f ∈ (G q).elems → f.ty = 2 → (G q).status f ≠ .ghost →
      ∃ res, (G1 q).data k f = some res ∧ res.Nodup ∧
        ∀ i, i ∈ res ↔ i ∈ cells q f ∨ ∃ p e, p < n ∧ GhostOf G p e q f ∧ i ∈ cells p e := by
    intro q hq f hf ht hg
    by_cases hs : (G q).status f = .shared
    · exact hsh q hq f hf ht hs
    · refine ⟨cells q f, hot q hq f ht hs, hc q hq f hf ht, fun i => ⟨Or.inl, ?_⟩⟩
      rintro (h | ⟨p', e', _, hgh, _⟩)
      · exact h
      · exact absurd hgh (hst q hq f hf hs hg p' e')
  have homes : ∀ {q f}, q < n → f ∈ (G q).elems → (G q).status f ≠ .ghost → Home G p e q f → ∀ i,
      (i ∈ cells q f ∨ ∃ p e, p < n ∧ GhostOf G p e q f ∧ i ∈ cells p e) ↔ Touches n G cells p e i := by
    intro q f hq hf hg hh i
    constructor
    · rintro (h | ⟨p', e', hp', hgh, h⟩)
      · exact ⟨q, f, ⟨hq, hf, q, f, hh, Or.inl ⟨rfl, rfl, hg⟩⟩, h⟩
      · exact ⟨p', e', ⟨hp', hgh.mem, q, f, hh, Or.inr hgh⟩, h⟩
    · rintro ⟨p', e', ⟨hp', _, q', f', hh', hh2⟩, h⟩
      have : q' = q ∧ f' = f := by
        rcases hh with ⟨rfl, rfl, hng⟩ | hgh
        · rcases hh' with ⟨rfl, rfl, _⟩ | hgh'
          · exact ⟨rfl, rfl⟩
          · exact absurd hgh'.ghost hng
        · rcases hh' with ⟨rfl, rfl, hng⟩ | hgh'
          · exact absurd hgh.ghost hng
          · have e1 : q' = q := hgh'.owner.symm.trans hgh.owner
            subst e1
            exact ⟨rfl, D.unique _ hq f' f hgh'.mem' hgh.mem' (hgh'.same.1.symm.trans hgh.same.1)
              (hgh'.same.2.symm.trans hgh.same.2)⟩
      obtain ⟨rfl, rfl⟩ := this
      rcases hh2 with ⟨rfl, rfl, _⟩ | hgh
      · exact Or.inl h
      · exact Or.inr ⟨p', e', hp', hgh, h⟩
  by_cases hg : (G p).status e = .ghost
  · obtain ⟨hq, e', hgh⟩ := D.owner p hp e he hg
    have ht : e'.ty = 2 := by rw [← hgh.same.1]; exact h2
    obtain ⟨res, r1, r2, r3⟩ := own _ hq e' hgh.mem' ht (by rw [hgh.shared]; simp)
    have r4 := fun i => (r3 i).trans (homes hq hgh.mem' (by rw [hgh.shared]; simp) (Or.inr hgh) i)
    have hgh1 : GhostOf G1 p e ((G p).owner e) e' := s1.ghostOf hp hq hgh
    have y := x2 p hp (k, boundTag) (by simp) e
    cases hr : res with
    | nil =>
      have r5 : ∀ i, ¬ Touches n G cells p e i := fun i h => by
        have := (r4 i).2 h; rw [hr] at this; simp at this
      have := y.2 (by
        intro q2 e2 hg2 _ _ _ a l
        have e1 : q2 = (G p).owner e := by rw [← hg2.owner, s1.owner p hp]
        subst e1
        have e3 : e2 = e' := D1.unique _ hq e2 e' hg2.mem' hgh1.mem' (hg2.same.1.symm.trans hgh1.same.1)
          (hg2.same.2.symm.trans hgh1.same.2)
        subst e3
        simp only
        rw [r1, hr]; simp)
      simp only at this
      have hne : (G p).status e ≠ .shared := by rw [hg]; simp
      rw [hot p hp e h2 hne] at this
      refine ⟨cells p e, this, hc p hp e he h2, fun i => ⟨fun hi => ?_, fun hi => absurd hi (r5 i)⟩⟩
      exact ⟨p, e, ⟨hp, he, _, e', Or.inr hgh, Or.inr hgh⟩, hi⟩
    | cons a l =>
      have := y.1 _ e' a l hgh1 (by simp [h2]) (by simp [boundTag, h2]) (by rw [hsel p hp]) (by
        simp only; rw [r1, hr])
      simp only at this
      exact ⟨a :: l, this, hr ▸ r2, fun i => by rw [← hr]; exact r4 i⟩
  · obtain ⟨res, r1, r2, r3⟩ := own p hp e he h2 hg
    refine ⟨res, ?_, r2, fun i => (r3 i).trans (homes hp he hg (Or.inl ⟨rfl, rfl, hg⟩) i)⟩
    have y := (x2 p hp (k, boundTag) (by simp) e).2 (by
      intro q2 e2 hg2
      have := hg2.ghost
      rw [s1.status p hp] at this
      exact absurd this hg)
    simp only at y
    rw [y, r1]

theorem length_one_iff {l : List Int} (hn : l.Nodup) : l.length = 1 ↔ ∃ i, ∀ j, j ∈ l ↔ j = i := by
  match l with
  | [] =>
    constructor
    · intro h; cases h
    · rintro ⟨i, h⟩; exact absurd ((h i).2 rfl) (by simp)
  | [a] => exact ⟨fun _ => ⟨a, by simp⟩, fun _ => rfl⟩
  | a :: b :: l =>
    constructor
    · intro h; simp at h
    · rintro ⟨i, h⟩
      have h1 := (h a).1 (by simp)
      have h2 := (h b).1 (by simp)
      rw [h1, h2] at hn
      simp at hn

/-- C83 on `n` processors: after MarkBoundaryFaces a face, be it owned, shared or a ghost, is marked iff
exactly one cell of the whole mesh has it, wherever that cell is stored; other elements keep their mark.
The order in which messages arrive does not matter. -/
theorem C83_distributed (n k : Nat) (cells : Nat → El → List Int) (G G2 : Nat → Local Int)
    (D : Distributed n G)
    (hc : ∀ p, p < n → ∀ e, e ∈ (G p).elems → e.ty = 2 → (cells p e).Nodup)
    (h : BoundRun n k cells G G2) (p : Nat) (hp : p < n) (mrk : El → Bool) :
    (∀ e, e ∈ (G p).elems → e.ty = 2 →
      (boundFinish k (G2 p) mrk e = true ↔ ∃ i, ∀ j, Touches n G cells p e j ↔ j = i)) ∧
    ∀ e, e.ty ≠ 2 → boundFinish k (G2 p) mrk e = mrk e := by
  have hst : ∀ p, p < n → ∀ e, e ∈ (G p).elems → (G p).status e ≠ .shared → (G p).status e ≠ .ghost →
      ∀ p' e', ¬ GhostOf G p' e' p e := fun p _ e _ h1 _ p' e' hg => h1 hg.shared
  constructor
  · intro e he h2
    obtain ⟨h1, l, h3, h4, h5⟩ := bound_final D hc hst h hp he h2
    unfold boundFinish
    rw [if_pos ⟨by rw [h1]; exact he, h2⟩, decide_eq_true_iff, h3]
    simp only [Option.getD_some]
    rw [length_one_iff h4]
    simp only [h5]
  · intro e h2
    unfold boundFinish
    rw [if_neg fun h => h2 h.2]

/-- C83: the assertion at the end holds if no face has three different cells in the whole mesh. -/
theorem C83_assert (n k : Nat) (cells : Nat → El → List Int) (G G2 : Nat → Local Int)
    (D : Distributed n G)
    (hc : ∀ p, p < n → ∀ e, e ∈ (G p).elems → e.ty = 2 → (cells p e).Nodup)
    (h : BoundRun n k cells G G2) (p : Nat) (hp : p < n)
    (h3 : ∀ e, e ∈ (G p).elems → e.ty = 2 → ∃ i j, ∀ x, Touches n G cells p e x → x = i ∨ x = j) :
    boundAssert k (G2 p) = true := by
  have hst : ∀ p, p < n → ∀ e, e ∈ (G p).elems → (G p).status e ≠ .shared → (G p).status e ≠ .ghost →
      ∀ p' e', ¬ GhostOf G p' e' p e := fun p _ e _ h1 _ p' e' hg => h1 hg.shared
  unfold boundAssert
  rw [List.all_eq_true]
  intro e he
  split
  · next h2 =>
    have he' : e ∈ (G p).elems := by
      obtain ⟨G1, h1, hx⟩ := h
      obtain ⟨D1, hs1, s1, -⟩ := bound_mid D hc h1
      obtain ⟨x1, -⟩ := exchange_collective D1 hs1 (by simp) hx
      rw [(s1.trans (sameMesh_data x1)).elems p hp] at he
      exact he
    obtain ⟨-, l, h4, h5, h6⟩ := bound_final D hc hst h hp he' h2
    obtain ⟨i, j, h7⟩ := h3 e he' h2
    rw [decide_eq_true_iff, h4]
    simp only [Option.getD_some]
    have hsub : ∀ x ∈ l, x ∈ [i, j] := fun x hx => by
      have := h7 x ((h6 x).1 hx)
      simpa using this
    exact (List.subperm_of_subset h5 hsub).length_le
  · rfl

/-- C83: MarkBoundaryFaces has an execution that ends, in no execution the processors wait for each other for
ever or an assertion of the exchange fails. -/
theorem C83_terminates (n k : Nat) (cells : Nat → El → List Int) (G : Nat → Local Int)
    (D : Distributed n G)
    (hc : ∀ p, p < n → ∀ e, e ∈ (G p).elems → e.ty = 2 → (cells p e).Nodup) :
    (∃ G2, BoundRun n k cells G G2) ∧
    ∀ C G0, (C = reduceCall n [(k, boundTag)] (fun i => i == 2) boundUnpack ∧ G0 = boundInit k cells G) ∨
        (C = exchangeCall n [(k, boundTag)] (fun i => i == 2) ∧
          Collective (reduceCall n [(k, boundTag)] (fun i => i == 2) boundUnpack) (boundInit k cells G) G0) →
      ∀ tr S, Run C G0 tr S → (∀ ev, step C S ev ≠ .failed) ∧
        (¬ Done C S → ∃ ev S', step C S ev = .ok S') ∧ tr.length ≤ n + n * n := by
  have s0 : SameMesh n G (boundInit k cells G) := boundInit_same
  have ok1 : CallOk (reduceCall n [(k, boundTag)] (fun i => i == 2) boundUnpack) (boundInit k cells G) :=
    ⟨s0.distributed D fun _ _ _ _ _ _ _ => rfl,
      bound_sized fun p _ e _ h2 => by rw [boundInit_data h2]; simp, by simp [reduceCall], fun t ht => by
      rw [show t = (k, boundTag) from List.mem_singleton.1 ht]
      exact boundUnpack_safe⟩
  have ok2 : ∀ G1, Collective (reduceCall n [(k, boundTag)] (fun i => i == 2) boundUnpack)
      (boundInit k cells G) G1 → CallOk (exchangeCall n [(k, boundTag)] fun i => i == 2) G1 := by
    intro G1 h1
    obtain ⟨D1, hs1, -⟩ := bound_mid D hc h1
    exact exchange_ok D1 hs1 (by simp)
  constructor
  · obtain ⟨G1, h1⟩ := collective_exists ok1
    obtain ⟨G2, h2⟩ := collective_exists (ok2 G1 h1)
    exact ⟨G2, G1, h1, h2⟩
  · intro C G0 hC tr S hr
    have : CallOk C G0 ∧ C.n = n := by
      rcases hC with ⟨rfl, rfl⟩ | ⟨rfl, h1⟩
      · exact ⟨ok1, rfl⟩
      · exact ⟨ok2 _ h1, rfl⟩
    obtain ⟨H, hn⟩ := this
    have I := run_inv H hr
    refine ⟨fun ev => (step_inv H I ev).1, progress H I, ?_⟩
    rw [← hn]
    exact run_length I

/-! ## Example: two processors, face 0 of processor 0 is shared, its ghost is face 1 of processor 1 -/

def bMesh : Nat → Local Int
  | 0 => {
      elems := [⟨2, 0⟩, ⟨2, 2⟩, ⟨2, 4⟩]
      status := fun e => if e.id = 0 then .shared else .owned
      owner := fun _ => 0
      procs := fun e => if e.id = 0 then [0, 1] else [0]
      key := fun e => 10 + e.id
      sel := fun _ => false
      data := fun _ _ => none }
  | p => {
      elems := if p = 1 then [⟨2, 1⟩, ⟨2, 3⟩] else []
      status := fun e => if e.id = 1 then .ghost else .owned
      owner := fun e => if e.id = 1 then 0 else 1
      procs := fun e => if e.id = 1 then [0, 1] else [1]
      key := fun e => if e.id = 1 then 10 else 30
      sel := fun _ => false
      data := fun _ _ => none }

/-- Cell 100 of processor 0 has the faces 0 and 2, cell 200 of processor 1 has the faces 1 and 3; the face 4 of
processor 0 has no cell. -/
def bCells (p : Nat) (e : El) : List Int := if e.id = 4 then [] else if p = 0 then [100] else [200]

theorem bMesh_ok : Distributed 2 bMesh := distributed_of (by decide +kernel)

theorem bCells_ok : ∀ p, p < 2 → ∀ e, e ∈ (bMesh p).elems → e.ty = 2 → (bCells p e).Nodup := by
  intro p _ e _ _
  unfold bCells
  split
  · simp
  · split <;> simp

/-- The face between the processors is not marked although each of them has one cell at it; the other
faces with a cell are. -/
example : ∃ G2, BoundRun 2 0 bCells bMesh G2 ∧ (bMesh 0).status ⟨2, 0⟩ = .shared ∧
    (bMesh 1).status ⟨2, 1⟩ = .ghost ∧
    boundFinish 0 (G2 0) (fun _ => true) ⟨2, 0⟩ = false ∧ boundFinish 0 (G2 1) (fun _ => true) ⟨2, 1⟩ = false ∧
    boundFinish 0 (G2 0) (fun _ => false) ⟨2, 2⟩ = true ∧ boundFinish 0 (G2 1) (fun _ => false) ⟨2, 3⟩ = true := by
  refine ⟨((runEvents (exchangeCall 2 [(0, boundTag)] fun i => i == 2) [.start 0, .start 1, .deliver 1 0]
      (initSys ((runEvents (reduceCall 2 [(0, boundTag)] (fun i => i == 2) boundUnpack)
        [.start 1, .start 0, .deliver 0 1] (initSys (boundInit 0 bCells bMesh))).get (by decide +kernel)).loc)).get
          (by decide +kernel)).loc, ⟨_, ⟨[.start 1, .start 0, .deliver 0 1], _, run_of (Option.some_get _).symm,
          done_of (by decide +kernel), rfl⟩, ⟨[.start 0, .start 1, .deliver 1 0], _, run_of (Option.some_get _).symm,
          done_of (by decide +kernel), rfl⟩⟩, rfl, rfl, by decide +kernel, by decide +kernel, by decide +kernel,
          by decide +kernel⟩

/-- A face without cells is a boundary face on one processor (`C83_lists_partial`: fewer than two cells), but is not
marked when there are several processors. -/
theorem C83_no_cells_fails : ∃ (cells : Nat → El → List Int) (G : Nat → Local Int) (e : El), Distributed 2 G ∧
    (∀ p, p < 2 → ∀ e, e ∈ (G p).elems → e.ty = 2 → (cells p e).Nodup) ∧
    e ∈ (G 0).elems ∧ e.ty = 2 ∧ (∀ i, ¬ Touches 2 G cells 0 e i) ∧
    ∀ G2, BoundRun 2 0 cells G G2 → ∀ mrk, boundFinish 0 (G2 0) mrk e = false := by
  have hT : ∀ i, ¬ Touches 2 bMesh bCells 0 ⟨2, 4⟩ i := by
    rintro i ⟨p', e', ⟨_, he, q, f, h1, h2⟩, hi⟩
    rcases h1 with ⟨rfl, rfl, _⟩ | h1
    · rcases h2 with ⟨rfl, rfl, _⟩ | h2
      · simp [bCells] at hi
      · have := h2.shared
        cases this
    · have := h1.ghost
      cases this
  refine ⟨bCells, bMesh, ⟨2, 4⟩, bMesh_ok, bCells_ok, by decide, rfl, hT, fun G2 h mrk => ?_⟩
  have := (C83_distributed 2 0 bCells bMesh G2 bMesh_ok bCells_ok h 0 (by decide) mrk).1 ⟨2, 4⟩ (by decide) rfl
  cases hb : boundFinish 0 (G2 0) mrk ⟨2, 4⟩ with
  | false => rfl
  | true =>
    obtain ⟨i, hi⟩ := this.1 hb
    exact absurd ((hi i).2 rfl) (hT i)

end Verif.Parallel
