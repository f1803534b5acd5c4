import Verif.Topology.BridgeLemmas
import Verif.Topology.Props

/-!
# C82, C83: neighbours through a bridge, neighbouring cells, boundary faces
-/

namespace Verif.Topology

/-- `x` and `y` are incident: one of them is the other one, or lies on its boundary, or on the boundary of
its boundary, ..., through elements that are not hidden. -/
def Incident (T : Topo) (x y : El) : Prop := Below T y x ∨ Below T x y

/-- The cells of a face that are not hidden. -/
def cellsOf (T : Topo) (f : El) : List El := (T.high f).filter fun x => !T.hid x

theorem mem_cellsOf {T : Topo} {f c : El} : c ∈ cellsOf T f ↔ c ∈ T.high f ∧ T.hid c = false := by
  simp [cellsOf]

/-! ## C82 -/

/-- C82: `BridgeAdjacencies` returns, each once, the elements of the types `dest` that are incident to an
element incident to `x` of the types `brid`, without those incident to `x` itself (these are kept
if `brid` has the type of `x`), the masks being respected; the private marker is
left clean. -/
theorem C82_bridge {cn : Bool} {T : Topo} (r : GoodReach cn T) (x : El) (hx : T.alive x = true)
    (hv : T.hid x = false) (brid dest : Nat → Bool) (bmask tmask : Option (El → Bool)) (binv tinv : Bool) :
    ∃ l, T.bridge x brid dest bmask binv tmask tinv (fun _ => false) = some (l, fun _ => false) ∧
      l.Nodup ∧
      ∀ y, y ∈ l ↔ dest y.ty = true ∧ (∀ m, tmask = some m → m y = !tinv) ∧
        (∃ b, brid b.ty = true ∧ (∀ m, bmask = some m → m b = !binv) ∧ Incident T x b ∧ Incident T b y) ∧
        (brid x.ty = true ∨ ¬ Incident T x y) := by
  obtain ⟨I, -, G⟩ := goodReach r
  have pick : ∀ (mask : Option (El → Bool)) (inv : Bool) (y : El),
      picked mask inv y = true ↔ ∀ m, mask = some m → m y = !inv := by
    intro mask inv y
    cases mask with
    | none => simp [picked]
    | some m => cases inv <;> cases h : m y <;> simp [picked, h]
  have all : ∀ {z : El}, T.alive z = true → z.ty ∈ [0, 1, 2, 3] := by
    intro z hz
    have := I.tyLe z hz
    simp only [List.mem_cons, List.not_mem_nil, or_false]
    omega
  have sp : ∀ (z : El) (m : Nat → Bool), T.alive z = true → T.hid z = false →
      ∃ l, T.getAdj z m [0, 1, 2, 3] = some l ∧
        ∀ y, y ∈ l ↔ m y.ty = true ∧ Incident T z y := by
    intro z m hz hzv
    obtain ⟨l, h1, -, -, h4⟩ := getAdj_spec I G hz hzv m [0, 1, 2, 3] (by decide) (by decide)
    refine ⟨l, h1, fun y => ?_⟩
    rw [h4]
    constructor
    · exact fun h => h.2
    · exact fun h => ⟨all (incident_alive I hz h.2), h⟩
  have vis : ∀ {z y : El}, Incident T z y → T.hid y = false := by
    rintro z y (h | h)
    · exact (below_vis h).1
    · exact (below_vis h).2
  obtain ⟨adj, ea, ha⟩ := sp x brid hx hv
  obtain ⟨my0, em, hm⟩ := sp x dest hx hv
  have hsub : ∀ b, ∃ l, b ∈ adj → T.getAdj b dest [0, 1, 2, 3] = some l ∧
      ∀ y, y ∈ l ↔ dest y.ty = true ∧ Incident T b y := by
    intro b
    by_cases hb : b ∈ adj
    · have hi := ((ha b).1 hb).2
      obtain ⟨l, h⟩ := sp b dest (incident_alive I hx hi) (vis hi)
      exact ⟨l, fun _ => h⟩
    · exact ⟨[], fun h => absurd h hb⟩
  choose sub hs using hsub
  have key : ∀ my, (∀ y, y ∈ my ↔ brid x.ty = false ∧ dest y.ty = true ∧ Incident T x y) →
      (if brid x.ty then some [] else T.getAdj x dest [0, 1, 2, 3]) = some my →
      ∃ l, T.bridge x brid dest bmask binv tmask tinv (fun _ => false) = some (l, fun _ => false) ∧
      l.Nodup ∧
      ∀ y, y ∈ l ↔ dest y.ty = true ∧ (∀ m, tmask = some m → m y = !tinv) ∧
        (∃ b, brid b.ty = true ∧ (∀ m, bmask = some m → m b = !binv) ∧ Incident T x b ∧ Incident T b y) ∧
        (brid x.ty = true ∨ ¬ Incident T x y) := by
    intro my hmy emy
    have M0 : Marked (setMarks my fun _ => false) [] (setMarks my fun _ => false) :=
      ⟨List.nodup_nil, by simp, by simp⟩
    obtain ⟨r, hr, M, hl⟩ := bridgeLoop_spec (bsel := picked bmask binv) (tsel := picked tmask tinv) adj []
      _ (fun b hb => (hs b hb).1) M0
    unfold Topo.bridge
    rw [ea]
    simp only
    rw [emy]
    simp only
    rw [hr]
    refine ⟨r.1, ?_, M.nodup, fun y => ?_⟩
    · have : remMarks my (remMarks r.1 r.2) = fun _ => false := by
        funext y
        unfold remMarks
        by_cases h1 : y ∈ my
        · rw [if_pos h1]
        · rw [if_neg h1]
          by_cases h2 : y ∈ r.1
          · rw [if_pos h2]
          · rw [if_neg h2]
            cases h3 : r.2 y with
            | false => rfl
            | true =>
              rcases (M.mark y).1 h3 with h | h
              · unfold setMarks at h; rw [if_neg h1] at h; cases h
              · exact absurd h h2
      simp only [this]
    · rw [hl]
      have h0 : (setMarks my fun _ => false) y = false ↔ y ∉ my := by
        unfold setMarks
        by_cases h : y ∈ my <;> simp [h]
      simp only [List.not_mem_nil, false_or]
      rw [pick, h0, hmy]
      constructor
      · rintro ⟨h1, h2, b, hb, h3, h4⟩
        obtain ⟨h5, h6⟩ := ((hs b hb).2 y).1 h4
        refine ⟨h5, h1, ⟨b, ((ha b).1 hb).1, (pick _ _ _).1 h3, ((ha b).1 hb).2, h6⟩, ?_⟩
        by_cases h7 : brid x.ty = true
        · exact Or.inl h7
        · exact Or.inr fun h8 => h2 ⟨by simpa using h7, h5, h8⟩
      · rintro ⟨h1, h2, ⟨b, h3, h4, h5, h6⟩, h7⟩
        have hb := (ha b).2 ⟨h3, h5⟩
        refine ⟨h2, ?_, b, hb, (pick _ _ _).2 h4, ((hs b hb).2 y).2 ⟨h1, h6⟩⟩
        rintro ⟨h8, -, h9⟩
        rcases h7 with h7 | h7
        · rw [h8] at h7; cases h7
        · exact h7 h9
  cases hb : brid x.ty with
  | true =>
    rw [hb] at key
    exact key [] (by simp) (by simp)
  | false =>
    rw [hb] at key
    exact key my0 (fun y => by rw [hm]; simp) (by simpa using em)

/-- C82 for elements of the type of `x` through elements of another type: the other elements that have an
incident element in common with `x`.  For example the cells that share a node, an edge or a face with a
cell, the nodes at the other ends of the edges of a node. -/
theorem C82_other {cn : Bool} {T : Topo} (r : GoodReach cn T) (x : El) (hx : T.alive x = true)
    (hv : T.hid x = false) (brid : Nat → Bool) (hb : brid x.ty = false) :
    ∃ l, T.bridge x brid (fun i => i == x.ty) none false none false (fun _ => false) =
        some (l, fun _ => false) ∧ l.Nodup ∧
      ∀ y, y ∈ l ↔ y.ty = x.ty ∧ y ≠ x ∧ ∃ b, brid b.ty = true ∧ Incident T x b ∧ Incident T b y := by
  obtain ⟨l, h1, h2, h3⟩ := C82_bridge r x hx hv brid (fun i => i == x.ty) none none false false
  obtain ⟨I, -, -⟩ := goodReach r
  refine ⟨l, h1, h2, fun y => ?_⟩
  rw [h3]
  simp only [beq_iff_eq, reduceCtorEq, false_imp_iff, implies_true, true_and, hb, Bool.false_eq_true, false_or]
  constructor
  · rintro ⟨h4, h5, h6⟩
    refine ⟨h4, ?_, h5⟩
    rintro rfl
    exact h6 (Or.inl (.refl hv))
  · rintro ⟨h4, h5, h6⟩
    refine ⟨h4, h6, ?_⟩
    rintro (h | h)
    · exact h5 ((below0 I (by omega)).1 h).1
    · exact h5 ((below0 I (by omega)).1 h).1.symm

/-- Cells 0 and 1 share face 0; the nodes reached from node 0 over an edge. -/
example : w9.bridge (cl 0) (fun i => i == 2) (fun i => i == 3) none false none false (fun _ => false) ≠ none ∧
    (w9.bridge (cl 0) (fun i => i == 2) (fun i => i == 3) none false none false
      (fun _ => false)).map (·.1) = some [cl 1] ∧
    (w9.bridge (nd 1) (fun i => i == 1) (fun i => i == 0) none false none false
      (fun _ => false)).map (·.1) = some [nd 0, nd 2] ∧
    (w9.bridge (nd 1) (fun i => i == 1) (fun i => i == 0) (some fun b => b == ed 0) true none false
      (fun _ => false)).map (·.1) = some [nd 2] ∧ w9.alive (cl 0) = true ∧ w9.hid (cl 0) = false := by
  refine ⟨?_, by decide +kernel, by decide +kernel, by decide +kernel, by decide +kernel, by decide +kernel⟩
  intro h
  have : (w9.bridge (cl 0) (fun i => i == 2) (fun i => i == 3) none false none false
    (fun _ => false)).isSome = true := by decide +kernel
  rw [h] at this
  cases this

/-- C82: the back cell and the front cell of a face are the first and the second of its cells that are not
hidden; a face is oriented outside of its back cell only. -/
theorem C82_back_front (T : Topo) (f : El) (hf : T.alive f = true) (ht : f.ty = 2) :
    T.backCell f = some (cellsOf T f)[0]? ∧ T.frontCell f = some (cellsOf T f)[1]? ∧
    ∀ c, T.orientedOutside f c = some (decide ((cellsOf T f)[0]? = some c)) := by
  refine ⟨backCell_eq hf ht, frontCell_eq hf ht, fun c => ?_⟩
  unfold Topo.orientedOutside
  rw [show T.backCell f = some (cellsOf T f)[0]? from backCell_eq hf ht]
  simp only
  congr 1
  rw [Bool.eq_iff_iff, beq_iff_eq, decide_eq_true_iff]

/-- C82: the neighbour of a cell over one of its faces is the other cell of that face, and is invalid iff
there is none, as long as a face has at most two cells. -/
theorem C82_neighbour {cn : Bool} {T : Topo} (r : GoodReach cn T) (c f : El) (hf : f.ty = 2)
    (h2 : (cellsOf T f).length ≤ 2) (hc : c ∈ cellsOf T f) :
    ∃ o, T.neighbour c f = some o ∧ ∀ y, o = some y ↔ y ≠ c ∧ y ∈ cellsOf T f := by
  obtain ⟨I, -, G⟩ := goodReach r
  obtain ⟨h1, hv⟩ := mem_cellsOf.1 hc
  obtain ⟨o, h3, h4⟩ := neighbour_eq (I.highLive (fun h => h) h1).1 hf ((G.nodupHigh I f).filter _) h2 h1 hv
  exact ⟨o, h3, fun y => by rw [h4, mem_cellsOf]⟩

/-- C82: `NeighbouringCells` lists every other cell as often as it shares a face with the cell, and nothing
else. -/
theorem C82_neighbouring_cells {cn : Bool} {T : Topo} (r : GoodReach cn T) (c : El)
    (hc : T.alive c = true) (ht : c.ty = 3) (hv : T.hid c = false)
    (h2 : ∀ f, f ∈ T.low c → (cellsOf T f).length ≤ 2) :
    ∃ l, T.neighbouringCells c = some l ∧
      ∀ y, l.count y = (T.low c).countP fun f => decide (y ≠ c ∧ y ∈ cellsOf T f) := by
  obtain ⟨I, -, G⟩ := goodReach r
  have hl : T.lcOf c = some (T.low c) := if_pos ⟨hc, Or.inl (by omega)⟩
  have hvis : ((T.low c).filter fun f => !T.hid f) = T.low c := by
    refine List.filter_eq_self.2 fun f hf => ?_
    rw [G.visDown I hf (by omega) hv]; rfl
  unfold Topo.neighbouringCells
  rw [if_neg (by simp [ht]), hl]
  simp only
  rw [hvis]
  refine neighbourLoop_spec (P := fun f y => y ≠ c ∧ y ∈ cellsOf T f) (T.low c) fun f hf => ?_
  have h3 : f.ty + 1 = c.ty := (I.lowTy c f hf).1 (by omega)
  exact C82_neighbour r c f (by omega) (h2 f hf)
    (mem_cellsOf.2 ⟨(I.mem (fun h => h)).1 hf, hv⟩)

/-- The same cell is listed once per common face, so the list of neighbouring cells can have
repetitions: here cells 0 and 1 share the faces 0 and 1. -/
def w10 : Topo := ((w8.create false 3 1 [fc 0, fc 1] [nd 0, nd 1, nd 2]).get (by decide +kernel)).1

theorem good_w8 : GoodReach true w8 := by
  have g1 : GoodReach true w1 := .createNode 0 .init (getEq _)
  have g2 : GoodReach true w2 := .createNode 1 g1 (getEq _)
  have g3 : GoodReach true w3 := .createNode 2 g2 (getEq _)
  have g4 : GoodReach true w4 := .create true 1 0 [nd 0, nd 1] [] g3
    (goodArgs_of (by decide) (by decide +kernel) (by decide +kernel) (by decide) (by decide)
      (by decide +kernel) (by decide)) (getEq2 _)
  have g5 : GoodReach true w5 := .create true 1 1 [nd 1, nd 2] [] g4
    (goodArgs_of (by decide) (by decide +kernel) (by decide +kernel) (by decide) (by decide)
      (by decide +kernel) (by decide)) (getEq2 _)
  have g6 : GoodReach true w6 := .create true 2 0 [ed 0, ed 1] [] g5
    (goodArgs_of (by decide) (by decide +kernel) (by decide +kernel) (by decide) (by decide)
      (by decide +kernel) (by decide)) (getEq2 _)
  have g7 : GoodReach true w7 := .create false 2 1 [ed 1] [] g6
    (goodArgs_of (by decide) (by decide +kernel) (by decide +kernel) (by decide) (by decide)
      (by decide +kernel) (by decide)) (getEq2 _)
  exact .create true 3 0 [fc 0, fc 1] [nd 0, nd 1, nd 2] g7
    (goodArgs_of (by decide) (by decide +kernel) (by decide +kernel) (by decide) (by decide)
      (by decide +kernel) (by decide +kernel)) (getEq2 _)

theorem good_w10 : GoodReach true w10 :=
  .create false 3 1 [fc 0, fc 1] [nd 0, nd 1, nd 2] good_w8
    (goodArgs_of (by decide) (by decide +kernel) (by decide +kernel) (by decide) (by decide)
      (by decide +kernel) (by decide +kernel)) (getEq2 _)

/-- `NeighbouringCells` is not free of repetitions. -/
theorem C82_repeated_fails : ∃ T c y, GoodReach true T ∧ T.alive c = true ∧ c.ty = 3 ∧ T.hid c = false ∧
    (∀ f, f ∈ T.low c → (cellsOf T f).length ≤ 2) ∧ T.neighbouringCells c = some [y, y] :=
  ⟨w10, cl 0, cl 1, good_w10, by decide +kernel, rfl, by decide +kernel, by decide +kernel,
    by decide +kernel⟩

/-- Three cells at one face, which the library allows: the neighbours of the third one over the
face are reported as the first one only. -/
def w11 : Topo := ((w9.create false 3 2 [fc 0, fc 1] [nd 0, nd 1, nd 2]).get (by decide +kernel)).1

theorem good_w11 : GoodReach true w11 :=
  .create false 3 2 [fc 0, fc 1] [nd 0, nd 1, nd 2] good_w9
    (goodArgs_of (by decide) (by decide +kernel) (by decide +kernel) (by decide) (by decide)
      (by decide +kernel) (by decide +kernel)) (getEq2 _)

/-- A third cell at a face is accepted by the library and then misses from the neighbours. -/
theorem C82_three_cells_fails : ∃ T c c' f, GoodReach true T ∧ c ∈ cellsOf T f ∧ c' ∈ cellsOf T f ∧ c ≠ c' ∧
    f.ty = 2 ∧ (∃ y, T.neighbour c f = some (some y) ∧ y ≠ c') :=
  ⟨w11, cl 0, cl 2, fc 0, good_w11, by decide +kernel, by decide +kernel, by decide, rfl,
    cl 1, by decide +kernel, by decide⟩

example : w9.neighbour (cl 0) (fc 0) = some (some (cl 1)) ∧ w9.neighbour (cl 1) (fc 0) = some (some (cl 0)) ∧
    w9.neighbour (cl 0) (fc 1) = some none ∧ w9.neighbouringCells (cl 0) = some [cl 1] ∧
    (cellsOf w9 (fc 0)).length = 2 ∧ cl 0 ∈ cellsOf w9 (fc 0) := by decide +kernel

/-! ## C83 -/

/-- C83: a face is a boundary face iff it has fewer than two cells; any other element is at the boundary iff
a face incident to it is. -/
theorem C83_boundary {cn : Bool} {T : Topo} (r : GoodReach cn T) (x : El) (hx : T.alive x = true)
    (hv : T.hid x = false) :
    ∃ b, T.boundary x = some b ∧
      (b = true ↔ ∃ f, f.ty = 2 ∧ Incident T x f ∧ (cellsOf T f).length < 2) := by
  obtain ⟨I, -, G⟩ := goodReach r
  have h3 := I.tyLe x hx
  unfold Topo.boundary
  by_cases ht : x.ty = 2
  · rw [if_pos ht, faceBoundary_eq hx ht]
    refine ⟨_, rfl, ?_⟩
    rw [decide_eq_true_iff]
    constructor
    · intro h; exact ⟨x, ht, Or.inl (.refl hv), h⟩
    · rintro ⟨f, hf, hi, h⟩
      have : f = x := by
        rcases hi with hi | hi
        · exact ((below0 I (by omega)).1 hi).1
        · exact ((below0 I (by omega)).1 hi).1.symm
      rw [this] at h; exact h
  · rw [if_neg ht, if_pos h3]
    obtain ⟨l, h1, -, -, h4⟩ := getAdj_spec I G hx hv (fun i => i == 2) [0, 1, 2, 3] (by decide) (by decide)
    rw [h1]
    simp only
    rw [anyBoundary_spec (p := fun f => decide ((cellsOf T f).length < 2)) l fun f hf => by
      have := (h4 f).1 hf
      exact faceBoundary_eq (incident_alive I hx this.2.2) (by simpa using this.2.1)]
    refine ⟨_, rfl, ?_⟩
    rw [List.any_eq_true]
    simp only [decide_eq_true_eq]
    constructor
    · rintro ⟨f, hf, h⟩
      have := (h4 f).1 hf
      exact ⟨f, by simpa using this.2.1, this.2.2, h⟩
    · rintro ⟨f, hf, hi, h⟩
      exact ⟨f, (h4 f).2 ⟨by rw [hf]; decide, by rw [hf]; rfl, hi⟩, h⟩

/-- C83: outside of modifications, the lists of boundary and of interior faces, the number of boundary faces
and the marks of boundary faces agree with the number of cells of the faces.  Missing: the lists during
a modification (`C83_hidden_fails`). -/
theorem C83_lists_partial {cn : Bool} {T : Topo} (r : GoodReach cn T) (hh : T.hide = false)
    (mrk : El → Bool) :
    ∃ b i mrk', T.gatherBoundary = some b ∧ T.gatherInterior = some i ∧ T.countBoundary = some b.length ∧
      T.markBoundary mrk = some mrk' ∧ b.Nodup ∧ i.Nodup ∧
      (∀ f, f ∈ b ↔ T.alive f = true ∧ f.ty = 2 ∧ (T.high f).length < 2) ∧
      (∀ f, f ∈ i ↔ T.alive f = true ∧ f.ty = 2 ∧ (T.high f).length = 2) ∧
      (∀ f, T.alive f = true → f.ty = 2 → (mrk' f = true ↔ (T.high f).length < 2)) ∧
      ∀ x, x.ty ≠ 2 → mrk' x = mrk x := by
  obtain ⟨I, -, G⟩ := goodReach r
  have hb : ∀ f ∈ T.faceIds, T.boundary f = some (decide ((T.high f).length < 2)) := by
    intro f hf
    obtain ⟨ha, ht⟩ := (mem_faceIds I).1 hf
    unfold Topo.boundary
    rw [if_pos ht, faceBoundary_eq ha ht, vis_all hh]
  have hi : ∀ f ∈ T.faceIds, T.nbAdj f (fun i => i == 3) [0, 1, 2, 3] = some (T.high f).length := by
    intro f hf
    obtain ⟨ha, ht⟩ := (mem_faceIds I).1 hf
    have h1 : T.nb1 f 3 = some (T.high f).length := by
      unfold Topo.nb1
      rw [if_neg (by omega), if_pos (by omega), hcOf_face ha ht, Option.map_some, countVis_eq, vis_all hh]
    simp [Topo.nbAdj, h1]
  obtain ⟨e1, e2⟩ := gatherB_spec T.faceIds hb
  refine ⟨_, _, _, e1, gatherI_spec T.faceIds hi, e2, markB_spec T.faceIds mrk hb, nodup_faceIds.filter _,
    nodup_faceIds.filter _, fun f => ?_, fun f => ?_, fun f ha ht => ?_, fun x hx => ?_⟩
  · rw [List.mem_filter, mem_faceIds I, decide_eq_true_iff, and_assoc]
  · rw [List.mem_filter, mem_faceIds I, decide_eq_true_iff, and_assoc]
  · rw [if_pos ((mem_faceIds I).2 ⟨ha, ht⟩), decide_eq_true_iff]
  · rw [if_neg fun h => hx ((mem_faceIds I).1 h).2]

/-- During a modification a face that was deleted by the user (and is hidden) is listed as a boundary
face. -/
theorem C83_hidden_fails : ∃ T f l, GoodReach true T ∧ T.hid f = true ∧ T.gatherBoundary = some l ∧ f ∈ l :=
  ⟨m2, fc 1, (m2.gatherBoundary).get (by decide +kernel), good_m2, by decide +kernel,
    (Option.some_get _).symm, by decide +kernel⟩

/-- A face with three cells is neither a boundary nor an interior face. -/
theorem C83_three_cells_fails : ∃ T f b i, GoodReach true T ∧ T.hide = false ∧ T.alive f = true ∧ f.ty = 2 ∧
    T.gatherBoundary = some b ∧ T.gatherInterior = some i ∧ f ∉ b ∧ f ∉ i :=
  ⟨w11, fc 0, (w11.gatherBoundary).get (by decide +kernel), (w11.gatherInterior).get (by decide +kernel),
    good_w11, by decide +kernel, by decide +kernel, rfl,
    (Option.some_get _).symm, (Option.some_get _).symm, by decide +kernel, by decide +kernel⟩

example : w9.gatherBoundary = some [fc 1] ∧ w9.gatherInterior = some [fc 0] ∧
    w9.boundary (cl 0) = some true ∧ w9.boundary (cl 1) = some false ∧ w9.boundary (nd 0) = some false ∧
    w9.boundary (nd 1) = some true ∧ w9.hide = false := by
  decide +kernel

end Verif.Topology
