import Verif.Split.CellsProps

/-!
# Property C89: examples, and what uniting cells does not do
-/

namespace Verif.Split
open Verif.Topology Verif.EdgeLoop

/-- A tetrahedron divided into four by the node 4 inside. -/
def tet4 : Topo := (build (Topo.init true) [(0, 0, [], []), (0, 1, [], []), (0, 2, [], []), (0, 3, [], []), (0, 4, [], []),
  (1, 0, [nd 0, nd 1], []), (1, 1, [nd 0, nd 2], []), (1, 2, [nd 0, nd 3], []), (1, 3, [nd 1, nd 2], []),
  (1, 4, [nd 1, nd 3], []), (1, 5, [nd 2, nd 3], []), (1, 6, [nd 0, nd 4], []), (1, 7, [nd 1, nd 4], []),
  (1, 8, [nd 2, nd 4], []), (1, 9, [nd 3, nd 4], []),
  (2, 0, [ed 0, ed 3, ed 1], []), (2, 1, [ed 0, ed 4, ed 2], []), (2, 2, [ed 1, ed 5, ed 2], []), (2, 3, [ed 3, ed 5, ed 4], []),
  (2, 4, [ed 0, ed 7, ed 6], []), (2, 5, [ed 1, ed 8, ed 6], []), (2, 6, [ed 2, ed 9, ed 6], []), (2, 7, [ed 3, ed 8, ed 7], []),
  (2, 8, [ed 4, ed 9, ed 7], []), (2, 9, [ed 5, ed 9, ed 8], []),
  (3, 0, [fc 0, fc 4, fc 7, fc 5], [nd 0, nd 1, nd 2, nd 4]), (3, 1, [fc 1, fc 4, fc 8, fc 6], [nd 0, nd 1, nd 3, nd 4]),
  (3, 2, [fc 2, fc 5, fc 9, fc 6], [nd 0, nd 2, nd 3, nd 4]), (3, 3, [fc 3, fc 7, fc 9, fc 8], [nd 1, nd 2, nd 3, nd 4])]).get
  (by decide +kernel)

theorem reach_tet4 : Reach true tet4 := build_reach _ _ _ .init (getEq _)

def allFour : List El := [⟨3, 0⟩, ⟨3, 1⟩, ⟨3, 2⟩, ⟨3, 3⟩]

instance (T : Topo) (x : El) : Decidable (Visible T x) := inferInstanceAs (Decidable (_ ∧ _))

theorem args_tet4 : UniteArgs tet4 allFour :=
  ⟨by decide +kernel, by decide +kernel, by decide +kernel, by decide +kernel⟩

def noProt : El → Bool := fun _ => false

/-- All four cells united. -/
def tet1 : Topo × Option El :=
  (uniteCells (fun _ _ => false) tet4 false noProt allFour 4 [nd 0, nd 1, nd 2, nd 3]).get (by decide +kernel)

theorem tet1_eq : uniteCells (fun _ _ => false) tet4 false noProt allFour 4 [nd 0, nd 1, nd 2, nd 3] = some (tet1.1, tet1.2) :=
  getEq2 _

theorem from_tet4 : NodesFrom tet4 allFour [nd 0, nd 1, nd 2, nd 3] := by
  have h : ∀ n ∈ [nd 0, nd 1, nd 2, nd 3], ∃ f ∈ [fc 0, fc 1], ∃ e ∈ edgesOf tet4 f, visits tet4 allFour f = 1 ∧ n ∈ tet4.low e := by
    decide +kernel
  intro n hn
  obtain ⟨f, -, e, h1, h2, h3⟩ := h n hn
  exact ⟨f, e, h2, h1, h3⟩

/-- The four cells are replaced by one tetrahedron, and the node inside, its edges and faces disappear. -/
example : tet1.2 = some ⟨3, 4⟩ ∧ tet1.1.low ⟨3, 4⟩ = [fc 0, fc 1, fc 2, fc 3] ∧ tet1.1.alive (nd 4) = false ∧
    tet1.1.alive (ed 6) = false ∧ tet1.1.alive (fc 4) = false ∧ tet1.1.alive (ed 0) = true ∧
    tet1.1.alive ⟨3, 0⟩ = false := by decide +kernel

/-- The theorems applied to this mesh. -/
example : Reach true tet1.1 := C89_reach reach_tet4 args_tet4 from_tet4 (by decide) (fun _ _ => rfl) tet1_eq
example := C89_elements reach_tet4 args_tet4 from_tet4 (by decide) (fun _ _ => rfl) tet1_eq (nd 4)
example := C89_cell reach_tet4 args_tet4 from_tet4 (by decide) (fun _ _ => rfl) tet1_eq ⟨fc 0, by decide +kernel⟩
example : facesAt tet1.1 ⟨3, 4⟩ (ed 0) % 2 = 0 :=
  C89_even reach_tet4 args_tet4 from_tet4 (by decide) (fun _ _ => rfl) tet1_eq ⟨3, 4⟩ (by decide +kernel) (ed 0) (by decide +kernel)
example : tet1.1.high ⟨3, 4⟩ = [nd 0, nd 1, nd 2, nd 3] :=
  C89_nodes reach_tet4 args_tet4 from_tet4 (by decide) (fun _ _ => rfl) tet1_eq ⟨3, 4⟩ (by decide +kernel)
example : (facesOf tet1.1 (fc 0)).Perm (facesOf tet4 (fc 0)) :=
  (C89_rest reach_tet4 args_tet4 from_tet4 (by decide) (fun _ _ => rfl) tet1_eq (fc 0) (by decide +kernel) (by
    rintro (h | h | h | h)
    · revert h; decide
    · exact absurd (show 2 ≤ visits tet4 allFour (fc 0) from h) (by decide +kernel)
    · exact absurd (EdgeVanish.ok (reach_inv reach_tet4).1 args_tet4 h).1 (by decide)
    · exact absurd (NodeVanish.ok (reach_inv reach_tet4).1 args_tet4 h).1 (by decide))).1 (by decide)

/-- The node inside has to be removed. -/
theorem node_vanish : NodeVanish tet4 allFour (nd 4) := by
  rw [← mem_remNodes args_tet4]
  decide +kernel

/-- Only the node inside is protected. -/
def protNode : El → Bool := fun x => decide (x = nd 4)

example : tet4 = tet4 ∧ (none : Option El) = none := by
  have h : uniteCells (fun _ _ => false) tet4 false protNode allFour 4 [nd 0, nd 1, nd 2, nd 3] = some (tet4, none) := by
    unfold uniteCells
    rw [if_neg (by decide +kernel), if_neg (by decide), if_neg (by decide), if_pos (by decide +kernel)]
  exact C89_refuse args_tet4 h (Or.inr ⟨nd 4, Or.inr (Or.inr (Or.inr node_vanish)), rfl⟩)

example := C89_protect reach_tet4 args_tet4 from_tet4 tet1_eq (nd 0) (by decide +kernel)

/-- The stored nodes of the cells. -/
theorem nodes_tet4 : NodesOfFaces tet4 := by
  have I := (reach_inv reach_tet4).1
  intro c n h3 hv hn
  have hc : c ∈ allFour := by
    have h1 := I.lastLt c hv.1
    have h2 : tet4.last 3 = 4 := by decide +kernel
    cases c with | mk ty id =>
    simp only at h3 h1
    subst h3
    rw [h2] at h1
    have : id = 0 ∨ id = 1 ∨ id = 2 ∨ id = 3 := by omega
    rcases this with rfl | rfl | rfl | rfl <;> decide
  have key : ∀ c ∈ allFour, ∀ n ∈ tet4.high c, ∃ f ∈ facesOf tet4 c, ∃ e ∈ edgesOf tet4 f, n ∈ tet4.low e := by decide +kernel
  exact key c hc n hn

example : ∃ T' ret, uniteCells (fun _ _ => false) tet4 false noProt allFour 4 [nd 0, nd 1, nd 2, nd 3] = some (T', ret) :=
  C89_defined reach_tet4 args_tet4 from_tet4 nodes_tet4 (by decide +kernel)

example := C89_test (prot := noProt) reach_tet4 args_tet4
example : testUniteCells tet4 noProt allFour = some true := by decide +kernel

/-! ## Where the code deviates -/

/-- C89 fails: the test succeeds although a protected node would have to be removed, and `UniteCells` refuses. -/
theorem C89_test_fails : ∃ (T : Topo) (prot : El → Bool) (unite : List El), Reach true T ∧ UniteArgs T unite ∧
    testUniteCells T prot unite = some true ∧
    ∀ flip dup id nodes T' ret, uniteCells flip T dup prot unite id nodes = some (T', ret) → T' = T ∧ ret = none :=
  ⟨tet4, protNode, allFour, reach_tet4, args_tet4, by decide +kernel, fun _ _ _ _ _ _ h =>
    C89_refuse args_tet4 h (Or.inr ⟨nd 4, Or.inr (Or.inr (Or.inr node_vanish)), rfl⟩)⟩

/-- Two tetrahedra `0 1 2 3` and `0 1 4 5` with a common edge. -/
def touch : Topo := (build (Topo.init true) (((List.range 6).map fun i => (0, i, [], [])) ++
  [(1, 0, [nd 0, nd 1], []), (1, 1, [nd 0, nd 2], []), (1, 2, [nd 0, nd 3], []), (1, 3, [nd 1, nd 2], []),
  (1, 4, [nd 1, nd 3], []), (1, 5, [nd 2, nd 3], []), (1, 6, [nd 0, nd 4], []), (1, 7, [nd 0, nd 5], []),
  (1, 8, [nd 1, nd 4], []), (1, 9, [nd 1, nd 5], []), (1, 10, [nd 4, nd 5], []),
  (2, 0, [ed 0, ed 3, ed 1], []), (2, 1, [ed 0, ed 4, ed 2], []), (2, 2, [ed 1, ed 5, ed 2], []), (2, 3, [ed 3, ed 5, ed 4], []),
  (2, 4, [ed 0, ed 8, ed 6], []), (2, 5, [ed 0, ed 9, ed 7], []), (2, 6, [ed 6, ed 10, ed 7], []), (2, 7, [ed 8, ed 10, ed 9], []),
  (3, 0, [fc 0, fc 1, fc 2, fc 3], [nd 0, nd 1, nd 2, nd 3]), (3, 1, [fc 4, fc 5, fc 6, fc 7], [nd 0, nd 1, nd 4, nd 5])])).get
  (by decide +kernel)

theorem reach_touch : Reach true touch := build_reach _ _ _ .init (getEq _)

def touched : Topo × Option El :=
  (uniteCells (fun _ _ => false) touch false noProt [⟨3, 0⟩, ⟨3, 1⟩] 2 ((List.range 6).map nd)).get (by decide +kernel)

theorem touched_eq : uniteCells (fun _ _ => false) touch false noProt [⟨3, 0⟩, ⟨3, 1⟩] 2 ((List.range 6).map nd) =
    some (touched.1, touched.2) := getEq2 _

/-- C89 fails: cells that only have an edge in common are united without complaint, and the result has four faces at this
edge. -/
theorem C89_touch_fails : ∃ (T T' : Topo) (unite nodes : List El) (id : Nat) (g e : El), Reach true T ∧ UniteArgs T unite ∧
    (∀ c ∈ unite, ∀ i < 11, facesAt T c (ed i) = 0 ∨ facesAt T c (ed i) = 2) ∧ testUniteCells T noProt unite = some true ∧
    uniteCells (fun _ _ => false) T false noProt unite id nodes = some (T', some g) ∧ facesAt T' g e = 4 := by
  have he : touched.2 = some ⟨3, 2⟩ := by decide +kernel
  exact ⟨touch, touched.1, [⟨3, 0⟩, ⟨3, 1⟩], (List.range 6).map nd, 2, ⟨3, 2⟩, ed 0, reach_touch,
    ⟨by decide +kernel, by decide +kernel, by decide +kernel, by decide +kernel⟩, by decide +kernel, by decide +kernel,
    by rw [touched_eq, he], by decide +kernel⟩

def touchM : Topo := (touch.beginMod).get (by decide +kernel)

theorem reach_touchM : Reach true touchM := .beginMod reach_touch (getEq _)

def lost : Topo × Option El :=
  (uniteCells (fun _ _ => false) touchM false noProt [⟨3, 0⟩, ⟨3, 0⟩] 2 []).get (by decide +kernel)

theorem lost_eq : uniteCells (fun _ _ => false) touchM false noProt [⟨3, 0⟩, ⟨3, 0⟩] 2 [] = some (lost.1, lost.2) := getEq2 _

/-- C89 fails: if a cell is given twice during a modification, then all its faces count as inner faces.  The cell and its
faces are hidden, and no cell is returned. -/
theorem C89_repeat_fails : ∃ (T T' : Topo) (c f : El), Reach true T ∧ Visible T c ∧ Visible T f ∧ f ∈ facesOf T c ∧
    uniteCells (fun _ _ => false) T false noProt [c, c] 2 [] = some (T', none) ∧ ¬ Visible T' c ∧ ¬ Visible T' f := by
  have he : lost.2 = none := by decide +kernel
  exact ⟨touchM, lost.1, ⟨3, 0⟩, fc 2, reach_touchM, by decide +kernel, by decide +kernel, by decide +kernel,
    by rw [lost_eq, he], by decide +kernel, by decide +kernel⟩

/-- The two tetrahedra of `pyr5` and a third cell with the face between them. -/
def third : Topo := (build (Topo.init true) (((List.range 5).map fun i => (0, i, [], [])) ++
  [(1, 0, [nd 0, nd 1], []), (1, 1, [nd 0, nd 2], []), (1, 2, [nd 1, nd 2], []), (1, 3, [nd 0, nd 3], []),
  (1, 4, [nd 1, nd 3], []), (1, 5, [nd 2, nd 3], []), (1, 6, [nd 0, nd 4], []), (1, 7, [nd 1, nd 4], []), (1, 8, [nd 2, nd 4], []),
  (2, 0, [ed 0, ed 2, ed 1], []), (2, 1, [ed 0, ed 4, ed 3], []), (2, 2, [ed 1, ed 5, ed 3], []), (2, 3, [ed 2, ed 5, ed 4], []),
  (2, 4, [ed 0, ed 7, ed 6], []), (2, 5, [ed 1, ed 8, ed 6], []), (2, 6, [ed 2, ed 8, ed 7], []),
  (2, 7, [ed 0, ed 7, ed 6], []), (2, 8, [ed 1, ed 8, ed 6], []), (2, 9, [ed 2, ed 8, ed 7], []),
  (3, 0, [fc 0, fc 1, fc 2, fc 3], []), (3, 1, [fc 0, fc 4, fc 5, fc 6], []), (3, 2, [fc 0, fc 7, fc 8, fc 9], [])])).get
  (by decide +kernel)

theorem reach_third : Reach true third := build_reach _ _ _ .init (getEq _)

def thirdOut : Topo × Option El :=
  (uniteCells (fun _ _ => false) third false (fun x => decide (x = ⟨3, 2⟩)) [⟨3, 0⟩, ⟨3, 1⟩] 3 []).get (by decide +kernel)

theorem thirdOut_eq : uniteCells (fun _ _ => false) third false (fun x => decide (x = ⟨3, 2⟩)) [⟨3, 0⟩, ⟨3, 1⟩] 3 [] =
    some (thirdOut.1, thirdOut.2) := getEq2 _

/-- C89 fails: if a third cell has the face between the cells, then it is deleted together with the face, although it is
not among the given cells and even if it is protected. -/
theorem C89_third_fails : ∃ (T T' : Topo) (prot : El → Bool) (c : El) (unite : List El) (ret : Option El), Reach true T ∧
    Visible T c ∧ c ∉ unite ∧ prot c = true ∧
    uniteCells (fun _ _ => false) T false prot unite 3 [] = some (T', ret) ∧ ¬ Visible T' c :=
  ⟨third, thirdOut.1, fun x => decide (x = ⟨3, 2⟩), ⟨3, 2⟩, [⟨3, 0⟩, ⟨3, 1⟩], thirdOut.2, reach_third, by decide +kernel, by decide,
    by decide, thirdOut_eq, by decide +kernel⟩

end Verif.Split
