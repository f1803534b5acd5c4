import Verif.Split.CellProps

/-!
# Property C88: examples, and what splitting a cell does not do
-/

namespace Verif.Split
open Verif.Topology Verif.EdgeLoop

/-- A pyramid whose base is divided by the diagonal `ed 8`, and the triangle `fc 6` over the diagonal. -/
def pyr4 : Topo := (build (Topo.init true) [(0, 0, [], []), (0, 1, [], []), (0, 2, [], []), (0, 3, [], []), (0, 4, [], []),
  (1, 0, [nd 0, nd 1], []), (1, 1, [nd 1, nd 2], []), (1, 2, [nd 2, nd 3], []), (1, 3, [nd 3, nd 0], []),
  (1, 4, [nd 0, nd 4], []), (1, 5, [nd 1, nd 4], []), (1, 6, [nd 2, nd 4], []), (1, 7, [nd 3, nd 4], []),
  (1, 8, [nd 0, nd 2], []), (2, 0, [ed 0, ed 1, ed 8], []), (2, 5, [ed 8, ed 2, ed 3], []), (2, 1, [ed 0, ed 5, ed 4], []),
  (2, 2, [ed 1, ed 6, ed 5], []), (2, 3, [ed 2, ed 7, ed 6], []), (2, 4, [ed 3, ed 4, ed 7], []),
  (2, 6, [ed 8, ed 6, ed 4], []),
  (3, 0, [fc 0, fc 1, fc 2, fc 3, fc 4, fc 5], [nd 0, nd 1, nd 2, nd 3, nd 4])]).get (by decide +kernel)

theorem reach_pyr4 : Reach true pyr4 := build_reach _ _ _ .init (getEq _)

theorem args_pyr4 : CellArgs pyr4 ⟨3, 0⟩ [fc 6] := ⟨rfl, by decide +kernel, by decide +kernel, by decide +kernel⟩

def pyr4news : List (Nat × List El) := [(1, [nd 0, nd 1, nd 2, nd 4]), (2, [nd 0, nd 2, nd 3, nd 4])]

def pyr5 : Topo × List El := (splitCell unit (fun _ _ => false) pyr4 false false ⟨3, 0⟩ [fc 6] pyr4news).get
  (by decide +kernel)

theorem pyr5_eq : splitCell unit (fun _ _ => false) pyr4 false false ⟨3, 0⟩ [fc 6] pyr4news = some pyr5 := getEq _

/-- The pyramid is replaced by two tetrahedra with the triangle between them. -/
example : pyr5.2 = [⟨3, 1⟩, ⟨3, 2⟩] ∧ (pyr5.1.low ⟨3, 1⟩).Perm [fc 0, fc 1, fc 2, fc 6] ∧
    (pyr5.1.low ⟨3, 2⟩).Perm [fc 3, fc 4, fc 5, fc 6] ∧ pyr5.1.high (fc 6) = [⟨3, 1⟩, ⟨3, 2⟩] ∧ pyr5.1.alive ⟨3, 0⟩ = false := by
  decide +kernel

/-- The theorems applied to this mesh. -/
example : Reach true pyr5.1 := C88_reach reach_pyr4 args_pyr4 (by decide +kernel) (by decide +kernel) pyr5_eq
example := C88_cells reach_pyr4 args_pyr4 (by decide +kernel) (by decide +kernel) pyr5_eq
example := C88_uses reach_pyr4 args_pyr4 (by decide +kernel) (by decide +kernel) pyr5_eq (fc 6)
example := C88_elsewhere reach_pyr4 args_pyr4 (by decide +kernel) (by decide +kernel) pyr5_eq
example : pyr5.1.high ⟨3, 1⟩ = [nd 0, nd 1, nd 2, nd 4] :=
  C88_nodes reach_pyr4 args_pyr4 (by decide +kernel) (by decide +kernel) pyr5_eq 0 _ _ rfl (by decide +kernel)
example : ∃ T' ret, splitCell unit (fun _ _ => false) pyr4 false false ⟨3, 0⟩ [fc 6]
    ((List.range 8).map fun i => (i + 1, [])) = some (T', ret) :=
  C88_defined reach_pyr4 args_pyr4 (by decide +kernel) (by decide +kernel) (by decide) (by decide) (by decide +kernel)
    (by decide +kernel)

/-! ## Given faces that are not used -/

/-- Cross product. -/
def cross (p q : Int × Int × Int) : Int × Int × Int :=
  (p.2.1 * q.2.2 - p.2.2 * q.2.1, p.2.2 * q.1 - p.1 * q.2.2, p.1 * q.2.1 - p.2.1 * q.1)

/-- Twice the vector of the area of the polygon with the corners `ps`. -/
def twiceVec (ps : List (Int × Int × Int)) : Int × Int × Int :=
  ((List.range ps.length).map fun i => match ps[i]?, ps[(i + 1) % ps.length]? with
    | some p, some q => cross p q
    | _, _ => (0, 0, 0)).foldl (fun a b => (a.1 + b.1, a.2.1 + b.2.1, a.2.2 + b.2.2)) (0, 0, 0)

/-- A prism of height 100 over a square `0, 1, 2, 3` with the diagonal `ed 4` and a second way `ed 5`, `ed 6`, `ed 7` over the
nodes 4 and 5.  The nodes 6 to 11 are above the nodes 0 to 5, the edges `ed 8` to `ed 15` above `ed 0` to `ed 7`, `ed 16` to `ed 21`
are upright.  Faces: `fc 0, 1, 2` at the bottom, `fc 3, 4, 5` at the top, the sides `fc 6` to `fc 9`, and walls
`fc 10` to `fc 13` over the inner edges. -/
def tower : Topo := (build (Topo.init true) (((List.range 12).map fun i => (0, i, [], [])) ++
  [(1, 0, [nd 0, nd 1], []), (1, 1, [nd 1, nd 2], []), (1, 2, [nd 2, nd 3], []), (1, 3, [nd 3, nd 0], []),
  (1, 4, [nd 0, nd 2], []), (1, 5, [nd 0, nd 4], []), (1, 6, [nd 4, nd 5], []), (1, 7, [nd 5, nd 2], []),
  (1, 8, [nd 6, nd 7], []), (1, 9, [nd 7, nd 8], []), (1, 10, [nd 8, nd 9], []), (1, 11, [nd 9, nd 6], []),
  (1, 12, [nd 6, nd 8], []), (1, 13, [nd 6, nd 10], []), (1, 14, [nd 10, nd 11], []), (1, 15, [nd 11, nd 8], []),
  (1, 16, [nd 0, nd 6], []), (1, 17, [nd 1, nd 7], []), (1, 18, [nd 2, nd 8], []), (1, 19, [nd 3, nd 9], []),
  (1, 20, [nd 4, nd 10], []), (1, 21, [nd 5, nd 11], []),
  (2, 0, [ed 0, ed 1, ed 7, ed 6, ed 5], []), (2, 1, [ed 4, ed 7, ed 6, ed 5], []), (2, 2, [ed 4, ed 2, ed 3], []),
  (2, 3, [ed 8, ed 9, ed 15, ed 14, ed 13], []), (2, 4, [ed 12, ed 15, ed 14, ed 13], []), (2, 5, [ed 12, ed 10, ed 11], []),
  (2, 6, [ed 0, ed 17, ed 8, ed 16], []), (2, 7, [ed 1, ed 18, ed 9, ed 17], []), (2, 8, [ed 2, ed 19, ed 10, ed 18], []),
  (2, 9, [ed 3, ed 16, ed 11, ed 19], []),
  (2, 10, [ed 4, ed 18, ed 12, ed 16], []), (2, 11, [ed 5, ed 20, ed 13, ed 16], []), (2, 12, [ed 6, ed 21, ed 14, ed 20], []),
  (2, 13, [ed 7, ed 18, ed 15, ed 21], []),
  (3, 0, (List.range 10).map fc, (List.range 12).map nd)])).get (by decide +kernel)

theorem reach_tower : Reach true tower := build_reach _ _ _ .init (getEq _)

/-- The places of the nodes. -/
def towerPos (n : El) : Int × Int × Int :=
  let p := [(0, 0), (8, 15), (16, 0), (8, -15), (4, 3), (12, 3)].getD (n.id % 6) (0, 0)
  (p.1, p.2, if n.id < 6 then 0 else 100)

/-- The corners of the faces. -/
def towerCorners (f : El) : List El :=
  [[nd 0, nd 1, nd 2, nd 5, nd 4], [nd 0, nd 2, nd 5, nd 4], [nd 0, nd 2, nd 3], [nd 6, nd 7, nd 8, nd 11, nd 10],
    [nd 6, nd 8, nd 11, nd 10], [nd 6, nd 8, nd 9], [nd 0, nd 1, nd 7, nd 6], [nd 1, nd 2, nd 8, nd 7],
    [nd 2, nd 3, nd 9, nd 8], [nd 3, nd 0, nd 6, nd 9], [nd 0, nd 2, nd 8, nd 6], [nd 0, nd 4, nd 10, nd 6],
    [nd 4, nd 5, nd 11, nd 10], [nd 5, nd 2, nd 8, nd 11]].getD f.id []

/-- The areas of the faces. -/
def towerArea (f : El) : Int := [84, 36, 120, 84, 36, 120, 1700, 1700, 1700, 1700, 1600, 500, 800, 500].getD f.id 0

def towerGiven : List El := [fc 10, fc 11, fc 12, fc 13]

def tower1 : Topo × List El := (splitCell (Incident.Meas.exact towerArea 0 1000000) (fun _ _ => false) tower false false ⟨3, 0⟩
  towerGiven [(1, (List.range 12).map nd), (2, [nd 0, nd 2, nd 3, nd 6, nd 8, nd 9])]).get (by decide +kernel)

/-- The three parts. -/
def towerParts : List (List El) := [[fc 0, fc 3, fc 6, fc 7, fc 11, fc 12, fc 13], [fc 1, fc 4, fc 10, fc 11, fc 12, fc 13],
  [fc 2, fc 5, fc 8, fc 9, fc 10]]

/-- C88 fails for parts: the given faces need not be used although they cut the cell into parts.  The areas are those that
belong to the places of the nodes, and there are three closed sets of faces that use every face of the cell once and
every given face twice; but the call returns two cells, and three of the given faces belong to no cell. -/
theorem C88_unused_fails : ∃ (T T' : Topo) (pos : El → Int × Int × Int) (area : El → Int) (corners : El → List El) (c : El)
    (faces ret : List El) (news : List (Nat × List El)) (parts : List (List El)),
    Reach true T ∧ CellArgs T c faces ∧
    (∀ f ∈ faces ++ facesOf T c, Loop T (edgesOf T f) (corners f) ∧ 0 < area f ∧
      let v := twiceVec ((corners f).map pos)
      (2 * area f) * (2 * area f) = v.1 * v.1 + v.2.1 * v.2.1 + v.2.2 * v.2.2) ∧
    (∀ p ∈ parts, 4 ≤ p.length ∧ p.Nodup ∧ Incident.Closed T.low p) ∧
    (∀ f ∈ facesOf T c, (parts.countP fun p => decide (f ∈ p)) = 1) ∧
    (∀ f ∈ faces, (parts.countP fun p => decide (f ∈ p)) = 2) ∧
    splitCell (Incident.Meas.exact area 0 1000000) (fun _ _ => false) T false false c faces news = some (T', ret) ∧
    ret.length + 1 = parts.length ∧ (faces.filter fun f => decide (T'.high f = [])).length = 3 := by
  refine ⟨tower, tower1.1, towerPos, towerArea, towerCorners, ⟨3, 0⟩, towerGiven, tower1.2, _, towerParts, reach_tower,
    ⟨rfl, by decide +kernel, by decide +kernel, by decide +kernel⟩, ?_, ?_, by decide +kernel, by decide +kernel, getEq2 _,
    by decide +kernel, by decide +kernel⟩
  · have e : towerGiven ++ facesOf tower ⟨3, 0⟩ = [10, 11, 12, 13, 0, 1, 2, 3, 4, 5, 6, 7, 8, 9].map fc := by decide +kernel
    rw [e]
    simp only [List.map_cons, List.map_nil, List.mem_cons, List.not_mem_nil, or_false]
    rintro f (rfl | rfl | rfl | rfl | rfl | rfl | rfl | rfl | rfl | rfl | rfl | rfl | rfl | rfl) <;>
      exact ⟨loop_of (by decide +kernel) (by decide +kernel) (by decide +kernel), by decide +kernel, by decide +kernel⟩
  · simp only [towerParts, List.mem_cons, List.not_mem_nil, or_false]
    rintro p (rfl | rfl | rfl) <;> exact ⟨by decide, by decide, Incident.closed_of (by decide +kernel)⟩

/-! ## Cavities -/

/-- A tetrahedron `0, 1, 2, 3` with a tetrahedral cavity `4, 5, 6, 7`, and a triangle `fc 8` inside that has one edge in the
boundary. -/
def cave : Topo := (build (Topo.init true) (((List.range 9).map fun i => (0, i, [], [])) ++
  [(1, 0, [nd 0, nd 1], []), (1, 1, [nd 0, nd 2], []), (1, 2, [nd 0, nd 3], []), (1, 3, [nd 1, nd 2], []),
  (1, 4, [nd 1, nd 3], []), (1, 5, [nd 2, nd 3], []), (1, 6, [nd 4, nd 5], []), (1, 7, [nd 4, nd 6], []), (1, 8, [nd 4, nd 7], []),
  (1, 9, [nd 5, nd 6], []), (1, 10, [nd 5, nd 7], []), (1, 11, [nd 6, nd 7], []), (1, 12, [nd 0, nd 8], []), (1, 13, [nd 8, nd 1], []),
  (2, 0, [ed 0, ed 3, ed 1], []), (2, 1, [ed 0, ed 4, ed 2], []), (2, 2, [ed 1, ed 5, ed 2], []), (2, 3, [ed 3, ed 5, ed 4], []),
  (2, 4, [ed 6, ed 9, ed 7], []), (2, 5, [ed 6, ed 10, ed 8], []), (2, 6, [ed 7, ed 11, ed 8], []), (2, 7, [ed 9, ed 11, ed 10], []),
  (2, 8, [ed 0, ed 13, ed 12], []),
  (3, 0, (List.range 8).map fc, (List.range 8).map nd)])).get (by decide +kernel)

def cavePos (n : El) : Int × Int × Int :=
  [(0, 0, 0), (20, 0, 0), (0, 20, 0), (0, 0, 20), (4, 4, 4), (6, 4, 4), (4, 6, 4), (4, 4, 6), (4, 1, 1)].getD n.id (0, 0, 0)

def cave1 : Topo × List El := (splitCell unit (fun _ _ => false) cave false false ⟨3, 0⟩ [fc 8]
  [(1, [nd 0, nd 1, nd 2, nd 3]), (2, [nd 4, nd 5, nd 6, nd 7])]).get (by decide +kernel)

/-- C88 fails for cavities: a cell with a cavity is replaced by a cell without it and a cell that fills it.  The cell `g` has the
outer faces of the cell, the cell `h` has the faces of the cavity, whose nodes are inside the tetrahedron `x, y, z, x + y + z < 20` of the
outer nodes. -/
theorem C88_cavity_fails : ∃ (T T' : Topo) (pos : El → Int × Int × Int) (c g h : El) (faces outside cavity : List El)
    (news : List (Nat × List El)), Reach true T ∧ CellArgs T c faces ∧ facesOf T c = outside ++ cavity ∧
    (∀ f ∈ outside, ∀ e ∈ T.low f, ∀ n ∈ T.low e, pos n ∈ [(0, 0, 0), (20, 0, 0), (0, 20, 0), (0, 0, 20)]) ∧
    (∀ f ∈ cavity, ∀ e ∈ T.low f, ∀ n ∈ T.low e, 0 < (pos n).1 ∧ 0 < (pos n).2.1 ∧ 0 < (pos n).2.2 ∧
      (pos n).1 + (pos n).2.1 + (pos n).2.2 < 20) ∧
    splitCell unit (fun _ _ => false) T false false c faces news = some (T', [g, h]) ∧
    (T'.low g).Perm outside ∧ (T'.low h).Perm cavity :=
  ⟨cave, cave1.1, cavePos, ⟨3, 0⟩, ⟨3, 1⟩, ⟨3, 2⟩, [fc 8], [fc 0, fc 1, fc 2, fc 3], [fc 4, fc 5, fc 6, fc 7],
    [(1, [nd 0, nd 1, nd 2, nd 3]), (2, [nd 4, nd 5, nd 6, nd 7])],
    build_reach _ _ _ .init (getEq _), ⟨rfl, by decide +kernel, by decide +kernel, by decide +kernel⟩, by decide +kernel, by decide +kernel, by decide +kernel,
    (getEq2 (by decide +kernel)).trans (by
      have : cave1.2 = [⟨3, 1⟩, ⟨3, 2⟩] := by decide +kernel
      exact congrArg some (Prod.ext rfl this)), by decide +kernel, by decide +kernel⟩

end Verif.Split
