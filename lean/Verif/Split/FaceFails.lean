import Verif.Split.FaceProps

/-!
# Property C87: what splitting a face does not do
-/

namespace Verif.Split
open Verif.Topology Verif.EdgeLoop

/-- Twice the signed area of the polygon with the corners `ps`. -/
def twiceArea (ps : List (Int × Int)) : Int :=
  ((List.range ps.length).map fun i => match ps[i]?, ps[(i + 1) % ps.length]? with
    | some p, some q => p.1 * q.2 - q.1 * p.2
    | _, _ => 0).sum

/-- A square `0, 1, 2, 3` with one diagonal `ed 4` and a second way `ed 5`, `ed 6` over the node 4. -/
def kite : Topo := (build (Topo.init true) [(0, 0, [], []), (0, 1, [], []), (0, 2, [], []), (0, 3, [], []), (0, 4, [], []),
  (1, 0, [nd 0, nd 1], []), (1, 1, [nd 1, nd 2], []), (1, 2, [nd 2, nd 3], []), (1, 3, [nd 3, nd 0], []),
  (1, 4, [nd 0, nd 2], []), (1, 5, [nd 0, nd 4], []), (1, 6, [nd 4, nd 2], []), (2, 0, [ed 0, ed 1, ed 2, ed 3], [])]).get
  (by decide +kernel)

theorem reach_kite : Reach true kite := build_reach _ _ _ .init (getEq _)

/-- The places of the nodes. -/
def kitePos (n : El) : Int × Int := [(0, 0), (8, 15), (16, 0), (8, -15), (8, 6)].getD n.id (0, 0)

/-- The lengths of the edges. -/
def kiteLen (e : El) : Int := [17, 17, 17, 17, 16, 10, 10].getD e.id 0

def kite1 : Topo × List El := (splitFace (Incident.Meas.exact kiteLen 0 1000) (fun _ _ => false) kite false false (fc 0)
  [ed 4, ed 5, ed 6] [1, 2, 3]).get (by decide +kernel)

theorem args_kite : FaceArgs kite false (fc 0) [ed 4, ed 5, ed 6] := by
  refine ⟨rfl, by decide +kernel, by decide +kernel, by decide +kernel, by decide +kernel,
    ⟨[nd 0, nd 1, nd 2, nd 3], loop_of (by decide +kernel) (by decide +kernel) (by decide +kernel), by decide +kernel⟩,
    ends_of (by decide +kernel), apart_of (by decide +kernel), by decide +kernel, (fun h => (by cases h)), (fun h => (by cases h))⟩

/-- C87 fails for the shape of the parts: the returned faces need not be a subdivision of the face.  The edges have
the lengths that belong to the places of the nodes, and there is a subdivision into polygons that uses every edge
of the face once and every given edge twice and that has the right area; but the returned faces are bigger
together than the face, so they overlap. -/
theorem C87_area_fails : ∃ (T T' : Topo) (pos : El → Int × Int) (len : El → Int) (f : El) (edges ret : List El)
    (ids : List Nat) (ns : List El) (parts : List (List El × List El)),
    Reach true T ∧ FaceArgs T false f edges ∧ Loop T (edgesOf T f) ns ∧
    (∀ e ∈ edges ++ edgesOf T f, 0 < len e ∧ ∀ a ∈ T.low e, ∀ b ∈ T.low e, a ≠ b →
      len e * len e = ((pos a).1 - (pos b).1) * ((pos a).1 - (pos b).1) + ((pos a).2 - (pos b).2) * ((pos a).2 - (pos b).2)) ∧
    splitFace (Incident.Meas.exact len 0 1000) (fun _ _ => false) T false false f edges ids = some (T', ret) ∧
    (∀ p ∈ parts, Loop T p.1 p.2) ∧
    (∀ e ∈ edgesOf T f, (parts.countP fun p => decide (e ∈ p.1)) = 1) ∧
    (∀ e ∈ edges, (parts.countP fun p => decide (e ∈ p.1)) = 2) ∧
    (parts.map fun p => |twiceArea (p.2.map pos)|).sum = |twiceArea (ns.map pos)| ∧
    ∃ corners : List (List El), corners.length = ret.length ∧
      (∀ q ∈ ret.zip corners, Loop T' (edgesOf T' q.1) q.2) ∧
      |twiceArea (ns.map pos)| < (corners.map fun c => |twiceArea (c.map pos)|).sum := by
  refine ⟨kite, kite1.1, kitePos, kiteLen, fc 0, [ed 4, ed 5, ed 6], kite1.2, [1, 2, 3], [nd 0, nd 1, nd 2, nd 3],
    [([ed 0, ed 1, ed 6, ed 5], [nd 0, nd 1, nd 2, nd 4]), ([ed 4, ed 6, ed 5], [nd 0, nd 2, nd 4]),
      ([ed 4, ed 2, ed 3], [nd 0, nd 2, nd 3])], reach_kite, args_kite,
    loop_of (by decide +kernel) (by decide +kernel) (by decide +kernel), by decide +kernel, getEq2 _, ?_,
    by decide +kernel, by decide +kernel, by decide +kernel,
    [[nd 1, nd 0, nd 2], [nd 2, nd 0, nd 4], [nd 4, nd 0, nd 3, nd 2]], by decide +kernel, ?_, by decide +kernel⟩
  · simp only [List.mem_cons, List.not_mem_nil, or_false]
    rintro p (rfl | rfl | rfl) <;> exact loop_of (by decide +kernel) (by decide +kernel) (by decide +kernel)
  · have e : kite1.2 = [fc 1, fc 2, fc 3] := by decide +kernel
    rw [e]
    simp only [List.zip_cons_cons, List.zip_nil_right, List.mem_cons, List.not_mem_nil, or_false]
    rintro p (rfl | rfl | rfl) <;> exact loop_of (by decide +kernel) (by decide +kernel) (by decide +kernel)

/-- A square with a triangle inside that is not connected with the boundary. -/
def hole : Topo := (build (Topo.init true) [(0, 0, [], []), (0, 1, [], []), (0, 2, [], []), (0, 3, [], []), (0, 4, [], []),
  (0, 5, [], []), (0, 6, [], []), (1, 0, [nd 0, nd 1], []), (1, 1, [nd 1, nd 2], []), (1, 2, [nd 2, nd 3], []),
  (1, 3, [nd 3, nd 0], []), (1, 4, [nd 4, nd 5], []), (1, 5, [nd 5, nd 6], []), (1, 6, [nd 6, nd 4], []),
  (2, 0, [ed 0, ed 1, ed 2, ed 3], [])]).get (by decide +kernel)

def hole1 : Topo × List El := (splitFace unit (fun _ _ => false) hole false false (fc 0) [ed 4, ed 5, ed 6] [1]).get
  (by decide +kernel)

theorem args_hole : FaceArgs hole false (fc 0) [ed 4, ed 5, ed 6] := by
  refine ⟨rfl, by decide +kernel, by decide +kernel, by decide +kernel, by decide +kernel,
    ⟨[nd 0, nd 1, nd 2, nd 3], loop_of (by decide +kernel) (by decide +kernel) (by decide +kernel), by decide +kernel⟩,
    ends_of (by decide +kernel), apart_of (by decide +kernel), by decide +kernel, (fun h => (by cases h)), (fun h => (by cases h))⟩

/-- C87 fails for parts inside: a closed polygon of given edges that does not touch the boundary is not cut out; the
face is replaced by a face with the same edges. -/
theorem C87_hole_fails : ∃ (T T' : Topo) (f g : El) (edges ns : List El) (ids : List Nat), Reach true T ∧
    FaceArgs T false f edges ∧ Loop T edges ns ∧ g ≠ f ∧
    splitFace unit (fun _ _ => false) T false false f edges ids = some (T', [g]) ∧ (T'.low g).Perm (T.low f) ∧
    ∀ e ∈ edges, T'.high e = [] :=
  ⟨hole, hole1.1, fc 0, fc 1, [ed 4, ed 5, ed 6], [nd 4, nd 5, nd 6], [1], build_reach _ _ _ .init (getEq _), args_hole,
    loop_of (by decide +kernel) (by decide +kernel) (by decide +kernel), by decide,
    (getEq2 (by decide +kernel)).trans (by
      have : hole1.2 = [fc 1] := by decide +kernel
      exact congrArg some (Prod.ext rfl this)), by decide +kernel, by decide +kernel⟩

def pyr2 : Topo × List El := (splitFace unit (fun _ _ => false) pyr false false (fc 0) [ed 4, ed 6] [5, 6]).get
  (by decide +kernel)

/-- C87 fails for nodes of the cell: if a node of the given edges is a node of the cell already, the cell gets it a
second time, but the node does not get the cell a second time. -/
theorem C87_nodes_fails : ∃ (T T' : Topo) (f c n : El) (edges ret : List El) (ids : List Nat), Reach true T ∧
    splitFace unit (fun _ _ => false) T false false f edges ids = some (T', ret) ∧
    (T'.high c).count n = 2 ∧ (T'.low n).count c = 1 :=
  ⟨pyr, pyr2.1, fc 0, ⟨3, 0⟩, nd 4, [ed 4, ed 6], pyr2.2, [5, 6], reach_pyr, getEq2 _, by decide +kernel, by decide +kernel⟩

end Verif.Split
