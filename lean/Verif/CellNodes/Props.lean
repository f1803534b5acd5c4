import Verif.CellNodes.Examples

/-!
# Property C105: geometric types of cells and the order of their nodes
-/

namespace Verif.CellNodes
open Verif.Topology Verif.EdgeLoop

variable {T : Topo} {gt : El → Nat} {c : El} {F : List (List El)}

/-! ## The order of nodes -/

/-- C105: the nodes of a cell whose faces are those of a hexahedron, with the type of a hexahedron, are returned in the order of
VTK_HEXAHEDRON; the first four are those of the first face, in the order seen from the cell. -/
theorem C105_hex (hF : Polygons T c F) (ns : List El) (hN : Numbered F hexFaces 8 ns) (ht : gt c = 9) :
    ∃ ns' f P, restoreCellNodes T gt c = some ns' ∧ Numbered F hexFaces 8 ns' ∧
      ((T.low c).filter fun f => !T.hid f).head? = some f ∧ F.head? = some P ∧ Inward T c f P (ns'.take 4) := by
  unfold restoreCellNodes
  rw [ht]
  exact hex_restore hF hN

example : Polygons cube (cl 0) [[nd 0, nd 1, nd 2, nd 3], [nd 0, nd 1, nd 5, nd 4], [nd 4, nd 5, nd 6, nd 7], [nd 1, nd 2, nd 6, nd 5],
      [nd 3, nd 2, nd 6, nd 7], [nd 0, nd 3, nd 7, nd 4]] ∧
    Numbered [[nd 0, nd 1, nd 2, nd 3], [nd 0, nd 1, nd 5, nd 4], [nd 4, nd 5, nd 6, nd 7], [nd 1, nd 2, nd 6, nd 5],
      [nd 3, nd 2, nd 6, nd 7], [nd 0, nd 3, nd 7, nd 4]] hexFaces 8 [nd 0, nd 1, nd 2, nd 3, nd 4, nd 5, nd 6, nd 7] ∧
    restoreCellNodes cube (fun _ => 9) (cl 0) = some [nd 3, nd 2, nd 1, nd 0, nd 7, nd 6, nd 5, nd 4] :=
  ⟨cube_polygons, cube_numbered, by decide +kernel⟩

/-- C105: the nodes of a prism are returned in the order of VTK_WEDGE; the first three are those of the first triangle, in the order
seen from the cell. -/
theorem C105_prism (hF : Polygons T c F) (ns : List El) (hN : Numbered F prismFaces 6 ns) (ht : gt c = 10) :
    ∃ ns' f P, restoreCellNodes T gt c = some ns' ∧ Numbered F prismFaces 6 ns' ∧
      ((T.low c).filter fun f => !T.hid f).find? (fun f => decide ((edgesOf T f).length = 3)) = some f ∧
      F.find? (fun P => decide (P.length = 3)) = some P ∧ Inward T c f P (ns'.take 3) := by
  unfold restoreCellNodes
  rw [ht]
  exact prism_restore hF hN

example : (∃ F ns, Polygons wedge (cl 0) F ∧ Numbered F prismFaces 6 ns) ∧
    restoreCellNodes wedge (fun _ => 10) (cl 0) = some [nd 2, nd 1, nd 0, nd 5, nd 4, nd 3] :=
  ⟨⟨_, _, wedge_polygons, wedge_numbered⟩, by decide +kernel⟩

/-- C105: the nodes of a pyramid are returned in the order of VTK_PYRAMID; the first four are those of the quadrilateral, in the order
seen from the cell.  Missing: faces whose first or last stored edge is hidden (`C105_hidden_fails`). -/
theorem C105_pyramid_partial (hF : Polygons T c F) (hv : OpenEnds T c) (ns : List El) (hN : Numbered F pyramidFaces 5 ns) (ht : gt c = 11) :
    ∃ ns' f P, restoreCellNodes T gt c = some ns' ∧ Numbered F pyramidFaces 5 ns' ∧
      ((T.low c).filter fun f => !T.hid f).find? (fun f => decide ((edgesOf T f).length = 4)) = some f ∧
      F.find? (fun P => decide (P.length = 4)) = some P ∧ Inward T c f P (ns'.take 4) := by
  unfold restoreCellNodes
  rw [ht]
  exact pyramid_restore hF hv hN

theorem openEnds_of (hh : T.hide = false) : OpenEnds T c := fun f _ _ e _ => by unfold Topo.hid; rw [hh]; rfl

example : (∃ F ns, Polygons pyr (cl 0) F ∧ Numbered F pyramidFaces 5 ns) ∧ OpenEnds pyr (cl 0) ∧
    restoreCellNodes pyr (fun _ => 11) (cl 0) = some [nd 3, nd 2, nd 1, nd 0, nd 4] :=
  ⟨⟨_, _, pyr_polygons, pyr_numbered⟩, openEnds_of (by decide +kernel), by decide +kernel⟩

/-- C105: the nodes of a tetrahedron are returned in the order of VTK_TETRA; the first three are those of the first face, in the order
seen from the cell.  Missing: faces whose first or last stored edge is hidden (`C105_hidden_fails`). -/
theorem C105_tet_partial (hF : Polygons T c F) (hv : OpenEnds T c) (ns : List El) (hN : Numbered F tetFaces 4 ns) (ht : gt c = 8) :
    ∃ ns' f P, restoreCellNodes T gt c = some ns' ∧ Numbered F tetFaces 4 ns' ∧
      ((T.low c).filter fun f => !T.hid f).head? = some f ∧ F.head? = some P ∧ Inward T c f P (ns'.take 3) := by
  unfold restoreCellNodes
  rw [ht]
  exact tet_restore hF hv hN

example : (∃ F ns, Polygons tetra (cl 0) F ∧ Numbered F tetFaces 4 ns) ∧ OpenEnds tetra (cl 0) ∧
    restoreCellNodes tetra (fun _ => 8) (cl 0) = some [nd 2, nd 1, nd 0, nd 3] :=
  ⟨⟨_, _, tetra_polygons, tetra_numbered⟩, openEnds_of (by decide +kernel), by decide +kernel⟩

/-- The first stored edge of the second face of a tetrahedron is hidden: the fourth node is not found, an assertion fails. -/
theorem C105_hidden_fails : ∃ (T : Topo) (c : El) (F : List (List El)) (ns : List El), Reach true T ∧ Polygons T c F ∧
    Numbered F tetFaces 4 ns ∧ restoreCellNodes T (fun _ => 8) c = none :=
  ⟨halves, cl 0, _, _, reach_halves, halves_polygons, tetra_numbered, by decide +kernel⟩

theorem pointsOf_spec : ∀ {es ns : List El}, List.Forall₂ (fun e x => (T.low e).filter (fun x => !T.hid x) = [x]) es ns →
    pointsOf T es = some ns
  | [], _, .nil => rfl
  | e :: es, x :: ns, .cons h hs => by
    have : vis T (T.low e) = [x] := h
    unfold pointsOf
    rw [this, pointsOf_spec hs]

/-- C105: a cell of dimension two whose faces are, in their order, the sides of a polygon: the nodes are returned in the order of the
corners.  Missing: the first or last stored face is hidden. -/
theorem C105_polygon_partial (es ns : List El) (h : Loop T (edgesOf T c) es) (hn : es.Nodup)
    (hp : List.Forall₂ (fun e x => (T.low e).filter (fun x => !T.hid x) = [x]) es ns)
    (hfirst : ∀ e, (T.low c)[0]? = some e → T.hid e = false)
    (hlast : ∀ e, (T.low c)[(T.low c).length - 1]? = some e → T.hid e = false) (ht : gt c = 3 ∨ gt c = 4 ∨ gt c = 5 ∨ gt c = 6) :
    restoreCellNodes T gt c = some ns := by
  have : restoreCellNodes T gt c = restorePolygon T c := by
    unfold restoreCellNodes
    rcases ht with h | h | h | h <;> rw [h] <;> rfl
  rw [this]
  unfold restorePolygon
  rw [getNodesMask_spec h hn hfirst (fun _ => hlast), List.filter_eq_self.2 (by simp)]
  exact pointsOf_spec hp

example : Loop plate (edgesOf plate (cl 0)) [ed 0, ed 1, ed 2, ed 3] ∧
    List.Forall₂ (fun e x => (plate.low e).filter (fun x => !plate.hid x) = [x]) [ed 0, ed 1, ed 2, ed 3] [nd 0, nd 1, nd 2, nd 3] :=
  ⟨loop_of (by decide +kernel) (by decide +kernel) (by decide +kernel),
    .cons (by decide +kernel) (.cons (by decide +kernel) (.cons (by decide +kernel) (.cons (by decide +kernel) .nil)))⟩

/-- C105: for all other types every visible node of a visible edge of a visible face is returned exactly once. -/
theorem C105_any (ht : gt c = 0 ∨ gt c = 7 ∨ 12 ≤ gt c) :
    ∃ ns, restoreCellNodes T gt c = some ns ∧ ns.Nodup ∧
      ∀ x, x ∈ ns ↔ ∃ f e, f ∈ T.low c ∧ T.hid f = false ∧ e ∈ T.low f ∧ T.hid e = false ∧ x ∈ T.low e ∧ T.hid x = false := by
  have : restoreCellNodes T gt c = some (restoreAny T c) := by
    unfold restoreCellNodes
    rcases ht with h | h | h
    · rw [h]; rfl
    · rw [h]; rfl
    · split <;> first | omega | rfl
  refine ⟨_, this, distinct_nodup _, fun x => ?_⟩
  unfold restoreAny
  rw [mem_distinct]
  simp only [List.mem_flatMap, facesOf, mem_vis]
  constructor
  · rintro ⟨f, ⟨h1, h2⟩, e, ⟨h3, h4⟩, h5, h6⟩
    exact ⟨f, e, h1, h2, h3, h4, h5, h6⟩
  · rintro ⟨f, e, h1, h2, h3, h4, h5, h6⟩
    exact ⟨f, ⟨h1, h2⟩, e, ⟨h3, h4⟩, h5, h6⟩

example : restoreCellNodes cube (fun _ => 12) (cl 0) = some [nd 0, nd 1, nd 2, nd 3, nd 5, nd 4, nd 6, nd 7] := by decide +kernel

/-! ## Types -/

/-- C105: the type of a polygon is that of its number of sides, with and without the test of closure; `f` is a face or a cell of dimension two. -/
theorem C105_polygon_type (f : El) (ns : List El) (h : Loop T (edgesOf T f) ns) (hn : ns.Nodup) (hl : ∀ e ∈ edgesOf T f, gt e = 2)
    (need : Bool) (ty : Nat) (hty : ty = 2 ∨ ty = 3) :
    computeType T gt need ty (T.low f) = if ns.length = 3 then 4 else if ns.length = 4 then 5 else 6 :=
  polygon_type ⟨h, hn⟩ need hl ty hty

example : Loop cube (edgesOf cube (fc 3)) [nd 1, nd 2, nd 6, nd 5] ∧ computeType cube (fun _ => 2) true 2 (cube.low (fc 3)) = 5 :=
  ⟨loop_of (by decide +kernel) (by decide +kernel) (by decide +kernel), by decide +kernel⟩

/-- C105: a cell whose faces are those of a tetrahedron, hexahedron, prism or pyramid gets its type, with and without the test of closure.
Missing: hidden elements (`C105_type_fails`). -/
theorem C105_type_partial (hh : T.hide = false) (hF : Polygons T c F) (hu : OneEdge T c) (ht : FaceTypes T gt c) (need : Bool) :
    ((∃ ns, Numbered F tetFaces 4 ns) → computeType T gt need 3 (T.low c) = 8) ∧
    ((∃ ns, Numbered F hexFaces 8 ns) → computeType T gt need 3 (T.low c) = 9) ∧
    ((∃ ns, Numbered F prismFaces 6 ns) → computeType T gt need 3 (T.low c) = 10) ∧
    ((∃ ns, Numbered F pyramidFaces 5 ns) → computeType T gt need 3 (T.low c) = 11) :=
  ⟨fun ⟨_, h⟩ => tet_type hh hF hu ht need h, fun ⟨_, h⟩ => hex_type hh hF hu ht need h,
    fun ⟨_, h⟩ => prism_type hh hF hu ht need h, fun ⟨_, h⟩ => pyramid_type hh hF hu ht need h⟩

theorem oneEdge_of (h : ∀ f ∈ (T.low c).filter (fun f => !T.hid f), ∀ g ∈ (T.low c).filter (fun f => !T.hid f), ∀ e ∈ edgesOf T f,
    ∀ e' ∈ edgesOf T g, edgesOf T e = edgesOf T e' ∨ edgesOf T e = (edgesOf T e').reverse → e = e') : OneEdge T c := by
  intro f g e e' a b hf hg he he' h1 h2
  refine h f hf g hg e he e' he' ?_
  unfold edgesOf
  rcases h1 with h1 | h1 <;> rcases h2 with h2 | h2 <;> rw [h1, h2] <;> simp

example : OneEdge cube (cl 0) ∧ FaceTypes cube (fun _ => 5) (cl 0) ∧ computeType cube (fun _ => 5) true 3 (cube.low (cl 0)) = 9 :=
  ⟨oneEdge_of (by decide +kernel), by unfold FaceTypes; decide +kernel, by decide +kernel⟩

example : OneEdge pyr (cl 0) ∧ FaceTypes pyr (fun x => if x = fc 1 then 5 else 4) (cl 0) ∧
    computeType pyr (fun x => if x = fc 1 then 5 else 4) true 3 (pyr.low (cl 0)) = 11 :=
  ⟨oneEdge_of (by decide +kernel), by unfold FaceTypes; decide +kernel, by decide +kernel⟩

/-- Hidden edges are counted: two faces of a tetrahedron have a common edge and the hidden halves of it, the type is Polyhedron. -/
theorem C105_type_fails : ∃ (T : Topo) (c : El) (F : List (List El)) (ns : List El) (gt : El → Nat), Reach true T ∧ Polygons T c F ∧
    Numbered F tetFaces 4 ns ∧ OneEdge T c ∧ FaceTypes T gt c ∧ ∀ need, computeType T gt need 3 (T.low c) = 12 :=
  ⟨halves, cl 0, _, _, fun _ => 4, reach_halves, halves_polygons, tetra_numbered, oneEdge_of (by decide +kernel),
    by unfold FaceTypes; decide +kernel, by decide +kernel⟩

/-! ## New cells -/

def created : Topo × Option El × (El → Nat) :=
  (createCell cube0 (fun x => if x.ty = 2 then 5 else 2) true true 0 [fc 0, fc 1, fc 2, fc 3, fc 4, fc 5]).get (by decide +kernel)

theorem created_polygons : Polygons created.1 (cl 0) [[nd 0, nd 1, nd 2, nd 3], [nd 0, nd 1, nd 5, nd 4], [nd 4, nd 5, nd 6, nd 7],
    [nd 1, nd 2, nd 6, nd 5], [nd 3, nd 2, nd 6, nd 7], [nd 0, nd 3, nd 7, nd 4]] := polys_of (by decide +kernel)

/-- The documentation of `getNodes` says that the nodes of a cell created without a suggested order follow VTK for hexahedra.  They
are restored before the type of the cell is known: a new hexahedron does not have the order of VTK. -/
theorem C105_created_fails : ∃ (T : Topo) (gt : El → Nat) (faces : List El) (T' : Topo) (c : El) (gt' : El → Nat) (F : List (List El))
    (ns : List El), Reach true T ∧ T.hide = false ∧ createCell T gt true true 0 faces = some (T', some c, gt') ∧ gt' c = 9 ∧
    Polygons T' c F ∧ Numbered F hexFaces 8 ns ∧ ¬ Numbered F hexFaces 8 (T'.high c) := by
  refine ⟨cube0, fun x => if x.ty = 2 then 5 else 2, [fc 0, fc 1, fc 2, fc 3, fc 4, fc 5], created.1, cl 0, created.2.2, _, _, reach_cube0,
    by decide +kernel, ?_, by decide +kernel, created_polygons, cube_numbered, ?_⟩
  · have h2 : created.2.1 = some (cl 0) := by decide +kernel
    have h : createCell cube0 (fun x => if x.ty = 2 then 5 else 2) true true 0 [fc 0, fc 1, fc 2, fc 3, fc 4, fc 5] = some created := getEq _
    rw [h, ← h2]
  · intro h
    have hh : created.1.high (cl 0) = [nd 0, nd 1, nd 2, nd 3, nd 5, nd 4, nd 6, nd 7] := by decide +kernel
    rw [hh] at h
    obtain ⟨P, hP, hc⟩ := h.shape.mem' (g := [nd 5, nd 4, nd 6, nd 7]) (by decide +kernel)
    revert hc hP P
    decide +kernel

end Verif.CellNodes
