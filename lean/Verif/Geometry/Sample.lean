import Verif.Geometry.Labels
import Verif.Geometry.Model
import Verif.Search.Sample
import Verif.Topology.ReachInv

/-!
# Concrete cells
-/

namespace Verif.Geometry
open Verif.Topology Verif.EdgeLoop Verif.Search

/-- Two tetrahedra with the common face 0. -/
def pair2 : Topo := (build (Topo.init true) [
  (0, 0, [], []), (0, 1, [], []), (0, 2, [], []), (0, 3, [], []), (0, 4, [], []), (1, 0, [nd 0, nd 1], []),
  (1, 1, [nd 1, nd 2], []), (1, 2, [nd 0, nd 2], []), (1, 3, [nd 0, nd 3], []), (1, 4, [nd 1, nd 3], []),
  (1, 5, [nd 2, nd 3], []), (1, 6, [nd 1, nd 4], []), (1, 7, [nd 0, nd 4], []), (1, 8, [nd 2, nd 4], []),
  (2, 0, [ed 0, ed 1, ed 2], []), (2, 1, [ed 3, ed 4, ed 0], []), (2, 2, [ed 2, ed 5, ed 3], []),
  (2, 3, [ed 1, ed 5, ed 4], []), (2, 4, [ed 0, ed 6, ed 7], []), (2, 5, [ed 7, ed 8, ed 2], []),
  (2, 6, [ed 6, ed 8, ed 1], []), (3, 0, [fc 0, fc 1, fc 2, fc 3], [nd 0, nd 1, nd 2, nd 3]),
  (3, 1, [fc 0, fc 4, fc 5, fc 6], [nd 0, nd 1, nd 2, nd 4])]).get (by decide +kernel)

theorem reach_pair2 : Reach true pair2 := build_reach _ _ _ .init (getEq _)

def pair2Corner (f : El) : List El :=
  if f = fc 0 then [nd 0, nd 1, nd 2]
  else if f = fc 1 then [nd 0, nd 3, nd 1]
  else if f = fc 2 then [nd 0, nd 2, nd 3]
  else if f = fc 3 then [nd 1, nd 2, nd 3]
  else if f = fc 4 then [nd 0, nd 1, nd 4]
  else if f = fc 5 then [nd 0, nd 4, nd 2]
  else [nd 1, nd 4, nd 2]

def pair2Out0 (f : El) : Bool := decide (f ∉ [fc 0, fc 1, fc 2])

def pair2Tets0 : List Tet4 := [(nd 0, nd 1, nd 2, nd 3)]

def pair2P0 : List Tri3 :=
  []

def pair2L0 : List Tri3 :=
  [(nd 0, nd 2, nd 1), (nd 0, nd 1, nd 3), (nd 0, nd 3, nd 2), (nd 1, nd 2, nd 3)]

def pair2F0 : List Tri3 :=
  [(nd 0, nd 1, nd 2), (nd 0, nd 3, nd 1), (nd 0, nd 2, nd 3), (nd 1, nd 2, nd 3)]

def pair2Out1 (f : El) : Bool := decide (f ∉ [fc 4, fc 5])

def pair2Tets1 : List Tet4 := [(nd 0, nd 2, nd 1, nd 4)]

def pair2P1 : List Tri3 :=
  []

def pair2L1 : List Tri3 :=
  [(nd 0, nd 1, nd 2), (nd 0, nd 4, nd 1), (nd 0, nd 2, nd 4), (nd 2, nd 1, nd 4)]

def pair2F1 : List Tri3 :=
  [(nd 0, nd 1, nd 2), (nd 0, nd 1, nd 4), (nd 0, nd 4, nd 2), (nd 1, nd 4, nd 2)]

/-- A tetrahedron from which a part with the vertex 0 is removed. -/
def dent : Topo := (build (Topo.init true) [
  (0, 0, [], []), (0, 1, [], []), (0, 2, [], []), (0, 3, [], []), (0, 4, [], []), (1, 0, [nd 0, nd 1], []),
  (1, 1, [nd 1, nd 2], []), (1, 2, [nd 0, nd 2], []), (1, 3, [nd 2, nd 3], []), (1, 4, [nd 0, nd 3], []),
  (1, 5, [nd 1, nd 3], []), (1, 6, [nd 1, nd 4], []), (1, 7, [nd 2, nd 4], []), (1, 8, [nd 3, nd 4], []),
  (2, 0, [ed 0, ed 1, ed 2], []), (2, 1, [ed 2, ed 3, ed 4], []), (2, 2, [ed 0, ed 5, ed 4], []),
  (2, 3, [ed 1, ed 6, ed 7], []), (2, 4, [ed 3, ed 7, ed 8], []), (2, 5, [ed 5, ed 8, ed 6], []),
  (3, 0, [fc 0, fc 1, fc 2, fc 3, fc 4, fc 5], [nd 0, nd 1, nd 2, nd 3, nd 4])]).get (by decide +kernel)

theorem reach_dent : Reach true dent := build_reach _ _ _ .init (getEq _)

def dentCorner (f : El) : List El :=
  if f = fc 0 then [nd 0, nd 1, nd 2]
  else if f = fc 1 then [nd 0, nd 2, nd 3]
  else if f = fc 2 then [nd 0, nd 1, nd 3]
  else if f = fc 3 then [nd 2, nd 1, nd 4]
  else if f = fc 4 then [nd 3, nd 2, nd 4]
  else [nd 1, nd 3, nd 4]

def dentOut0 (f : El) : Bool := decide (f ∉ [fc 2])

def dentTets0 : List Tet4 := [(nd 0, nd 2, nd 1, nd 4), (nd 0, nd 3, nd 2, nd 4), (nd 0, nd 1, nd 3, nd 4)]

def dentP0 : List Tri3 :=
  [(nd 0, nd 4, nd 1), (nd 0, nd 2, nd 4), (nd 0, nd 3, nd 4)]

def dentL0 : List Tri3 :=
  [(nd 0, nd 1, nd 2), (nd 0, nd 2, nd 3), (nd 0, nd 3, nd 1), (nd 2, nd 1, nd 4), (nd 3, nd 2, nd 4), (nd 1, nd 3, nd 4), (nd 0, nd 4, nd 1), (nd 0, nd 2, nd 4), (nd 0, nd 3, nd 4), (nd 0, nd 1, nd 4), (nd 0, nd 4, nd 2), (nd 0, nd 4, nd 3)]

def dentF0 : List Tri3 :=
  [(nd 0, nd 1, nd 2), (nd 0, nd 2, nd 3), (nd 0, nd 1, nd 3), (nd 2, nd 1, nd 4), (nd 3, nd 2, nd 4), (nd 1, nd 3, nd 4)]

/-- A tetrahedron with a cavity; the faces of the cavity are stored as faces of the removed tetrahedron. -/
def cavity : Topo := (build (Topo.init true) [
  (0, 0, [], []), (0, 1, [], []), (0, 2, [], []), (0, 3, [], []), (0, 4, [], []), (0, 5, [], []), (0, 6, [], []),
  (0, 7, [], []), (1, 0, [nd 0, nd 2], []), (1, 1, [nd 1, nd 2], []), (1, 2, [nd 0, nd 1], []),
  (1, 3, [nd 1, nd 3], []), (1, 4, [nd 0, nd 3], []), (1, 5, [nd 2, nd 3], []), (1, 6, [nd 4, nd 6], []),
  (1, 7, [nd 5, nd 6], []), (1, 8, [nd 4, nd 5], []), (1, 9, [nd 5, nd 7], []), (1, 10, [nd 4, nd 7], []),
  (1, 11, [nd 6, nd 7], []), (2, 0, [ed 0, ed 1, ed 2], []), (2, 1, [ed 2, ed 3, ed 4], []),
  (2, 2, [ed 4, ed 5, ed 0], []), (2, 3, [ed 1, ed 5, ed 3], []), (2, 4, [ed 6, ed 7, ed 8], []),
  (2, 5, [ed 8, ed 9, ed 10], []), (2, 6, [ed 10, ed 11, ed 6], []), (2, 7, [ed 7, ed 11, ed 9], []),
  (3, 0, [fc 0, fc 1, fc 2, fc 3, fc 4, fc 5, fc 6, fc 7], [nd 0, nd 1, nd 2, nd 3, nd 4, nd 5, nd 6, nd 7])]).get (by decide +kernel)

theorem reach_cavity : Reach true cavity := build_reach _ _ _ .init (getEq _)

def cavityCorner (f : El) : List El :=
  if f = fc 0 then [nd 0, nd 2, nd 1]
  else if f = fc 1 then [nd 0, nd 1, nd 3]
  else if f = fc 2 then [nd 0, nd 3, nd 2]
  else if f = fc 3 then [nd 1, nd 2, nd 3]
  else if f = fc 4 then [nd 4, nd 6, nd 5]
  else if f = fc 5 then [nd 4, nd 5, nd 7]
  else if f = fc 6 then [nd 4, nd 7, nd 6]
  else [nd 5, nd 6, nd 7]

def cavityOut0 (f : El) : Bool := decide (f ∉ [fc 4, fc 5, fc 6, fc 7])

def cavityTets0 : List Tet4 := [(nd 0, nd 1, nd 2, nd 6), (nd 0, nd 5, nd 1, nd 6), (nd 0, nd 4, nd 5, nd 6), (nd 0, nd 3, nd 1, nd 7), (nd 0, nd 1, nd 5, nd 7), (nd 0, nd 5, nd 4, nd 7), (nd 0, nd 2, nd 3, nd 7), (nd 0, nd 6, nd 2, nd 7), (nd 0, nd 4, nd 6, nd 7), (nd 1, nd 3, nd 2, nd 7), (nd 1, nd 2, nd 6, nd 7), (nd 1, nd 6, nd 5, nd 7)]

def cavityP0 : List Tri3 :=
  [(nd 1, nd 2, nd 6), (nd 0, nd 6, nd 2), (nd 0, nd 1, nd 6), (nd 5, nd 1, nd 6), (nd 0, nd 5, nd 6), (nd 0, nd 1, nd 5), (nd 0, nd 4, nd 6), (nd 0, nd 5, nd 4), (nd 3, nd 1, nd 7), (nd 0, nd 7, nd 1), (nd 0, nd 3, nd 7), (nd 1, nd 5, nd 7), (nd 0, nd 7, nd 5), (nd 0, nd 7, nd 4), (nd 2, nd 3, nd 7), (nd 0, nd 2, nd 7), (nd 6, nd 2, nd 7), (nd 0, nd 6, nd 7), (nd 1, nd 7, nd 2), (nd 1, nd 7, nd 6)]

def cavityL0 : List Tri3 :=
  [(nd 0, nd 2, nd 1), (nd 0, nd 1, nd 3), (nd 0, nd 3, nd 2), (nd 1, nd 2, nd 3), (nd 4, nd 5, nd 6), (nd 5, nd 4, nd 7), (nd 4, nd 6, nd 7), (nd 6, nd 5, nd 7), (nd 1, nd 2, nd 6), (nd 0, nd 6, nd 2), (nd 0, nd 1, nd 6), (nd 5, nd 1, nd 6), (nd 0, nd 5, nd 6), (nd 0, nd 1, nd 5), (nd 0, nd 4, nd 6), (nd 0, nd 5, nd 4), (nd 3, nd 1, nd 7), (nd 0, nd 7, nd 1), (nd 0, nd 3, nd 7), (nd 1, nd 5, nd 7), (nd 0, nd 7, nd 5), (nd 0, nd 7, nd 4), (nd 2, nd 3, nd 7), (nd 0, nd 2, nd 7), (nd 6, nd 2, nd 7), (nd 0, nd 6, nd 7), (nd 1, nd 7, nd 2), (nd 1, nd 7, nd 6), (nd 1, nd 6, nd 2), (nd 0, nd 2, nd 6), (nd 0, nd 6, nd 1), (nd 1, nd 5, nd 6), (nd 0, nd 6, nd 5), (nd 0, nd 5, nd 1), (nd 0, nd 6, nd 4), (nd 0, nd 4, nd 5), (nd 1, nd 3, nd 7), (nd 0, nd 1, nd 7), (nd 0, nd 7, nd 3), (nd 1, nd 7, nd 5), (nd 0, nd 5, nd 7), (nd 0, nd 4, nd 7), (nd 3, nd 2, nd 7), (nd 0, nd 7, nd 2), (nd 2, nd 6, nd 7), (nd 0, nd 7, nd 6), (nd 1, nd 2, nd 7), (nd 1, nd 6, nd 7)]

def cavityF0 : List Tri3 :=
  [(nd 0, nd 2, nd 1), (nd 0, nd 1, nd 3), (nd 0, nd 3, nd 2), (nd 1, nd 2, nd 3), (nd 4, nd 6, nd 5), (nd 4, nd 5, nd 7), (nd 4, nd 7, nd 6), (nd 5, nd 6, nd 7)]

/-! ## Coordinates -/

/-- Coordinates of nodes by number. -/
noncomputable def coords (l : List (V ℝ)) (e : El) : V ℝ := l.getD e.id ⟨0, 0, 0⟩

noncomputable def pairCo : El → V ℝ := coords [⟨0, 0, 0⟩, ⟨1, 0, 0⟩, ⟨0, 1, 0⟩, ⟨0, 0, 1⟩, ⟨0, 0, -1⟩]
noncomputable def dentCo : El → V ℝ := coords [⟨0, 0, 0⟩, ⟨2, 0, 0⟩, ⟨0, 2, 0⟩, ⟨-1, -1, 1⟩, ⟨0, 0, -3⟩]
/-- A cell of the size 1e-5. -/
noncomputable def tinyCo : El → V ℝ := coords [⟨0, 0, -2 / 10 ^ 5⟩, ⟨2 / 10 ^ 5, 0, 0⟩, ⟨0, 2 / 10 ^ 5, 0⟩,
  ⟨-2 / 10 ^ 5, -2 / 10 ^ 5, 0⟩, ⟨0, 0, -3 / 10 ^ 5⟩]
noncomputable def cavityCo : El → V ℝ := coords [⟨0, 0, 0⟩, ⟨10, 0, 0⟩, ⟨0, 10, 0⟩, ⟨0, 0, 10⟩, ⟨1, 1, 1⟩, ⟨2, 1, 1⟩,
  ⟨1, 2, 1⟩, ⟨1, 1, 2⟩]

noncomputable def pairG : Geo ℝ := ⟨pair2, pairCo, 1 / 10 ^ 8, Real.sqrt⟩
noncomputable def dentG : Geo ℝ := ⟨dent, dentCo, 1 / 10 ^ 8, Real.sqrt⟩
noncomputable def tinyG : Geo ℝ := ⟨dent, tinyCo, 1 / 10 ^ 8, Real.sqrt⟩
noncomputable def cavityG : Geo ℝ := ⟨cavity, cavityCo, 1 / 10 ^ 8, Real.sqrt⟩

/-! ## They are solids -/

theorem pair_solid0 : Solid pair2 pairCo (cl 0) pair2Corner pair2Out0 (cutOf pairCo pair2Corner)
    (pair2Tets0.map (mkTet pairCo)) := by
  refine solid_of pair2P0 pair2L0 pair2F0 (by decide +kernel) (by decide +kernel) ?_ (by decide +kernel) ?_
    (by decide +kernel) (by decide +kernel) (by decide +kernel)
  · unfold pair2F0
    simp only [List.forall_mem_cons, List.not_mem_nil, false_implies, implies_true, and_true]
    simp [pairCo, coords, nd, cross, sub]
    try norm_num
  · unfold pair2Tets0
    simp only [List.forall_mem_cons, List.not_mem_nil, false_implies, implies_true, and_true]
    simp [pairCo, coords, nd, mkTet, Tet.vol, dot, cross, sub]
    try norm_num

theorem pair_solid1 : Solid pair2 pairCo (cl 1) pair2Corner pair2Out1 (cutOf pairCo pair2Corner)
    (pair2Tets1.map (mkTet pairCo)) := by
  refine solid_of pair2P1 pair2L1 pair2F1 (by decide +kernel) (by decide +kernel) ?_ (by decide +kernel) ?_
    (by decide +kernel) (by decide +kernel) (by decide +kernel)
  · unfold pair2F1
    simp only [List.forall_mem_cons, List.not_mem_nil, false_implies, implies_true, and_true]
    simp [pairCo, coords, nd, cross, sub]
    try norm_num
  · unfold pair2Tets1
    simp only [List.forall_mem_cons, List.not_mem_nil, false_implies, implies_true, and_true]
    simp [pairCo, coords, nd, mkTet, Tet.vol, dot, cross, sub]
    try norm_num

theorem dent_solid0 : Solid dent dentCo (cl 0) dentCorner dentOut0 (cutOf dentCo dentCorner)
    (dentTets0.map (mkTet dentCo)) := by
  refine solid_of dentP0 dentL0 dentF0 (by decide +kernel) (by decide +kernel) ?_ (by decide +kernel) ?_
    (by decide +kernel) (by decide +kernel) (by decide +kernel)
  · unfold dentF0
    simp only [List.forall_mem_cons, List.not_mem_nil, false_implies, implies_true, and_true]
    simp [dentCo, coords, nd, cross, sub]
    try norm_num
  · unfold dentTets0
    simp only [List.forall_mem_cons, List.not_mem_nil, false_implies, implies_true, and_true]
    simp [dentCo, coords, nd, mkTet, Tet.vol, dot, cross, sub]
    try norm_num

theorem tiny_solid0 : Solid dent tinyCo (cl 0) dentCorner dentOut0 (cutOf tinyCo dentCorner)
    (dentTets0.map (mkTet tinyCo)) := by
  refine solid_of dentP0 dentL0 dentF0 (by decide +kernel) (by decide +kernel) ?_ (by decide +kernel) ?_
    (by decide +kernel) (by decide +kernel) (by decide +kernel)
  · unfold dentF0
    simp only [List.forall_mem_cons, List.not_mem_nil, false_implies, implies_true, and_true]
    simp [tinyCo, coords, nd, cross, sub]
    try norm_num
  · unfold dentTets0
    simp only [List.forall_mem_cons, List.not_mem_nil, false_implies, implies_true, and_true]
    simp [tinyCo, coords, nd, mkTet, Tet.vol, dot, cross, sub]
    try norm_num

theorem cavity_solid0 : Solid cavity cavityCo (cl 0) cavityCorner cavityOut0 (cutOf cavityCo cavityCorner)
    (cavityTets0.map (mkTet cavityCo)) := by
  refine solid_of cavityP0 cavityL0 cavityF0 (by decide +kernel) (by decide +kernel) ?_ (by decide +kernel) ?_
    (by decide +kernel) (by decide +kernel) (by decide +kernel)
  · unfold cavityF0
    simp only [List.forall_mem_cons, List.not_mem_nil, false_implies, implies_true, and_true]
    simp [cavityCo, coords, nd, cross, sub]
    try norm_num
  · unfold cavityTets0
    simp only [List.forall_mem_cons, List.not_mem_nil, false_implies, implies_true, and_true]
    simp [cavityCo, coords, nd, mkTet, Tet.vol, dot, cross, sub]
    try norm_num

end Verif.Geometry
