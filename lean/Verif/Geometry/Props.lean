import Verif.Geometry.Sample3

/-!
# Properties C70 to C74: geometric data of faces and cells
-/

namespace Verif.Geometry
open Verif.Topology Verif.EdgeLoop Verif.Search

variable {K : Type} [Field K] [LinearOrder K] [IsStrictOrderedRing K]
variable {G : Geo K} {cn : Bool} {c : El} {corner : El → List El} {out : El → Bool} {cut : El → List (Tri K)}
  {ts : List (Tet K)}

theorem up_of (r : Reach cn G.T) (e g : El) : g ∈ G.T.high e ↔ e ∈ G.T.low g :=
  ((reach_inv r).1.mem (fun h => h)).symm

/-! ## C70 -/

/-- Faces that do not pass the test of convexity: exactly the faces that are connected with the first one and run
through the opposite way are marked. -/
theorem C70_search_partial (r : Reach cn G.T) {f0 : El} {fs : List El} (S : Surface G.T (f0 :: fs) corner out)
    (hc : checkConvexity G (f0 :: fs) = some false) :
    ∃ rev, facesOrientation G (f0 :: fs) = some rev ∧
      ∀ g, g ∈ rev ↔ g ∈ f0 :: fs ∧ Relation.ReflTransGen (Adjacent G.T (f0 :: fs)) f0 g ∧ out g ≠ out f0 := by
  obtain ⟨rev, h1, h2⟩ := orientFrom_component S (fun e g _ => up_of r e g) (f0 := f0) List.mem_cons_self
  refine ⟨rev, ?_, h2⟩
  unfold facesOrientation
  simp only [hc]
  exact h1

/-- Faces of a convex cell: exactly those with the corners around the inward normal are marked. -/
theorem C70_convex_partial (heps : 0 ≤ G.eps) (hs : IsSqrt G.sq) (S : Solid G.T G.coord c corner out cut ts)
    (hc : Convex (facesOf G.T c) (fun f => (corner f).map G.coord) out cut) :
    ∃ rev, facesOrientation G (facesOf G.T c) = some rev ∧ ∀ f, f ∈ rev ↔ f ∈ facesOf G.T c ∧ out f = false := by
  obtain ⟨rev, h1, h2⟩ := orientation_convex heps hs S hc
  refine ⟨rev, h1, fun f => ?_⟩
  rw [h2]; simp

/-- A face that is not marked although it is run through the opposite way: cells of size 1e-5 are treated as
convex whatever their shape. -/
theorem C70_tiny_fails : ∃ (G : Geo ℝ) (c f0 f : El) (fs : List El) (corner : El → List El) (out : El → Bool) (rev : List El),
    Reach true G.T ∧ G.eps = 1 / 10 ^ 8 ∧ IsSqrt G.sq ∧ facesOf G.T c = f0 :: fs ∧ Surface G.T (f0 :: fs) corner out ∧
    Connected G.T (f0 :: fs) ∧ facesOrientation G (f0 :: fs) = some rev ∧ f ∈ fs ∧ f0 ∈ rev ∧ f ∉ rev ∧ out f = out f0 := by
  obtain ⟨rev, h1, h2⟩ := tiny_orientation
  refine ⟨tinyG, cl 0, fc 0, fc 3, [fc 1, fc 2, fc 3, fc 4, fc 5], dentCorner, dentOut0, rev, reach_dent, rfl, sqrt_isSqrt,
    dent_faces, ?_, ?_, ?_, by decide, ?_, ?_, by decide⟩
  · rw [← dent_faces]; exact dent_surface
  · rw [← dent_faces]; exact dent_connected
  · rw [← dent_faces]; exact h1
  · rw [h2]; exact ⟨by decide +kernel, .inl rfl⟩
  · rw [h2]; rintro ⟨-, h | h⟩ <;> exact absurd h (by decide)

example : ∃ rev, facesOrientation dentG (facesOf dent (cl 0)) = some rev ∧ fc 2 ∈ rev ∧ fc 1 ∉ rev := by
  have hck := dent_check
  have hsf := dent_surface
  have hcn := dent_connected
  rw [dent_faces] at hck hsf hcn ⊢
  obtain ⟨rev, h1, h2⟩ := C70_search_partial (G := dentG) reach_dent hsf hck
  refine ⟨rev, h1, (h2 _).2 ⟨by decide, hcn _ (by decide) _ (by decide), by decide⟩, fun h => ?_⟩
  exact ((h2 _).1 h).2.2 (by decide)

example : ∃ rev, facesOrientation pairG (facesOf pair2 (cl 0)) = some rev ∧ fc 0 ∈ rev ∧ fc 3 ∉ rev := by
  obtain ⟨rev, h1, h2⟩ := C70_convex_partial (G := pairG) (by norm_num [pairG]) sqrt_isSqrt pair_solid0 pair_convex0
  refine ⟨rev, h1, (h2 _).2 ⟨by decide +kernel, by decide⟩, fun h => ?_⟩
  exact absurd ((h2 _).1 h).2 (by decide)

/-! ## C71 -/

/-- The volume of a convex cell. -/
theorem C71_convex_partial (heps : 0 ≤ G.eps) (hs : IsSqrt G.sq) (S : Solid G.T G.coord c corner out cut ts)
    (hc : Convex (facesOf G.T c) (fun f => (corner f).map G.coord) out cut) : cellVolume G c = some (volume ts) := by
  obtain ⟨rev, h1, h2⟩ := orientation_convex heps hs S hc
  exact cellVolume_of hs S h1 h2

/-- The volume of a cell with a connected surface that does not pass the test of convexity. -/
theorem C71_general_partial (r : Reach cn G.T) (hs : IsSqrt G.sq) (S : Solid G.T G.coord c corner out cut ts)
    (S' : Surface G.T (facesOf G.T c) corner out) (hconn : Connected G.T (facesOf G.T c))
    (hc : checkConvexity G (facesOf G.T c) = some false) : cellVolume G c = some (volume ts) := by
  have hne := S.faces
  match hm : facesOf G.T c, hne with
  | f0 :: fs, _ =>
    obtain ⟨rev, h1, h2⟩ := orientation_search (G := G) (fs := facesOf G.T c) (f0 := f0) (by rw [hm]; rfl) hc S'
      (fun e g _ => up_of r e g) hconn
    exact cellVolume_of hs S h1 h2

/-- A cell of size 1e-5 whose volume is found to be five times the right one. -/
theorem C71_tiny_fails : ∃ (G : Geo ℝ) (c : El) (corner : El → List El) (out : El → Bool) (cut : El → List (Tri ℝ))
    (ts : List (Tet ℝ)), Reach true G.T ∧ G.eps = 1 / 10 ^ 8 ∧ IsSqrt G.sq ∧ Solid G.T G.coord c corner out cut ts ∧
    Surface G.T (facesOf G.T c) corner out ∧ Connected G.T (facesOf G.T c) ∧ 0 < volume ts ∧
    cellVolume G c = some (5 * volume ts) := by
  refine ⟨tinyG, cl 0, _, _, _, _, reach_dent, rfl, sqrt_isSqrt, tiny_solid0, dent_surface, dent_connected, ?_, ?_⟩
  · rw [tiny_volume.2]; norm_num
  · rw [tiny_volume.1, tiny_volume.2]; norm_num

/-- A cell with a cavity whose volume is added instead of subtracted. -/
theorem C71_cavity_fails : ∃ (G : Geo ℝ) (c : El) (corner : El → List El) (out : El → Bool) (cut : El → List (Tri ℝ))
    (ts : List (Tet ℝ)), Reach true G.T ∧ IsSqrt G.sq ∧ Solid G.T G.coord c corner out cut ts ∧
    Surface G.T (facesOf G.T c) corner out ∧ checkConvexity G (facesOf G.T c) = some false ∧
    volume ts = (1000 - 1) / 6 ∧ cellVolume G c = some ((1000 + 1) / 6) :=
  ⟨cavityG, cl 0, _, _, _, _, reach_cavity, sqrt_isSqrt, cavity_solid0, cavity_surface, cavity_check,
    by rw [cavity_volume.2]; norm_num, by rw [cavity_volume.1]; norm_num⟩

example : cellVolume pairG (cl 1) = some (1 / 6) := by
  rw [C71_convex_partial (G := pairG) (by norm_num [pairG]) sqrt_isSqrt pair_solid1 pair_convex1]
  simp [volume, pair2Tets1, mkTet, Tet.vol, pairCo, coords, nd, cross, sub, dot]

example : cellVolume dentG (cl 0) = some 4 := by
  rw [C71_general_partial (G := dentG) reach_dent sqrt_isSqrt dent_solid0 dent_surface dent_connected dent_check]
  simp [volume, dentTets0, mkTet, Tet.vol, dentCo, coords, nd, cross, sub, dot]
  norm_num

/-! ## C72 -/

/-- The barycenter of a convex cell is its centre of mass. -/
theorem C72_convex_partial (heps : 0 ≤ G.eps) (hs : IsSqrt G.sq) (S : Solid G.T G.coord c corner out cut ts)
    (hc : Convex (facesOf G.T c) (fun f => (corner f).map G.coord) out cut) :
    cellBarycenter G c = some (centreOfMass ts) := by
  obtain ⟨rev, h1, h2⟩ := orientation_convex heps hs S hc
  exact cellBarycenter_of hs S h1 h2

/-- The barycenter of a cell with a connected surface that does not pass the test of convexity is its centre of
mass. -/
theorem C72_general_partial (r : Reach cn G.T) (hs : IsSqrt G.sq) (S : Solid G.T G.coord c corner out cut ts)
    (S' : Surface G.T (facesOf G.T c) corner out) (hconn : Connected G.T (facesOf G.T c))
    (hc : checkConvexity G (facesOf G.T c) = some false) : cellBarycenter G c = some (centreOfMass ts) := by
  have hne := S.faces
  match hm : facesOf G.T c, hne with
  | f0 :: fs, _ =>
    obtain ⟨rev, h1, h2⟩ := orientation_search (G := G) (fs := facesOf G.T c) (f0 := f0) (by rw [hm]; rfl) hc S'
      (fun e g _ => up_of r e g) hconn
    exact cellBarycenter_of hs S h1 h2

example : cellBarycenter pairG (cl 0) = some ⟨1 / 4, 1 / 4, 1 / 4⟩ := by
  rw [C72_convex_partial (G := pairG) (by norm_num [pairG]) sqrt_isSqrt pair_solid0 pair_convex0]
  simp [centreOfMass, volume, Tet.centre, pair2Tets0, mkTet, Tet.vol, pairCo, coords, nd, cross, sub, dot]
  norm_num

example : cellBarycenter dentG (cl 0) = some ⟨1 / 4, 1 / 4, -5 / 8⟩ := by
  rw [C72_general_partial (G := dentG) reach_dent sqrt_isSqrt dent_solid0 dent_surface dent_connected dent_check]
  simp [centreOfMass, volume, Tet.centre, dentTets0, mkTet, Tet.vol, dentCo, coords, nd, cross, sub, dot]
  norm_num

/-! ## C73 -/

/-- The normal of a face, flat or not, is the vector area of the polygon of its corners. -/
theorem C73_normal {f : El} {ns : List El} (h : Loop G.T (edgesOf G.T f) ns) (hn : ns.Nodup) :
    faceNormal G f = some (vectorArea (ns.map G.coord)) := by
  unfold faceNormal
  rw [facePoints_of h hn]
  exact normalOf_vectorArea (pts_ne h)

/-- The normal of a flat face is the sum of the area vectors of the triangles it is cut into, and the area is its
length. -/
theorem C73_flat (hs : IsSqrt G.sq) {f : El} {ns : List El} (h : Loop G.T (edgesOf G.T f) ns) (hn : ns.Nodup)
    {tr : List (Tri K)} (hc : CutFace (ns.map G.coord) tr) :
    faceNormal G f = some (areaVector tr) ∧
      ∃ a, faceArea G f = some a ∧ 0 ≤ a ∧ a * a = dot (areaVector tr) (areaVector tr) := by
  have hN := normalOf_cut hc (pts_ne h)
  have hp := facePoints_of h hn
  constructor
  · unfold faceNormal; rw [hp]; exact hN
  · unfold faceArea
    rw [hp]
    simp only
    have h1 := h.three
    have h2 := h.corners
    rw [if_pos (by rw [List.length_map]; omega), hN]
    refine ⟨_, rfl, abs_nonneg _, ?_⟩
    rw [abs_mul_abs_self]
    refine (hs _ ?_).2
    unfold dot
    nlinarith [mul_self_nonneg (areaVector tr).x, mul_self_nonneg (areaVector tr).y, mul_self_nonneg (areaVector tr).z]

/-- The barycenter of a flat face with a non-zero area is its centre. -/
theorem C73_barycenter (hs : IsSqrt G.sq) {f : El} {ns : List El} (h : Loop G.T (edgesOf G.T f) ns) (hn : ns.Nodup)
    {tr : List (Tri K)} (hc : CutFace (ns.map G.coord) tr) (hA : areaVector tr ≠ ⟨0, 0, 0⟩) :
    ∃ X, faceBarycenter G f = some X ∧ CentreOfArea tr X := by
  rw [faceBarycenter_of h hn]
  exact pointsCentre_cut hs hc (pts_ne h) hA

/-- The outward normals of the faces of a cell sum up to zero. -/
theorem C73_closed (S : Solid G.T G.coord c corner out cut ts) : ∃ N : El → V K,
    (∀ f ∈ facesOf G.T c, faceNormal G f = some (N f)) ∧
    ((facesOf G.T c).map fun f => (if out f then 1 else -1) * (N f).x).sum = 0 ∧
    ((facesOf G.T c).map fun f => (if out f then 1 else -1) * (N f).y).sum = 0 ∧
    ((facesOf G.T c).map fun f => (if out f then 1 else -1) * (N f).z).sum = 0 := by
  refine ⟨fun f => areaVector (cut f), ?_, ?_, ?_, ?_⟩
  · intro f hf
    unfold faceNormal
    rw [facePoints_of (S.loop f hf) (S.nodup f hf)]
    exact normalOf_cut (S.cut.face f hf) (S.ne hf)
  · have := solid_flux area_flux_x S.cut fun f hf => S.ne hf
    simp only [List.map_const', List.sum_replicate, smul_zero] at this
    rw [← this]
    exact sum_congr fun f hf => by rw [fan_cut area_flux_x (S.cut.face f hf) (S.ne hf)]; rfl
  · have := solid_flux area_flux_y S.cut fun f hf => S.ne hf
    simp only [List.map_const', List.sum_replicate, smul_zero] at this
    rw [← this]
    exact sum_congr fun f hf => by rw [fan_cut area_flux_y (S.cut.face f hf) (S.ne hf)]; rfl
  · have := solid_flux area_flux_z S.cut fun f hf => S.ne hf
    simp only [List.map_const', List.sum_replicate, smul_zero] at this
    rw [← this]
    exact sum_congr fun f hf => by rw [fan_cut area_flux_z (S.cut.face f hf) (S.ne hf)]; rfl

example : faceNormal pairG (fc 3) = some ⟨1 / 2, 1 / 2, 1 / 2⟩ := by
  have hf : fc 3 ∈ facesOf pair2 (cl 0) := by decide +kernel
  rw [(C73_flat (G := pairG) sqrt_isSqrt (pair_solid0.loop _ hf) (pair_solid0.nodup _ hf) (pair_solid0.cut.face _ hf)).1]
  simp [cutOf, corner3, mkTri, areaVector, pair2Corner, pairCo, coords, nd, fc, Tri.area, smul, cross, sub]

example : ∃ X, faceBarycenter pairG (fc 3) = some X ∧ CentreOfArea (cutOf pairCo pair2Corner (fc 3)) X := by
  have hf : fc 3 ∈ facesOf pair2 (cl 0) := by decide +kernel
  refine C73_barycenter (G := pairG) sqrt_isSqrt (pair_solid0.loop _ hf) (pair_solid0.nodup _ hf)
    (pair_solid0.cut.face _ hf) ?_
  simp [cutOf, corner3, mkTri, areaVector, pair2Corner, pairCo, coords, nd, fc, Tri.area, smul, cross, sub]

example := C73_closed (G := dentG) dent_solid0
example := C73_normal (G := dentG) (dent_solid0.loop (fc 2) (by decide +kernel)) (dent_solid0.nodup (fc 2) (by decide +kernel))

/-! ## C74 -/

/-- A cell that is convex, or does not pass the test of convexity, has a connected surface and no hidden faces. -/
def Handled (G : Geo K) (c : El) (corner : El → List El) (out : El → Bool) (cut : El → List (Tri K)) : Prop :=
  Convex (facesOf G.T c) (fun f => (corner f).map G.coord) out cut ∨
  (checkConvexity G (facesOf G.T c) = some false ∧ Surface G.T (facesOf G.T c) corner out ∧
    Connected G.T (facesOf G.T c) ∧ ∀ f ∈ G.T.low c, G.T.hid f = false)

/-- The test answers whether the normal of the face points out of its back cell. -/
theorem C74_check_partial (r : Reach cn G.T) (heps : 0 ≤ G.eps) (hs : IsSqrt G.sq)
    (S : Solid G.T G.coord c corner out cut ts) (hh : Handled G c corner out cut) {f : El} (hf : f ∈ facesOf G.T c)
    (hb : backCell G.T f = some c) : checkNormal G f = some (out f) := by
  rcases hh with hc | ⟨h1, h2, h3, h4⟩
  · exact checkNormal_convex heps hs S hc hf hb
  · exact checkNormal_search hs S h4 h1 h2 (fun e g _ => up_of r e g) h3 hf hb

/-- A face without cells has no wrong direction. -/
theorem C74_free {f : El} (hb : ∀ c ∈ G.T.high f, G.T.hid c = true) : checkNormal G f = some true := by
  have : backCell G.T f = none := by
    unfold backCell
    have : vis G.T (G.T.high f) = [] := by
      unfold vis
      rw [List.filter_eq_nil_iff]
      intro a ha; rw [hb a ha]; simp
    rw [this]; rfl
  unfold checkNormal
  rw [this]

/-- `n` is the outward area vector of face `f` of the solid cell `c`. -/
def Outward (T : Topo) (coord : El → V K) (c f : El) (n : V K) : Prop :=
  ∃ corner out cut ts, Solid T coord c corner out cut ts ∧ f ∈ facesOf T c ∧
    n = smul (if out f then 1 else -1) (areaVector (cut f))

theorem reversed_normal (r : Reach cn G.T) {f : El} (h2 : f.ty = 2) {ns : List El} (h : Loop G.T (edgesOf G.T f) ns)
    (hn : ns.Nodup) {T' : Topo} (e : G.T.modLow f List.reverse = some T') :
    faceNormal { G with T := T' } f = some (smul (-1) (vectorArea (ns.map G.coord))) ∧
      backCell T' f = backCell G.T f := by
  have I := (reach_inv r).1
  unfold Topo.modLow at e
  cases hl : G.T.lcOf f with
  | none => rw [hl] at e; cases e
  | some l =>
    rw [hl] at e
    have hll : l = G.T.low f := by
      unfold Topo.lcOf at hl; split at hl
      · cases hl; rfl
      · cases hl
    subst hll
    cases e
    obtain ⟨a, l, rfl, hr⟩ := Loop.rev h
    have hlow : ∀ e ∈ edgesOf G.T f, e ≠ f := by
      intro e he hef
      have := (I.lowTy f e (List.mem_filter.1 he).1).1 (by omega)
      rw [hef] at this; omega
    have hes : edgesOf { G.T with low := set1 G.T.low f (G.T.low f).reverse } f = (edgesOf G.T f).reverse := by
      unfold edgesOf
      rw [← List.filter_reverse]
      simp only [set1_same]
      rfl
    refine ⟨?_, rfl⟩
    have hloop : Loop { G.T with low := set1 G.T.low f (G.T.low f).reverse }
        (edgesOf { G.T with low := set1 G.T.low f (G.T.low f).reverse } f) (a :: l.reverse) := by
      rw [hes]
      refine Loop.congr hr ?_ rfl
      intro e he
      have := hlow e (List.mem_reverse.1 he)
      simp only [set1_ne _ _ this]
    have hnd : (a :: l.reverse).Nodup := by
      rw [List.nodup_cons] at hn ⊢
      exact ⟨by simpa using hn.1, List.nodup_reverse.2 hn.2⟩
    have := C73_normal (G := { G with T := { G.T with low := set1 G.T.low f (G.T.low f).reverse } }) hloop hnd
    rw [this, List.map_cons, List.map_reverse, vectorArea_reverse]
    rfl

/-- After the repair the normal points out of the back cell.  The back cell `c` is handled by the test, and a second
cell of the face, if any, lies on the other side. -/
theorem C74_fix_partial (r : Reach cn G.T) (heps : 0 ≤ G.eps) (hs : IsSqrt G.sq)
    (S : Solid G.T G.coord c corner out cut ts) (hh : Handled G c corner out cut) {f : El} (h2 : f.ty = 2)
    (hf : f ∈ facesOf G.T c) (hb : backCell G.T f = some c)
    (hfront : ∀ rest, vis G.T (G.T.high f) = c :: rest → rest = [] ∨ ∃ c', rest = [c'] ∧
      Outward G.T G.coord c' f (smul (if out f then -1 else 1) (areaVector (cut f)))) (swap : Bool) :
    ∃ G' b c' n, fixNormalOrientation G swap f = some (G', b) ∧ b = !out f ∧ G'.coord = G.coord ∧
      backCell G'.T f = some c' ∧ faceNormal G' f = some n ∧ Outward G.T G.coord c' f n := by
  have hck := C74_check_partial r heps hs S hh hf hb
  have hN : faceNormal G f = some (areaVector (cut f)) :=
    (C73_flat hs (S.loop f hf) (S.nodup f hf) (S.cut.face f hf)).1
  unfold fixNormalOrientation
  rw [hck]
  cases ho : out f
  · -- the normal points inside
    simp only
    have hmem : f ∈ G.T.low c := (List.mem_filter.1 hf).1
    have hlive := ((reach_inv r).1.lowLive hmem).1
    have hlc : G.T.lcOf f = some (G.T.low f) := by
      unfold Topo.lcOf; rw [if_pos ⟨hlive, .inl (by omega)⟩]
    have hhc : G.T.hcOf f = some (G.T.high f) := by
      unfold Topo.hcOf; rw [if_pos ⟨hlive, .inl (by omega)⟩]
    have hrev : ∃ T', G.T.modLow f List.reverse = some T' := by
      unfold Topo.modLow; rw [hlc]; exact ⟨_, rfl⟩
    obtain ⟨T', hT'⟩ := hrev
    obtain ⟨n1, n2⟩ := reversed_normal r h2 (S.loop f hf) (S.nodup f hf) hT'
    have hvec : vectorArea ((corner f).map G.coord) = areaVector (cut f) := by
      have := C73_normal (S.loop f hf) (S.nodup f hf)
      rw [hN] at this
      exact (Option.some.inj this).symm
    rw [hvec] at n1
    have hout : Outward G.T G.coord c f (smul (-1) (areaVector (cut f))) :=
      ⟨corner, out, cut, ts, S, hf, by simp [ho]⟩
    have reversed : ∃ G' b c' n, (match some T' with
        | none => none
        | some T => some (({ G with T := T } : Geo K), true)) = some (G', b) ∧ b = !false ∧ G'.coord = G.coord ∧
        backCell G'.T f = some c' ∧ faceNormal G' f = some n ∧ Outward G.T G.coord c' f n :=
      ⟨_, _, c, _, rfl, rfl, rfl, n2.trans hb, n1, hout⟩
    cases swap
    · simp only [Bool.false_eq_true, if_false, Topo.fixNoSwap, if_true, hT']
      exact reversed
    · simp only [if_true, Topo.fixNormal, hhc]
      rw [countVis_eq]
      unfold backCell at hb
      match hv : vis G.T (G.T.high f), hb with
      | c0 :: rest, hb =>
        cases hb
        have hv' : (G.T.high f).filter (fun x => !G.T.hid x) = c :: rest := hv
        rw [hv']
        rcases hfront rest hv with rfl | ⟨c', rfl, hc'⟩
        · simp only [List.length_singleton, Nat.reduceLeDiff, if_false, hT']
          exact reversed
        · simp only [List.length_cons, List.length_nil, Nat.zero_add, Nat.reduceAdd, Nat.le_refl, if_true]
          obtain ⟨T2, hT2, -⟩ := swapTwo_spec hhc (by rw [countVis_eq, hv']; simp)
          obtain ⟨s1, s2, s3, s4⟩ := swapTwo_vis hv hT2
          rw [hT2]
          refine ⟨_, _, c', areaVector (cut f), rfl, rfl, rfl, ?_, ?_, ?_⟩
          · unfold backCell; simp only [s4, List.head?_cons]
          · have hl : Loop T2 (edgesOf T2 f) (corner f) := by
              have : edgesOf T2 f = edgesOf G.T f := by unfold edgesOf; rw [s1, s2]
              rw [this]
              exact Loop.congr (S.loop f hf) (fun e _ => by rw [s1]) s2
            exact (C73_flat (G := { G with T := T2 }) hs hl (S.nodup f hf) (S.cut.face f hf)).1
          · have h1 : smul (if out f then -1 else 1) (areaVector (cut f)) = areaVector (cut f) := by
              simp [ho, smul]
            rw [h1] at hc'
            exact hc'
  · simp only
    exact ⟨_, _, c, _, rfl, by simp, rfl, hb, hN, corner, out, cut, ts, S, hf, by simp [ho, smul]⟩

/-- A face of a cell of size 1e-5 whose normal points out of the cell and that does not pass the test. -/
theorem C74_tiny_fails : ∃ (G : Geo ℝ) (c f : El) (corner : El → List El) (out : El → Bool) (cut : El → List (Tri ℝ))
    (ts : List (Tet ℝ)), Reach true G.T ∧ G.eps = 1 / 10 ^ 8 ∧ IsSqrt G.sq ∧ Solid G.T G.coord c corner out cut ts ∧
    Surface G.T (facesOf G.T c) corner out ∧ Connected G.T (facesOf G.T c) ∧ f ∈ facesOf G.T c ∧
    backCell G.T f = some c ∧ out f = true ∧ checkNormal G f = some false :=
  ⟨tinyG, cl 0, fc 0, _, _, _, _, reach_dent, rfl, sqrt_isSqrt, tiny_solid0, dent_surface, dent_connected,
    by change fc 0 ∈ facesOf dent (cl 0); decide +kernel, by change backCell dent (fc 0) = _; decide +kernel,
    tiny_normal.2, tiny_normal.1⟩

example : checkNormal pairG (fc 0) = some false :=
  C74_check_partial (G := pairG) reach_pair2 (by norm_num [pairG]) sqrt_isSqrt pair_solid0 (.inl pair_convex0)
    (by change fc 0 ∈ facesOf pair2 (cl 0); decide +kernel) (by change backCell pair2 (fc 0) = _; decide +kernel)

example : checkNormal dentG (fc 2) = some false :=
  C74_check_partial (G := dentG) reach_dent (by norm_num [dentG]) sqrt_isSqrt dent_solid0
    (.inr ⟨dent_check, dent_surface, dent_connected, by change ∀ f ∈ dent.low (cl 0), dent.hid f = false; decide +kernel⟩)
    (by change fc 2 ∈ facesOf dent (cl 0); decide +kernel) (by change backCell dent (fc 2) = _; decide +kernel)

/-- The common face of two cells: the normal points into the back cell, the cells are exchanged. -/
example : ∃ G' b c' n, fixNormalOrientation pairG true (fc 0) = some (G', b) ∧ b = !pair2Out0 (fc 0) ∧
    G'.coord = pairG.coord ∧ backCell G'.T (fc 0) = some c' ∧ faceNormal G' (fc 0) = some n ∧
    Outward pairG.T pairG.coord c' (fc 0) n := by
  refine C74_fix_partial (G := pairG) reach_pair2 (by norm_num [pairG]) sqrt_isSqrt pair_solid0 (.inl pair_convex0) rfl
    (by change fc 0 ∈ facesOf pair2 (cl 0); decide +kernel) (by change backCell pair2 (fc 0) = _; decide +kernel) ?_ true
  intro rest hr
  have hv : vis pair2 (pair2.high (fc 0)) = [cl 0, cl 1] := by decide +kernel
  have : cl 0 :: rest = [cl 0, cl 1] := hr.symm.trans hv
  cases this
  exact .inr ⟨cl 1, rfl, _, _, _, _, pair_solid1, by change fc 0 ∈ facesOf pair2 (cl 1); decide +kernel, rfl⟩

end Verif.Geometry
