import Verif.Geometry.Cells

/-!
# Faces: normal, centre, direction of the normal
-/

namespace Verif.Geometry
open Verif.Topology Verif.EdgeLoop Verif.Search

variable {K : Type} [Field K] [LinearOrder K] [IsStrictOrderedRing K]
variable {G : Geo K} {c : El} {corner : El → List El} {out : El → Bool} {cut : El → List (Tri K)}
  {ts : List (Tet K)}

/-! ## Sums over the sides of a polygon -/

/-- The sum over consecutive members. -/
def chain (g : V K → V K → K) : List (V K) → K
  | a :: b :: l => g a b + chain g (b :: l)
  | _ => 0

theorem chain_append (g : V K → V K → K) (a b : V K) : ∀ l : List (V K),
    chain g (l ++ [a, b]) = chain g (l ++ [a]) + g a b := by
  intro l
  induction l with
  | nil => simp [chain]
  | cons c l ih =>
    cases l with
    | nil => simp [chain]
    | cons d l => simp only [List.cons_append, chain] at ih ⊢; rw [ih]; ring

theorem chain_reverse (g : V K → V K → K) (hg : ∀ a b, g b a = -g a b) : ∀ l : List (V K),
    chain g l.reverse = -chain g l := by
  intro l
  induction l with
  | nil => simp [chain]
  | cons a l ih =>
    cases l with
    | nil => simp [chain]
    | cons b l =>
      rw [List.reverse_cons, List.reverse_cons, List.append_assoc, List.singleton_append, chain_append]
      rw [List.reverse_cons] at ih
      rw [ih, chain, hg a b]; ring

theorem chain_zip (g : V K → V K → K) (z : V K) : ∀ (l : List (V K)) (a : V K),
    (((a :: l).zip (l ++ [z])).map fun s => g s.1 s.2).sum = chain g (a :: l ++ [z]) := by
  intro l
  induction l with
  | nil => intro a; simp [chain]
  | cons b l ih =>
    intro a
    simp only [List.cons_append, List.zip_cons_cons, List.map_cons, List.sum_cons, chain]
    rw [ih b]; rfl

theorem cyc_sum (g : V K → V K → K) (a : V K) (l : List (V K)) :
    ((cyc (a :: l)).map fun s => g s.1 s.2).sum = chain g (a :: l ++ [a]) := by
  unfold cyc
  simp only [List.tail_cons, List.head?_cons, Option.toList_some]
  exact chain_zip g a l a

theorem chain_diff (h : V K → K) : ∀ (l : List (V K)) (a z : V K),
    chain (fun x y => h y - h x) (a :: l ++ [z]) = h z - h a := by
  intro l
  induction l with
  | nil => intro a z; simp [chain]
  | cons b l ih =>
    intro a z
    have := ih b z
    simp only [List.cons_append, chain] at this ⊢
    rw [this]; ring

theorem chain_add (g h : V K → V K → K) : ∀ l : List (V K),
    chain (fun x y => g x y + h x y) l = chain g l + chain h l := by
  intro l
  induction l with
  | nil => simp [chain]
  | cons a l ih =>
    cases l with
    | nil => simp [chain]
    | cons b l => simp only [chain] at ih ⊢; rw [ih]; ring

/-- A fan over a function that splits into the sides. -/
theorem fan_cyc {F : Tri K → K} {w : Tet K → K} (hF : Flux F w) (g : V K → V K → K)
    (hg : ∀ o a b, F ⟨o, a, b⟩ = g a b + g b o + g o a) (hgs : ∀ a b, g b a = -g a b) (v0 : V K) (vs : List (V K)) :
    fanSum F (v0 :: vs) = ((cyc (v0 :: vs)).map fun s => g s.1 s.2).sum := by
  rw [fan_sides hF, cyc_sum (fun a b => F ⟨v0, a, b⟩), cyc_sum]
  have h1 : (fun a b => F ⟨v0, a, b⟩) = fun a b => g a b + ((fun x => g x v0) b - (fun x => g x v0) a) := by
    funext a b
    rw [hg, hgs a v0]; ring
  rw [h1, chain_add, chain_diff]
  ring

theorem normalOf_vectorArea {ps : List (V K)} (h : ps ≠ []) : normalOf ps = some (vectorArea ps) := by
  match ps, h with
  | v0 :: vs, _ =>
    change some (normalLoop v0 (steps vs) zero) = some (vectorArea (v0 :: vs))
    rw [normal_fan]
    congr 1
    unfold vectorArea
    have hx := fan_cyc area_flux_x (fun a b : V K => (cross a b).x / 2)
      (fun o a b => by simp only [Tri.area, smul, cross, sub]; ring) (fun a b => by simp only [cross]; ring) v0 vs
    have hy := fan_cyc area_flux_y (fun a b : V K => (cross a b).y / 2)
      (fun o a b => by simp only [Tri.area, smul, cross, sub]; ring) (fun a b => by simp only [cross]; ring) v0 vs
    have hz := fan_cyc area_flux_z (fun a b : V K => (cross a b).z / 2)
      (fun o a b => by simp only [Tri.area, smul, cross, sub]; ring) (fun a b => by simp only [cross]; ring) v0 vs
    rw [hx, hy, hz]
    apply V.ext' <;> simp only [div_eq_mul_inv] <;> rw [sum_mul_right]

theorem vectorArea_reverse (a : V K) (l : List (V K)) :
    vectorArea (a :: l.reverse) = smul (-1) (vectorArea (a :: l)) := by
  have h : ∀ g : V K → V K → K, (∀ a b, g b a = -g a b) →
      ((cyc (a :: l.reverse)).map fun s => g s.1 s.2).sum = -((cyc (a :: l)).map fun s => g s.1 s.2).sum := by
    intro g hg
    rw [cyc_sum, cyc_sum, ← chain_reverse g hg]
    congr 1
    simp
  unfold vectorArea
  rw [h (fun a b => (cross a b).x) (fun a b => by simp only [cross]; ring),
    h (fun a b => (cross a b).y) (fun a b => by simp only [cross]; ring),
    h (fun a b => (cross a b).z) (fun a b => by simp only [cross]; ring)]
  apply V.ext' <;> simp only [smul] <;> ring

/-! ## The centre of a face -/

theorem centre_flux {n : V K} (hn : n ≠ ⟨0, 0, 0⟩) :
    Flux (fun t : Tri K => coef n t * ((t.a.x + t.b.x + t.c.x) / 3)) (fun t => n.x / dot n n * t.vol) ∧
    Flux (fun t : Tri K => coef n t * ((t.a.y + t.b.y + t.c.y) / 3)) (fun t => n.y / dot n n * t.vol) ∧
    Flux (fun t : Tri K => coef n t * ((t.a.z + t.b.z + t.c.z) / 3)) (fun t => n.z / dot n n * t.vol) := by
  have hN := (norm_pos hn).ne'
  unfold coef
  generalize hD : dot n n = D at *
  refine ⟨⟨?_, ?_, ?_, ?_⟩, ⟨?_, ?_, ?_, ?_⟩, ⟨?_, ?_, ?_, ?_⟩⟩ <;> intro t
  all_goals first
    | (intro h; rw [h, mul_zero])
    | (simp only [Tet.boundary, Tet.vol, List.map_cons, List.map_nil, List.sum_cons, List.sum_nil, Tri.area, Tri.rot,
        Tri.flip, dot, smul, cross, sub]; field_simp; ring)

theorem coef_flux {n : V K} (hn : n ≠ ⟨0, 0, 0⟩) : Flux (coef n) (fun _ : Tet K => 0) := by
  have hN := (norm_pos hn).ne'
  unfold coef
  generalize hD : dot n n = D at *
  refine ⟨?_, ?_, ?_, ?_⟩ <;> intro t
  all_goals first
    | (intro h; rfl)
    | (simp only [Tet.boundary, List.map_cons, List.map_nil, List.sum_cons, List.sum_nil, Tri.area, Tri.rot,
        Tri.flip, dot, smul, cross, sub]; field_simp; ring)

theorem areaVector_coef {n : V K} {d : K} (hn : n ≠ ⟨0, 0, 0⟩) {tr : List (Tri K)}
    (h : ∀ t ∈ tr, dot n t.a = d ∧ dot n t.b = d ∧ dot n t.c = d) (q : Tri K → K) :
    (tr.map fun t => q t * t.area.x).sum = (tr.map fun t => coef n t * q t).sum * n.x ∧
    (tr.map fun t => q t * t.area.y).sum = (tr.map fun t => coef n t * q t).sum * n.y ∧
    (tr.map fun t => q t * t.area.z).sum = (tr.map fun t => coef n t * q t).sum * n.z := by
  have h1 : ∀ t ∈ tr, t.area = smul (coef n t) n := fun t ht => area_coef hn (h t ht).1 (h t ht).2.1 (h t ht).2.2
  refine ⟨?_, ?_, ?_⟩ <;> rw [← sum_mul_right] <;> refine sum_congr fun t ht => ?_ <;> rw [h1 t ht] <;>
    simp only [smul] <;> ring

/-- The barycenter of a face with a non-zero area is its centre. -/
theorem pointsCentre_cut {sq : K → K} (hs : IsSqrt sq) {ps : List (V K)} {tr : List (Tri K)} (h : CutFace ps tr)
    (hne : ps ≠ []) (hA : areaVector tr ≠ ⟨0, 0, 0⟩) : ∃ X, pointsCentre sq ps = some X ∧ CentreOfArea tr X := by
  obtain ⟨n, d, hn, h1, h2⟩ := h.plane
  match ps, hne, h, h1 with
  | v0 :: vs, hne, h, h1 =>
    obtain ⟨X, e1, -, e2⟩ := pointsCentre_flat hs hn h1
    refine ⟨X, e1, ?_⟩
    have ha := areaVector_coef hn h2 fun _ => 1
    simp only [one_mul, mul_one] at ha
    rw [← fan_cut (coef_flux hn) h hne] at ha
    have hAv : areaVector tr = smul (fanSum (coef n) (v0 :: vs)) n := V.ext' ha.1 ha.2.1 ha.2.2
    have hC : fanSum (coef n) (v0 :: vs) ≠ 0 := by
      intro h0; apply hA; rw [hAv, h0]; apply V.ext' <;> simp [smul]
    obtain ⟨fx, fy, fz⟩ := centre_flux hn
    obtain ⟨ex, ey, ez⟩ := e2 hC
    rw [fan_cut fx h hne] at ex
    rw [fan_cut fy h hne] at ey
    rw [fan_cut fz h hne] at ez
    refine ⟨?_, ?_, ?_⟩ <;> unfold MeanOver <;> rw [hAv]
    · have := areaVector_coef hn h2 fun t => (t.a.x + t.b.x + t.c.x) / 3
      rw [this.1, this.2.1, this.2.2, ← ex]; simp only [smul]
      exact ⟨by ring, by ring, by ring⟩
    · have := areaVector_coef hn h2 fun t => (t.a.y + t.b.y + t.c.y) / 3
      rw [this.1, this.2.1, this.2.2, ← ey]; simp only [smul]
      exact ⟨by ring, by ring, by ring⟩
    · have := areaVector_coef hn h2 fun t => (t.a.z + t.b.z + t.c.z) / 3
      rw [this.1, this.2.1, this.2.2, ← ez]; simp only [smul]
      exact ⟨by ring, by ring, by ring⟩

/-! ## The direction of the normal -/

theorem measureLoop_eq {rev : List El} {p : El → K} : ∀ {fs : List El} (m : K),
    (∀ f ∈ fs, ∃ x n, faceBarycenter G f = some x ∧ faceNormal G f = some n ∧ dot x n = p f) →
    measureLoop G rev fs m = some (m + (fs.map fun f => sign rev f * p f).sum) := by
  intro fs
  induction fs with
  | nil => intro m _; simp [measureLoop]
  | cons f fs ih =>
    intro m h
    obtain ⟨x, n, h1, h2, h3⟩ := h f List.mem_cons_self
    unfold measureLoop
    simp only [h1, h2, h3]
    rw [ih _ fun g hg => h g (List.mem_cons_of_mem _ hg)]
    simp only [List.map_cons, List.sum_cons]
    rw [add_assoc]

theorem ne_of_convex {fs : List El} {pts : El → List (V K)} (h : Convex fs pts out cut) {f : El} (hf : f ∈ fs) :
    areaVector (cut f) ≠ ⟨0, 0, 0⟩ := by
  obtain ⟨-, g, hg, p, hp, q, hq, h1⟩ := h f hf
  intro h0; rw [h0] at h1; simp [dot] at h1

/-- The test of the direction of a face of a convex cell. -/
theorem checkNormal_convex (heps : 0 ≤ G.eps) (hs : IsSqrt G.sq) (S : Solid G.T G.coord c corner out cut ts)
    (hc : Convex (facesOf G.T c) (ptsOf G corner) out cut) {f : El} (hf : f ∈ facesOf G.T c)
    (hb : backCell G.T f = some c) : checkNormal G f = some (out f) := by
  obtain ⟨xn, h1, h2⟩ := convex_away hs S.loop S.nodup S.cut.face hc
  have h3 := convex_check heps h1 fun f hf => (h2 f hf).1
  obtain ⟨xc, hcen⟩ := cellCentroid_some S.exists_node
  obtain ⟨x, n, e1, e2, e3⟩ := centreNormal_of hs (S.loop f hf) (S.nodup f hf) (S.cut.face f hf)
  obtain ⟨k, hk, rfl⟩ := e3 (ne_of_convex hc hf)
  obtain ⟨c1, g0, hg0, p0, hp0, q0, hq0, c2⟩ := hc f hf
  have hfx : faceCentroid G f = some x ∧ unitNormal G f = some (smul k (areaVector (cut f))) := by
    unfold centreNormal at e1
    split at e1
    next a b ha hb' => cases e1; exact ⟨ha, hb'⟩
    · cases e1
  unfold checkNormal
  simp only [hb, vis_faces, h3, hcen, hfx.1, hfx.2]
  have hsg : outSign (K := K) out f = if out f = true then 1 else -1 := rfl
  rw [← hsg] at c2
  simp only [← hsg] at c1
  generalize areaVector (cut f) = A at *
  have c1' : ∀ g ∈ facesOf G.T c, ∀ p ∈ ptsOf G corner g, ∀ q ∈ ptsOf G corner f,
      dot (smul (outSign out f) A) p ≤ dot (smul (outSign out f) A) q := by
    intro g hg p hp q hq
    have := c1 g hg p hp q hq
    rw [dot_sub_right] at this
    rw [dot_smul_left, dot_smul_left]; linarith
  have c2' : dot (smul (outSign out f) A) p0 < dot (smul (outSign out f) A) q0 := by
    rw [dot_sub_right] at c2
    rw [dot_smul_left, dot_smul_left]; linarith
  have hxf : dot (smul (outSign out f) A) q0 ≤ dot (smul (outSign out f) A) x := by
    have := mean_le (N := smul (-1) (smul (outSign out f) A)) (d := -dot (smul (outSign out f) A) q0) e2 (fun p hp => by
      rw [dot_smul_left]
      have := c1' f hf q0 hq0 p hp
      linarith)
    rw [dot_smul_left] at this; linarith
  have hxc : dot (smul (outSign out f) A) xc < dot (smul (outSign out f) A) q0 := by
    unfold cellCentroid at hcen
    refine mean_lt hcen ?_ ?_
    · intro p hp
      obtain ⟨n, hn, rfl⟩ := List.mem_map.1 hp
      obtain ⟨g, hg, hng⟩ := (S.node n).1 (mem_vis.1 hn)
      exact c1' g hg _ (List.mem_map.2 ⟨n, hng, rfl⟩) q0 hq0
    · obtain ⟨n, hn, rfl⟩ := List.mem_map.1 hp0
      exact ⟨_, List.mem_map.2 ⟨n, mem_vis.2 ((S.node n).2 ⟨g0, hg0, hn⟩), rfl⟩, c2'⟩
  have hlt : 0 < k * (dot (smul (outSign out f) A) x - dot (smul (outSign out f) A) xc) :=
    mul_pos hk (by linarith)
  rw [dot_smul_left, dot_sub_right]
  rw [dot_smul_left, dot_smul_left] at hlt
  unfold outSign at hlt
  cases ho : out f
  · simp only [ho, Bool.false_eq_true, if_false] at hlt
    rw [if_pos (by linarith)]
  · simp only [ho, if_true] at hlt
    rw [if_neg (by linarith)]

theorem faceBarycenter_of {f : El} {ns : List El} (h : Loop G.T (edgesOf G.T f) ns) (hn : ns.Nodup) :
    faceBarycenter G f = pointsCentre G.sq (ns.map G.coord) := by
  unfold faceBarycenter
  rw [facePoints_of h hn]
  have h1 := h.three
  have h2 := h.corners
  simp only
  rw [if_pos (by rw [List.length_map]; omega)]

/-- The test of the direction of a face of a cell that is not convex. -/
theorem checkNormal_search (hs : IsSqrt G.sq) (S : Solid G.T G.coord c corner out cut ts)
    (hall : ∀ f ∈ G.T.low c, G.T.hid f = false)
    (hn : checkConvexity G (facesOf G.T c) = some false)
    (S' : Surface G.T (facesOf G.T c) corner out)
    (hup : ∀ e g, g ∈ facesOf G.T c → (g ∈ G.T.high e ↔ e ∈ G.T.low g)) (hc : Connected G.T (facesOf G.T c))
    {f : El} (hf : f ∈ facesOf G.T c) (hb : backCell G.T f = some c) : checkNormal G f = some (out f) := by
  have hfs : G.T.low c = facesOf G.T c := by
    unfold facesOf
    rw [List.filter_eq_self.2]
    intro a ha; rw [hall a ha]; rfl
  obtain ⟨rev, h1, h2⟩ := orientFrom_spec S' hup hc hf
  unfold checkNormal
  simp only [hb, vis_faces, hn]
  rw [hfs, h1]
  simp only
  have hp : ∀ f ∈ facesOf G.T c, ∃ x n, faceBarycenter G f = some x ∧ faceNormal G f = some n ∧
      dot x n = 3 * fanSum volFlux (ptsOf G corner f) := by
    intro f hf
    obtain ⟨n, d, hn, hpl⟩ := (S.cut.face f hf).inPlane
    have hnf := S.ne hf
    rw [faceBarycenter_of (S.loop f hf) (S.nodup f hf)]
    unfold faceNormal
    rw [facePoints_of (S.loop f hf) (S.nodup f hf), Option.bind_some]
    unfold ptsOf at hnf ⊢
    match (corner f).map G.coord, hnf, hpl with
    | v0 :: vs, _, hpl =>
      obtain ⟨X, e1, e2, -⟩ := pointsCentre_flat hs hn hpl
      refine ⟨X, _, e1, rfl, ?_⟩
      rw [normal_flat hn hpl, e2, volFan_flat hn hpl]; ring
  rw [measureLoop_eq 0 hp]
  simp only [zero_add]
  rw [sum_sign h2]
  have h3 : ((facesOf G.T c).map fun f => outSign out f * (3 * fanSum volFlux (ptsOf G corner f))).sum = 3 * volume ts := by
    rw [volume, ← solid_flux volFlux_flux S.cut fun f hf => S.ne hf, ← sum_map_mul]
    exact sum_congr fun g hg => by ring
  rw [h3]
  have hpos := volume_pos S.cut.positive S.cut.some
  cases ho : out f
  · rw [if_pos (by simp; linarith)]
  · rw [if_neg (by simp; linarith)]

end Verif.Geometry
