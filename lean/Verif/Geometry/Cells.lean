import Verif.Geometry.Flat
import Verif.Geometry.Orient

/-!
# Volume, centre and normals of a cell that is cut into tetrahedra
-/

namespace Verif.Geometry
open Verif.Topology Verif.EdgeLoop Verif.Search

variable {K : Type} [Field K] [LinearOrder K] [IsStrictOrderedRing K]
variable {G : Geo K} {c : El} {corner : El → List El} {out : El → Bool} {cut : El → List (Tri K)}
  {ts : List (Tet K)}

/-- The points of a face. -/
abbrev ptsOf (G : Geo K) (corner : El → List El) (f : El) : List (V K) := (corner f).map G.coord

theorem facePoints_of {f : El} {ns : List El} (h : Loop G.T (edgesOf G.T f) ns) (hn : ns.Nodup) :
    facePoints G f = some (ns.map G.coord) := by
  unfold facePoints
  rw [getNodes_spec h hn]
  rfl

theorem pts_ne {f : El} {ns : List El} (h : Loop G.T (edgesOf G.T f) ns) : ns.map G.coord ≠ [] := by
  have h1 := h.three
  have h2 := h.corners
  intro h3
  have : ns.length = 0 := by simpa using congrArg List.length h3
  omega

/-- The normal of a face is the area vector of its triangles. -/
theorem normalOf_cut {ps : List (V K)} {tr : List (Tri K)} (h : CutFace ps tr) (hne : ps ≠ []) :
    normalOf ps = some (areaVector tr) := by
  match ps, hne, h with
  | v0 :: vs, hne, h =>
    change some (normalLoop v0 (steps vs) zero) = some (areaVector tr)
    unfold areaVector
    rw [normal_fan, fan_cut area_flux_x h hne, fan_cut area_flux_y h hne, fan_cut area_flux_z h hne]

theorem allSome_eq {α β : Type} {g : α → Option β} {h : α → β} : ∀ {l : List α}, (∀ a ∈ l, g a = some (h a)) →
    allSome g l = some (l.map h) := by
  intro l
  induction l with
  | nil => intro _; rfl
  | cons a l ih =>
    intro hl
    unfold allSome
    rw [hl a List.mem_cons_self, ih fun b hb => hl b (List.mem_cons_of_mem _ hb)]
    rfl

/-! ## Means -/

theorem dot_sumPoints (N : V K) : ∀ ps : List (V K), dot N (sumPoints ps) = (ps.map (dot N)).sum := by
  intro ps
  induction ps with
  | nil => simp [sumPoints, dot, zero]
  | cons p ps ih =>
    rw [List.map_cons, List.sum_cons, ← ih]
    simp only [sumPoints, dot, add]; ring

theorem dot_mean (N : V K) {ps : List (V K)} {x : V K} (h : mean ps = some x) :
    dot N x = (ps.map (dot N)).sum / ps.length ∧ ps ≠ [] := by
  unfold mean at h
  split at h
  · cases h
  next hne =>
    cases h
    refine ⟨?_, hne⟩
    have hl : (ps.length : K) ≠ 0 := by
      have : ps.length ≠ 0 := fun h => hne (List.length_eq_zero_iff.1 h)
      exact_mod_cast this
    rw [← dot_sumPoints]
    simp only [dot]
    field_simp

theorem sum_le_of {ps : List (V K)} {g : V K → K} {d : K} (h : ∀ p ∈ ps, g p ≤ d) :
    (ps.map g).sum ≤ d * ps.length := by
  induction ps with
  | nil => simp
  | cons p ps ih =>
    have h1 := h p List.mem_cons_self
    have h2 := ih fun q hq => h q (List.mem_cons_of_mem _ hq)
    simp only [List.map_cons, List.sum_cons, List.length_cons]
    push_cast
    linarith

theorem sum_lt_of {ps : List (V K)} {g : V K → K} {d : K} (h : ∀ p ∈ ps, g p ≤ d) (h' : ∃ p ∈ ps, g p < d) :
    (ps.map g).sum < d * ps.length := by
  induction ps with
  | nil => obtain ⟨p, hp, -⟩ := h'; cases hp
  | cons p ps ih =>
    have h1 := h p List.mem_cons_self
    have h2 := sum_le_of fun q hq => h q (List.mem_cons_of_mem p hq)
    simp only [List.map_cons, List.sum_cons, List.length_cons]
    push_cast
    obtain ⟨q, hq, hlt⟩ := h'
    rcases List.mem_cons.1 hq with rfl | hq
    · linarith
    · have := ih (fun q hq => h q (List.mem_cons_of_mem p hq)) ⟨q, hq, hlt⟩
      linarith

theorem length_pos_of {ps : List (V K)} (h : ps ≠ []) : (0 : K) < ps.length := by
  have : 0 < ps.length := List.length_pos_iff.2 h
  exact_mod_cast this

theorem mean_le {N : V K} {ps : List (V K)} {x : V K} {d : K} (hm : mean ps = some x)
    (h : ∀ p ∈ ps, dot N p ≤ d) : dot N x ≤ d := by
  obtain ⟨h1, hne⟩ := dot_mean N hm
  rw [h1, div_le_iff₀ (length_pos_of hne)]
  exact sum_le_of h

theorem mean_lt {N : V K} {ps : List (V K)} {x : V K} {d : K} (hm : mean ps = some x)
    (h : ∀ p ∈ ps, dot N p ≤ d) (h' : ∃ p ∈ ps, dot N p < d) : dot N x < d := by
  obtain ⟨h1, hne⟩ := dot_mean N hm
  rw [h1, div_lt_iff₀ (length_pos_of hne)]
  exact sum_lt_of h h'

theorem dot_smul_left (k : K) (a b : V K) : dot (smul k a) b = k * dot a b := by simp only [dot, smul]; ring

theorem dot_sub_right (a b c : V K) : dot a (sub b c) = dot a b - dot a c := by simp only [dot, sub]; ring

theorem mean_some {ps : List (V K)} (h : ps ≠ []) : ∃ x, mean ps = some x := by
  unfold mean; rw [if_neg h]; exact ⟨_, rfl⟩

/-! ## Convex cells -/

/-- What is known of the centroid and of the unit normal. -/
theorem centreNormal_of (hs : IsSqrt G.sq) {f : El} {ns : List El} (h : Loop G.T (edgesOf G.T f) ns)
    (hn : ns.Nodup) {tr : List (Tri K)} (hc : CutFace (ns.map G.coord) tr) :
    ∃ x n, centreNormal G f = some (x, n) ∧ mean (ns.map G.coord) = some x ∧
      (areaVector tr ≠ ⟨0, 0, 0⟩ → ∃ k, 0 < k ∧ n = smul k (areaVector tr)) := by
  have hp := facePoints_of h hn
  have hne := pts_ne h
  obtain ⟨x, hx⟩ := mean_some hne
  have hN : faceNormal G f = some (areaVector tr) := by
    unfold faceNormal; rw [hp]; exact normalOf_cut hc hne
  have hc' : faceCentroid G f = some x := by unfold faceCentroid; rw [hp]; exact hx
  unfold centreNormal unitNormal
  rw [hN, hc']
  simp only
  by_cases hl : |G.sq (dot (areaVector tr) (areaVector tr))| > G.eps
  · rw [if_pos hl]
    refine ⟨x, _, rfl, hx, fun h0 => ?_⟩
    have hpos := norm_pos h0
    obtain ⟨h1, h2⟩ := hs _ hpos.le
    have h3 : 0 < G.sq (dot (areaVector tr) (areaVector tr)) := by
      rcases h1.lt_or_eq with h | h
      · exact h
      · rw [← h] at h2; simp at h2; exact absurd h2 hpos.ne
    refine ⟨_, inv_pos.2 h3, ?_⟩
    apply V.ext' <;> simp only [smul] <;> field_simp
  · rw [if_neg hl]
    refine ⟨x, _, rfl, hx, fun _ => ⟨1, one_pos, ?_⟩⟩
    apply V.ext' <;> simp [smul]

/-- The outward normal of each face of a convex cell turns away from the centroids of the other faces. -/
theorem convex_away (hs : IsSqrt G.sq) {fs : List El} (hloop : ∀ f ∈ fs, Loop G.T (edgesOf G.T f) (corner f))
    (hnd : ∀ f ∈ fs, (corner f).Nodup) (hcut : ∀ f ∈ fs, CutFace (ptsOf G corner f) (cut f))
    (hconv : Convex fs (ptsOf G corner) out cut) : ∃ xn : El → V K × V K,
    (∀ f ∈ fs, centreNormal G f = some (xn f)) ∧
    ∀ f ∈ fs, (∀ g ∈ fs, outSign out f * dot (xn f).2 (sub (xn g).1 (xn f).1) ≤ 0) ∧
      ∃ g ∈ fs, outSign out f * dot (xn f).2 (sub (xn g).1 (xn f).1) < 0 := by
  refine ⟨fun f => (centreNormal G f).getD (zero, zero), ?_, ?_⟩
  · intro f hf
    obtain ⟨x, n, h, -⟩ := centreNormal_of hs (hloop f hf) (hnd f hf) (hcut f hf)
    simp [h]
  · intro f hf
    obtain ⟨x, n, h1, h2, h3⟩ := centreNormal_of hs (hloop f hf) (hnd f hf) (hcut f hf)
    obtain ⟨c1, g0, hg0, p0, hp0, q0, hq0, c2⟩ := hconv f hf
    have hA : areaVector (cut f) ≠ ⟨0, 0, 0⟩ := by
      intro h0; rw [h0] at c2; simp [dot] at c2
    obtain ⟨k, hk, hn⟩ := h3 hA
    have hsg : outSign (K := K) out f = if out f = true then 1 else -1 := rfl
    generalize hA' : areaVector (cut f) = A at *
    -- the outward normal
    have hkey : ∀ x y, outSign out f * dot n (sub x y) = k * (dot (smul (outSign out f) A) x - dot (smul (outSign out f) A) y) := by
      intro x y
      rw [hn]
      simp only [dot, smul, sub]; ring
    have c1' : ∀ g ∈ fs, ∀ p ∈ ptsOf G corner g, dot (smul (outSign out f) A) p ≤ dot (smul (outSign out f) A) q0 := by
      intro g hg p hp
      have := c1 g hg p hp q0 hq0
      rw [← hsg, dot_sub_right] at this
      rw [dot_smul_left, dot_smul_left]; linarith
    have c3 : ∀ q ∈ ptsOf G corner f, dot (smul (outSign out f) A) q = dot (smul (outSign out f) A) q0 := by
      intro q hq
      refine le_antisymm (c1' f hf q hq) ?_
      have := c1 f hf q0 hq0 q hq
      rw [← hsg, dot_sub_right] at this
      rw [dot_smul_left, dot_smul_left]; linarith
    have c2' : dot (smul (outSign out f) A) p0 < dot (smul (outSign out f) A) q0 := by
      rw [← hsg, dot_sub_right] at c2
      rw [dot_smul_left, dot_smul_left]; linarith
    have hxf : dot (smul (outSign out f) A) x = dot (smul (outSign out f) A) q0 := by
      refine le_antisymm (mean_le h2 fun p hp => (c3 p hp).le) ?_
      have := mean_le (N := smul (-1) (smul (outSign out f) A)) (d := -dot (smul (outSign out f) A) q0) h2 (fun p hp => by
        rw [dot_smul_left, c3 p hp]; linarith)
      rw [dot_smul_left] at this; linarith
    constructor
    · intro g hg
      obtain ⟨xg, ng, g1, g2, -⟩ := centreNormal_of hs (hloop g hg) (hnd g hg) (hcut g hg)
      simp only [h1, g1, Option.getD_some]
      rw [hkey]
      have := mean_le g2 (c1' g hg)
      have : dot (smul (outSign out f) A) xg - dot (smul (outSign out f) A) x ≤ 0 := by linarith
      exact mul_nonpos_of_nonneg_of_nonpos hk.le this
    · refine ⟨g0, hg0, ?_⟩
      obtain ⟨xg, ng, g1, g2, -⟩ := centreNormal_of hs (hloop g0 hg0) (hnd g0 hg0) (hcut g0 hg0)
      simp only [h1, g1, Option.getD_some]
      rw [hkey]
      have := mean_lt g2 (c1' g0 hg0) ⟨p0, hp0, c2'⟩
      have : dot (smul (outSign out f) A) xg - dot (smul (outSign out f) A) x < 0 := by linarith
      exact mul_neg_of_pos_of_neg hk this

theorem dotSums_eq (nj xj : V K) : ∀ (xs : List (V K)) (s : K × K),
    dotSums nj xj xs s = (s.1 + (xs.map fun x => dot nj (sub x xj)).sum, s.2 + (xs.map fun x => |dot nj (sub x xj)|).sum) := by
  intro xs
  induction xs with
  | nil => intro s; simp [dotSums]
  | cons x xs ih =>
    intro s
    rw [dotSums, ih]
    refine Prod.ext ?_ ?_ <;> simp only [List.map_cons, List.sum_cons] <;> ring

theorem sum_abs_of {α : Type} {g : α → K} {s : K} (hs : s = 1 ∨ s = -1) : ∀ {l : List α}, (∀ a ∈ l, s * g a ≤ 0) →
    (l.map fun a => |g a|).sum = -(s * (l.map g).sum) ∧ s * (l.map g).sum ≤ 0 := by
  intro l
  induction l with
  | nil => intro _; simp
  | cons a l ih =>
    intro h
    obtain ⟨h1, h2⟩ := ih fun b hb => h b (List.mem_cons_of_mem _ hb)
    have h3 := h a List.mem_cons_self
    simp only [List.map_cons, List.sum_cons]
    have h4 : |g a| = -(s * g a) := by
      rcases hs with rfl | rfl
      · rw [abs_of_nonpos (by linarith)]; ring
      · rw [abs_of_nonneg (by linarith)]; ring
    constructor
    · rw [h1, h4]; ring
    · rw [mul_add]; linarith

theorem outSign_or (f : El) : outSign (K := K) out f = 1 ∨ outSign (K := K) out f = -1 := by
  unfold outSign; split <;> simp

theorem convexLoop_true {eps : K} {xs : List (V K)} : ∀ {l : List (V K × V K)},
    (∀ p ∈ l, |(|(dotSums p.2 p.1 xs (0, 0)).1| - (dotSums p.2 p.1 xs (0, 0)).2)| ≤ eps) → convexLoop eps xs l = true := by
  intro l
  induction l with
  | nil => intro _; rfl
  | cons p l ih =>
    intro h
    unfold convexLoop
    rw [if_neg (not_lt.2 (h p List.mem_cons_self)), ih fun q hq => h q (List.mem_cons_of_mem _ hq)]

/-- A convex cell passes the test. -/
theorem convex_check (heps : 0 ≤ G.eps) {fs : List El} {xn : El → V K × V K}
    (h1 : ∀ f ∈ fs, centreNormal G f = some (xn f))
    (h2 : ∀ f ∈ fs, ∀ g ∈ fs, outSign out f * dot (xn f).2 (sub (xn g).1 (xn f).1) ≤ 0) :
    checkConvexity G fs = some true := by
  unfold checkConvexity
  rw [allSome_eq h1, Option.map_some, convexLoop_true]
  intro p hp
  obtain ⟨f, hf, rfl⟩ := List.mem_map.1 hp
  rw [dotSums_eq]
  have h3 : ∀ x ∈ fs.map (fun g => (xn g).1), outSign out f * dot (xn f).2 (sub x (xn f).1) ≤ 0 := by
    intro x hx
    obtain ⟨g, hg, rfl⟩ := List.mem_map.1 hx
    exact h2 f hf g hg
  have h4 : ((fs.map xn).map fun p => p.1) = fs.map fun g => (xn g).1 := by rw [List.map_map]; rfl
  rw [h4]
  obtain ⟨e1, e2⟩ := sum_abs_of (outSign_or (out := out) f) h3
  simp only [zero_add]
  rw [e1]
  generalize ((fs.map fun g => (xn g).1).map fun x => dot (xn f).2 (sub x (xn f).1)).sum = S at *
  have h5 : |S| = -(outSign out f * S) := by
    rcases outSign_or (K := K) (out := out) f with h | h <;> rw [h] at e2 ⊢
    · rw [abs_of_nonpos (by linarith)]; ring
    · rw [abs_of_nonneg (by linarith)]; ring
  rw [h5]; simpa using heps

theorem mem_orientConvex {fs : List El} {xn : El → V K × V K} {xc : V K} {f : El} :
    f ∈ ((fs.zip (fs.map xn)).filterMap fun p =>
        if dot p.2.2 (sub p.2.1 xc) < 0 then some p.1 else none) ↔ f ∈ fs ∧ dot (xn f).2 (sub (xn f).1 xc) < 0 := by
  rw [List.mem_filterMap]
  constructor
  · rintro ⟨p, hp, h⟩
    obtain ⟨i, hi, rfl⟩ := List.getElem_of_mem hp
    simp only [List.getElem_zip, List.getElem_map] at h
    split at h
    next hlt => cases h; exact ⟨List.getElem_mem _, hlt⟩
    · cases h
  · rintro ⟨hf, hlt⟩
    refine ⟨(f, xn f), ?_, by simp [hlt]⟩
    obtain ⟨i, hi, rfl⟩ := List.getElem_of_mem hf
    rw [List.mem_iff_getElem]
    exact ⟨i, by simpa using hi, by simp⟩

/-- The simple algorithm marks the faces with nodes around the inward normal. -/
theorem convex_orient {fs : List El} (hne : fs ≠ []) {xn : El → V K × V K}
    (h1 : ∀ f ∈ fs, centreNormal G f = some (xn f))
    (h2 : ∀ f ∈ fs, (∀ g ∈ fs, outSign out f * dot (xn f).2 (sub (xn g).1 (xn f).1) ≤ 0) ∧
      ∃ g ∈ fs, outSign out f * dot (xn f).2 (sub (xn g).1 (xn f).1) < 0) :
    ∃ rev, orientConvex G fs = some rev ∧ ∀ f, f ∈ rev ↔ f ∈ fs ∧ out f ≠ true := by
  unfold orientConvex
  rw [allSome_eq h1]
  simp only [List.map_map]
  obtain ⟨xc, hxc⟩ := mean_some (ps := fs.map (Prod.fst ∘ xn)) (by simpa using hne)
  rw [hxc]
  refine ⟨_, rfl, fun f => ?_⟩
  rw [mem_orientConvex]
  refine and_congr_right fun hf => ?_
  obtain ⟨h3, g, hg, h4⟩ := h2 f hf
  have h5 : dot (smul (outSign out f) (xn f).2) xc < dot (smul (outSign out f) (xn f).2) (xn f).1 := by
    refine mean_lt hxc ?_ ⟨(xn g).1, List.mem_map.2 ⟨g, hg, rfl⟩, ?_⟩
    · intro p hp
      obtain ⟨g', hg', rfl⟩ := List.mem_map.1 hp
      have := h3 g' hg'
      rw [dot_sub_right] at this
      rw [dot_smul_left, dot_smul_left]
      simp only [Function.comp]
      linarith
    · rw [dot_sub_right] at h4
      rw [dot_smul_left, dot_smul_left]; linarith
  rw [dot_smul_left, dot_smul_left] at h5
  rw [dot_sub_right]
  unfold outSign at h5
  cases ho : out f <;> simp [ho] at h5 ⊢ <;> linarith

/-! ## Sums over the faces of a cell -/

theorem volumeLoop_eq {cen : V K} {rev : List El} {p : El → K} : ∀ {fs : List El} (v : K),
    (∀ f ∈ fs, (facePoints G f).bind (facePart G.sq cen) = some (p f)) →
    volumeLoop G cen rev fs v = some (v + (fs.map fun f => sign rev f * p f).sum) := by
  intro fs
  induction fs with
  | nil => intro v _; simp [volumeLoop]
  | cons f fs ih =>
    intro v h
    unfold volumeLoop
    rw [h f List.mem_cons_self]
    simp only
    rw [ih _ fun g hg => h g (List.mem_cons_of_mem _ hg)]
    simp only [List.map_cons, List.sum_cons]
    rw [add_assoc]

/-- The sign given to a face by an orientation that agrees with `out` up to a common factor. -/
theorem sign_eq {fs rev : List El} {o0 : Bool} (h : ∀ f, f ∈ rev ↔ f ∈ fs ∧ out f ≠ o0) {f : El} (hf : f ∈ fs) :
    sign (K := K) rev f = (if o0 then 1 else -1) * outSign out f := by
  unfold sign outSign
  have := h f
  by_cases ho : out f = o0
  · rw [if_neg (by rw [this]; tauto), ho]
    cases o0 <;> simp
  · rw [if_pos (this.2 ⟨hf, ho⟩)]
    cases h1 : out f <;> cases h2 : o0 <;> simp_all

theorem sum_sign {fs rev : List El} {o0 : Bool} (h : ∀ f, f ∈ rev ↔ f ∈ fs ∧ out f ≠ o0) (p : El → K) :
    (fs.map fun f => sign rev f * p f).sum = (if o0 then 1 else -1) * (fs.map fun f => outSign out f * p f).sum := by
  rw [← sum_map_mul]
  refine sum_congr fun f hf => ?_
  rw [sign_eq h hf]; ring

theorem vol_nonneg : ∀ {ts : List (Tet K)}, (∀ t ∈ ts, 0 < t.vol) → 0 ≤ (ts.map Tet.vol).sum := by
  intro ts
  induction ts with
  | nil => intro _; simp
  | cons u ts ih =>
    intro h
    have h3 := h u List.mem_cons_self
    have h4 := ih fun v hv => h v (List.mem_cons_of_mem _ hv)
    rw [List.map_cons, List.sum_cons]; linarith

theorem volume_pos (h : ∀ t ∈ ts, 0 < t.vol) (hne : ts ≠ []) : 0 < volume ts := by
  unfold volume
  cases ts with
  | nil => exact absurd rfl hne
  | cons t ts =>
    rw [List.map_cons, List.sum_cons]
    have h1 := h t List.mem_cons_self
    have h2 := vol_nonneg fun u hu => h u (List.mem_cons_of_mem _ hu)
    linarith

theorem vis_faces : vis G.T (G.T.low c) = facesOf G.T c := rfl

theorem CutFace.inPlane {ns : List (V K)} {tr : List (Tri K)} (h : CutFace ns tr) :
    ∃ n d, n ≠ ⟨0, 0, 0⟩ ∧ InPlane n d ns := by
  obtain ⟨n, d, h1, h2, -⟩ := h.plane
  exact ⟨n, d, h1, h2⟩

theorem fanSum_add (F H : Tri K → K) (ps : List (V K)) :
    fanSum (fun t => F t + H t) ps = fanSum F ps + fanSum H ps := by
  cases ps with
  | nil => simp [fanSum]
  | cons v vs =>
    simp only [fanSum]
    induction steps vs with
    | nil => simp
    | cons s l ih => simp only [List.map_cons, List.sum_cons, ih]; ring

/-- The cell has a centroid. -/
theorem cellCentroid_some (h : ∃ n ∈ G.T.high c, G.T.hid n = false) : ∃ x, cellCentroid G c = some x := by
  obtain ⟨n, hn, hv⟩ := h
  unfold cellCentroid
  apply mean_some
  intro h0
  have : n ∈ vis G.T (G.T.high c) := mem_vis.2 ⟨hn, hv⟩
  rw [List.map_eq_nil_iff.1 h0] at this
  cases this

theorem Solid.ne (S : Solid G.T G.coord c corner out cut ts) {f : El} (hf : f ∈ facesOf G.T c) :
    ptsOf G corner f ≠ [] := pts_ne (S.loop f hf)

theorem Solid.faces (S : Solid G.T G.coord c corner out cut ts) : facesOf G.T c ≠ [] := by
  intro h0
  have h1 := solid_flux volFlux_flux S.cut fun f hf => S.ne hf
  rw [h0] at h1
  have h2 := volume_pos S.cut.positive S.cut.some
  unfold volume at h2
  simp only [List.map_nil, List.sum_nil] at h1
  linarith

theorem Solid.exists_node (S : Solid G.T G.coord c corner out cut ts) : ∃ n ∈ G.T.high c, G.T.hid n = false := by
  obtain ⟨f, hf⟩ := List.exists_mem_of_ne_nil _ S.faces
  obtain ⟨n, hn⟩ := List.exists_mem_of_ne_nil (corner f) (by
    intro h0; exact S.ne hf (by rw [ptsOf, h0]; rfl))
  have := (S.node n).2 ⟨f, hf, hn⟩
  exact ⟨n, this.1, this.2⟩

/-- The volume computed with a consistent orientation. -/
theorem cellVolume_of (hs : IsSqrt G.sq) (S : Solid G.T G.coord c corner out cut ts) {rev : List El} {o0 : Bool}
    (ho : facesOrientation G (facesOf G.T c) = some rev)
    (h : ∀ f, f ∈ rev ↔ f ∈ facesOf G.T c ∧ out f ≠ o0) : cellVolume G c = some (volume ts) := by
  obtain ⟨cen, hcen⟩ := cellCentroid_some S.exists_node
  have hp : ∀ f ∈ facesOf G.T c, (facePoints G f).bind (facePart G.sq cen) =
      some (fanSum volFlux (ptsOf G corner f)) := by
    intro f hf
    obtain ⟨n, d, hn, hpl⟩ := (S.cut.face f hf).inPlane
    rw [facePoints_of (S.loop f hf) (S.nodup f hf), Option.bind_some]
    have hnf := S.ne hf
    unfold ptsOf at hnf
    match hm : (corner f).map G.coord, hnf, hpl with
    | v0 :: vs, _, hpl => rw [ptsOf, hm]; exact facePart_flat hs cen hn hpl
  unfold cellVolume
  simp only [vis_faces, ho, hcen]
  rw [volumeLoop_eq 0 hp]
  simp only [zero_add]
  rw [sum_sign h, solid_flux volFlux_flux S.cut fun f hf => S.ne hf]
  have hv : (ts.map Tet.vol).sum = volume ts := rfl
  rw [hv]
  have hpos := volume_pos S.cut.positive S.cut.some
  cases o0
  · simp only [Bool.false_eq_true, if_false]
    have h1 : -1 * volume ts < 0 := by linarith
    have h2 : -(-1 * volume ts) = volume ts := by ring
    simp only [if_pos h1, h2]
    rw [if_pos hpos]
  · simp only [if_true, one_mul]
    simp only [if_neg (not_lt.2 hpos.le)]
    rw [if_pos hpos]

theorem momentLoop_sum (xc v0 : V K) (s : K) : ∀ (l : List (V K × V K)) (c : V K),
    momentLoop xc v0 s l c = ⟨c.x + s * (l.map fun p => (moment xc v0 p.1 p.2).x).sum,
      c.y + s * (l.map fun p => (moment xc v0 p.1 p.2).y).sum,
      c.z + s * (l.map fun p => (moment xc v0 p.1 p.2).z).sum⟩ := by
  intro l
  induction l with
  | nil => intro c; simp [momentLoop]
  | cons p l ih =>
    intro c
    rw [momentLoop, ih]
    apply V.ext' <;> simp only [add, smul, List.map_cons, List.sum_cons] <;> ring

/-- The integrand of the first moment. -/
def momFlux (xc : V K) (q : V K → K) (t : Tri K) : K := q (moment xc t.a t.b t.c)

theorem baryLoop_eq {xc : V K} {rev : List El} {pts : El → List (V K)} : ∀ {fs : List El} (v : K) (m : V K),
    (∀ f ∈ fs, facePoints G f = some (pts f) ∧ ∃ v0 vs X, pts f = v0 :: vs ∧ pointsCentre G.sq (pts f) = some X ∧
      dot X (normalLoop v0 (steps vs) zero) / 3 = fanSum volFlux (pts f)) →
    baryLoop G xc rev fs (v, m) = some (v + (fs.map fun f => sign rev f * fanSum volFlux (pts f)).sum,
      ⟨m.x + (fs.map fun f => sign rev f * fanSum (momFlux xc V.x) (pts f)).sum,
       m.y + (fs.map fun f => sign rev f * fanSum (momFlux xc V.y) (pts f)).sum,
       m.z + (fs.map fun f => sign rev f * fanSum (momFlux xc V.z) (pts f)).sum⟩) := by
  intro fs
  induction fs with
  | nil => intro v m _; simp [baryLoop]
  | cons f fs ih =>
    intro v m h
    obtain ⟨h1, v0, vs, X, h2, h3, h4⟩ := h f List.mem_cons_self
    unfold baryLoop
    rw [h1]
    simp only
    rw [h3, h2]
    simp only
    rw [ih _ _ fun g hg => h g (List.mem_cons_of_mem _ hg), momentLoop_sum]
    rw [h2] at h4
    congr 1
    refine Prod.ext ?_ ?_
    · simp only [List.map_cons, List.sum_cons, h2, ← h4]; ring
    · apply V.ext' <;> simp only [List.map_cons, List.sum_cons, h2, fanSum, momFlux] <;> ring

theorem mom_sum (q : V K → K) (xc : V K) : ∀ ts : List (Tet K),
    (ts.map fun t => t.vol * (q t.centre - q xc)).sum = (ts.map fun t => t.vol * q t.centre).sum - volume ts * q xc := by
  intro ts
  unfold volume
  induction ts with
  | nil => simp
  | cons t ts ih => simp only [List.map_cons, List.sum_cons, ih]; ring

/-- The barycenter computed with a consistent orientation. -/
theorem cellBarycenter_of (hs : IsSqrt G.sq) (S : Solid G.T G.coord c corner out cut ts) {rev : List El} {o0 : Bool}
    (ho : facesOrientation G (facesOf G.T c) = some rev)
    (h : ∀ f, f ∈ rev ↔ f ∈ facesOf G.T c ∧ out f ≠ o0) : cellBarycenter G c = some (centreOfMass ts) := by
  obtain ⟨xc, hcen⟩ := cellCentroid_some S.exists_node
  have hp : ∀ f ∈ facesOf G.T c, facePoints G f = some (ptsOf G corner f) ∧ ∃ v0 vs X,
      ptsOf G corner f = v0 :: vs ∧ pointsCentre G.sq (ptsOf G corner f) = some X ∧
      dot X (normalLoop v0 (steps vs) zero) / 3 = fanSum volFlux (ptsOf G corner f) := by
    intro f hf
    obtain ⟨n, d, hn, hpl⟩ := (S.cut.face f hf).inPlane
    refine ⟨facePoints_of (S.loop f hf) (S.nodup f hf), ?_⟩
    have hnf := S.ne hf
    unfold ptsOf at hnf ⊢
    match (corner f).map G.coord, hnf, hpl with
    | v0 :: vs, _, hpl =>
      obtain ⟨X, h1, h2, -⟩ := pointsCentre_flat hs hn hpl
      refine ⟨v0, vs, X, rfl, h1, ?_⟩
      rw [normal_flat hn hpl, h2, volFan_flat hn hpl]
  unfold cellBarycenter
  simp only [vis_faces, ho, hcen]
  rw [baryLoop_eq 0 zero hp]
  simp only [zero_add, zero]
  rw [sum_sign h, sum_sign h, sum_sign h, sum_sign h, solid_flux volFlux_flux S.cut fun f hf => S.ne hf,
    solid_flux (F := momFlux xc V.x) (moment_flux_x xc) S.cut fun f hf => S.ne hf,
    solid_flux (F := momFlux xc V.y) (moment_flux_y xc) S.cut fun f hf => S.ne hf,
    solid_flux (F := momFlux xc V.z) (moment_flux_z xc) S.cut fun f hf => S.ne hf,
    mom_sum V.x, mom_sum V.y, mom_sum V.z]
  have hv : (ts.map Tet.vol).sum = volume ts := rfl
  rw [hv]
  have hpos := volume_pos S.cut.positive S.cut.some
  unfold centreOfMass
  cases o0
  · simp only [Bool.false_eq_true, if_false]
    have h1 : -1 * volume ts < 0 := by linarith
    simp only [if_pos h1]
    rw [if_neg (by simpa using hpos.ne')]
    congr 1
    apply V.ext' <;> simp only <;> field_simp <;> ring
  · simp only [if_true, one_mul]
    simp only [if_neg (not_lt.2 hpos.le)]
    rw [if_neg hpos.ne']
    congr 1
    apply V.ext' <;> simp only <;> field_simp <;> ring

/-- The orientation of a convex cell. -/
theorem orientation_convex (heps : 0 ≤ G.eps) (hs : IsSqrt G.sq) (S : Solid G.T G.coord c corner out cut ts)
    (hc : Convex (facesOf G.T c) (ptsOf G corner) out cut) :
    ∃ rev, facesOrientation G (facesOf G.T c) = some rev ∧ ∀ f, f ∈ rev ↔ f ∈ facesOf G.T c ∧ out f ≠ true := by
  obtain ⟨xn, h1, h2⟩ := convex_away hs S.loop S.nodup S.cut.face hc
  have h3 := convex_check heps h1 fun f hf => (h2 f hf).1
  have h4 := convex_orient S.faces h1 h2
  have hne := S.faces
  unfold facesOrientation
  match hm : facesOf G.T c, hne with
  | f :: fs, _ =>
    rw [hm] at h3 h4
    simp only [h3]
    exact h4

/-- The orientation found by the search. -/
theorem orientation_search {fs : List El} {f0 : El} (hm : fs = f0 :: fs.tail) (hn : checkConvexity G fs = some false)
    (S : Surface G.T fs corner out) (hup : ∀ e g, g ∈ fs → (g ∈ G.T.high e ↔ e ∈ G.T.low g))
    (hc : Connected G.T fs) :
    ∃ rev, facesOrientation G fs = some rev ∧ ∀ f, f ∈ rev ↔ f ∈ fs ∧ out f ≠ out f0 := by
  obtain ⟨rev, h1, h2⟩ := orientFrom_spec S hup hc (f0 := f0) (by rw [hm]; exact List.mem_cons_self)
  refine ⟨rev, ?_, h2⟩
  rw [hm] at hn h1 ⊢
  unfold facesOrientation
  simp only [hn, h1]

end Verif.Geometry
