import Verif.Geometry.Integrals

/-!
# Normals and centres of flat faces
-/

namespace Verif.Geometry
open Verif.Topology Verif.EdgeLoop Verif.Search

variable {K : Type} [Field K] [LinearOrder K] [IsStrictOrderedRing K]

theorem V.ext' {a b : V K} (hx : a.x = b.x) (hy : a.y = b.y) (hz : a.z = b.z) : a = b := by
  obtain ⟨a1, a2, a3⟩ := a
  obtain ⟨b1, b2, b3⟩ := b
  simp_all

theorem triNormal_area (v0 v1 v2 : V K) : triNormal v0 v1 v2 = (⟨v0, v1, v2⟩ : Tri K).area := rfl

/-- The loop is the sum of the area vectors. -/
theorem normalLoop_sum (v0 : V K) : ∀ (ts : List (V K × V K)) (n : V K),
    normalLoop v0 ts n = ⟨n.x + (ts.map fun s => (⟨v0, s.1, s.2⟩ : Tri K).area.x).sum,
      n.y + (ts.map fun s => (⟨v0, s.1, s.2⟩ : Tri K).area.y).sum,
      n.z + (ts.map fun s => (⟨v0, s.1, s.2⟩ : Tri K).area.z).sum⟩ := by
  intro ts
  induction ts with
  | nil => intro n; simp [normalLoop]
  | cons t ts ih =>
    intro n
    rw [normalLoop, ih]
    apply V.ext' <;> simp only [List.map_cons, List.sum_cons, add, triNormal_area] <;> ring

/-- The normal of a polygon is the sum of area vectors. -/
theorem normal_fan (v0 : V K) (vs : List (V K)) :
    normalLoop v0 (steps vs) zero = ⟨fanSum (fun t => t.area.x) (v0 :: vs), fanSum (fun t => t.area.y) (v0 :: vs),
      fanSum (fun t => t.area.z) (v0 :: vs)⟩ := by
  rw [normalLoop_sum]
  simp [zero, fanSum]

theorem steps_mem : ∀ {vs : List (V K)} {s : V K × V K}, s ∈ steps vs → s.1 ∈ vs ∧ s.2 ∈ vs := by
  intro vs
  induction vs with
  | nil => intro s h; simp [steps] at h
  | cons v vs ih =>
    intro s h
    match vs, h with
    | [], h => simp [steps] at h
    | v2 :: vs, h =>
      rw [steps, List.mem_cons] at h
      rcases h with rfl | h
      · simp
      · have := ih h
        exact ⟨List.mem_cons_of_mem _ this.1, List.mem_cons_of_mem _ this.2⟩

/-- The coefficient of a triangle in the plane with normal `n`. -/
def coef (n : V K) (t : Tri K) : K := dot n t.area / dot n n

theorem area_coef {n : V K} {d : K} (hn : n ≠ ⟨0, 0, 0⟩) {t : Tri K} (ha : dot n t.a = d) (hb : dot n t.b = d)
    (hc : dot n t.c = d) : t.area = smul (coef n t) n := by
  have hN := norm_pos hn
  have hN' := hN.ne'
  have key : smul (dot n n) t.area = smul (dot n t.area) n := by
    unfold dot at ha hb hc
    apply V.ext' <;> simp only [smul, Tri.area, dot, cross, sub]
    · linear_combination (1 / 2) * (n.y * (t.c.z - t.a.z) - n.z * (t.c.y - t.a.y)) * (hb - ha) + (1 / 2) * (n.y * (t.b.z - t.a.z) - n.z * (t.b.y - t.a.y)) * (ha - hc)
    · linear_combination (1 / 2) * (n.z * (t.c.x - t.a.x) - n.x * (t.c.z - t.a.z)) * (hb - ha) + (1 / 2) * (n.z * (t.b.x - t.a.x) - n.x * (t.b.z - t.a.z)) * (ha - hc)
    · linear_combination (1 / 2) * (n.x * (t.c.y - t.a.y) - n.y * (t.c.x - t.a.x)) * (hb - ha) + (1 / 2) * (n.x * (t.b.y - t.a.y) - n.y * (t.b.x - t.a.x)) * (ha - hc)
  have h1 := congrArg V.x key
  have h2 := congrArg V.y key
  have h3 := congrArg V.z key
  simp only [smul] at h1 h2 h3
  unfold coef
  apply V.ext' <;> simp only [smul] <;> field_simp
  · linarith
  · linarith
  · linarith

/-- The polygon lies in the plane. -/
def InPlane (n : V K) (d : K) (ps : List (V K)) : Prop := ∀ p ∈ ps, dot n p = d

/-- The normal of a flat polygon. -/
theorem normal_flat {n : V K} {d : K} (hn : n ≠ ⟨0, 0, 0⟩) {v0 : V K} {vs : List (V K)}
    (h : InPlane n d (v0 :: vs)) :
    normalLoop v0 (steps vs) zero = smul (fanSum (coef n) (v0 :: vs)) n := by
  have h1 : ∀ s ∈ steps vs, (⟨v0, s.1, s.2⟩ : Tri K).area = smul (coef n ⟨v0, s.1, s.2⟩) n := by
    intro s hs
    have := steps_mem hs
    exact area_coef hn (h _ List.mem_cons_self) (h _ (List.mem_cons_of_mem _ this.1))
      (h _ (List.mem_cons_of_mem _ this.2))
  rw [normal_fan]
  unfold fanSum
  have key : ∀ (l : List (V K × V K)) (a : K) (f : V K × V K → K),
      (l.map fun s => f s * a).sum = (l.map f).sum * a := by
    intro l a f
    induction l with
    | nil => simp
    | cons s l ih => simp only [List.map_cons, List.sum_cons, ih]; ring
  apply V.ext' <;> simp only [smul]
  · rw [← key]; exact sum_congr fun s hs => by rw [h1 s hs]; rfl
  · rw [← key]; exact sum_congr fun s hs => by rw [h1 s hs]; rfl
  · rw [← key]; exact sum_congr fun s hs => by rw [h1 s hs]; rfl

theorem sgn_abs (C c N : K) (hN : 0 < N) : |c| * sgn (C * (c * N)) = sgn C * c := by
  unfold sgn
  by_cases hc : c = 0
  · subst hc; simp
  by_cases hC : C = 0
  · subst hC; simp
  have hp : C * (c * N) ≠ 0 := mul_ne_zero hC (mul_ne_zero hc hN.ne')
  rw [if_neg hp, if_neg hC, abs_mul, abs_mul, abs_of_pos hN]
  have h1 : |C| ≠ 0 := abs_ne_zero.2 hC
  have h2 : |c| ≠ 0 := abs_ne_zero.2 hc
  have h3 := hN.ne'
  field_simp

theorem sqrt_mul {sq : K → K} (hs : IsSqrt sq) (c N : K) (hN : 0 ≤ N) : sq (c * c * N) = |c| * sq N := by
  have hp : 0 ≤ c * c * N := mul_nonneg (mul_self_nonneg c) hN
  obtain ⟨h1, h2⟩ := hs _ hp
  obtain ⟨h3, h4⟩ := hs N hN
  have h5 : (|c| * sq N) * (|c| * sq N) = c * c * N := by
    rw [← abs_mul_abs_self c]; linear_combination |c| * |c| * h4
  exact (mul_self_inj h1 (mul_nonneg (abs_nonneg c) h3)).1 (h2.trans h5.symm)

/-- The signed area in terms of coefficients. -/
theorem signedArea_coef {sq : K → K} (hs : IsSqrt sq) {n : V K} (hn : n ≠ ⟨0, 0, 0⟩) (C c : K) :
    signedArea sq (smul C n) (smul c n) = sq (dot n n) * sgn C * c := by
  have hN := norm_pos hn
  unfold signedArea
  have h1 : dot (smul c n) (smul c n) = c * c * dot n n := by simp only [dot, smul]; ring
  have h2 : dot (smul C n) (smul c n) = C * (c * dot n n) := by simp only [dot, smul]; ring
  rw [h1, h2, sqrt_mul hs c _ hN.le]
  have := sgn_abs C c (dot n n) hN
  linear_combination sq (dot n n) * this

theorem fan_zero_coef {sq : K → K} (hs : IsSqrt sq) {n : V K} (hn : n ≠ ⟨0, 0, 0⟩) {C : K}
    (h : sq (dot n n) * sgn C * C = 0) : C = 0 := by
  have hN := norm_pos hn
  obtain ⟨h1, h2⟩ := hs _ hN.le
  have h3 : sq (dot n n) ≠ 0 := by rintro h0; rw [h0] at h2; simp at h2; exact hN.ne h2
  by_contra hC
  unfold sgn at h
  rw [if_neg hC] at h
  have : C / |C| ≠ 0 := div_ne_zero hC (abs_ne_zero.2 hC)
  exact (mul_ne_zero (mul_ne_zero h3 this) hC) h

/-- The loop over the triangles of a flat face: the point stays in the plane. -/
theorem centreLoop_flat {sq : K → K} (hs : IsSqrt sq) {n : V K} {d : K} (hn : n ≠ ⟨0, 0, 0⟩) {v0 : V K} (C : K)
    (h0 : dot n v0 = d) : ∀ (ts : List (V K × V K)), (∀ s ∈ ts, dot n s.1 = d ∧ dot n s.2 = d) →
    ∀ (x : V K) (a : K), dot n x = d * a →
    dot n (centreLoop sq (smul C n) v0 ts (x, a)).1 = d * (centreLoop sq (smul C n) v0 ts (x, a)).2 ∧
    (centreLoop sq (smul C n) v0 ts (x, a)).2 =
      a + sq (dot n n) * sgn C * (ts.map fun s => coef n ⟨v0, s.1, s.2⟩).sum := by
  intro ts
  induction ts with
  | nil => intro _ x a h; simp [centreLoop, h]
  | cons s ts ih =>
    intro hts x a h
    obtain ⟨v1, v2⟩ := s
    have h12 := hts _ List.mem_cons_self
    have hw : signedArea sq (smul C n) (triNormal v0 v1 v2) = sq (dot n n) * sgn C * coef n ⟨v0, v1, v2⟩ := by
      rw [triNormal_area, area_coef (t := ⟨v0, v1, v2⟩) hn h0 h12.1 h12.2, signedArea_coef hs hn]
    rw [centreLoop, hw]
    generalize hwd : sq (dot n n) * sgn C * coef n ⟨v0, v1, v2⟩ = w at *
    obtain ⟨h1, h2⟩ := ih (fun s hs => hts s (List.mem_cons_of_mem _ hs)) (addThird x w v0 v1 v2) (a + w) (by
      have e1 := h12.1
      have e2 := h12.2
      simp only [dot, addThird] at *
      linear_combination h + (w / 3) * (h0 + e1 + e2))
    refine ⟨h1, ?_⟩
    rw [h2]
    simp only [List.map_cons, List.sum_cons]
    rw [← hwd]; ring

theorem sum_mul_right {α : Type} (l : List α) (a : K) (f : α → K) :
    (l.map fun s => f s * a).sum = (l.map f).sum * a := by
  induction l with
  | nil => simp
  | cons s l ih => simp only [List.map_cons, List.sum_cons, ih]; ring

theorem volFan_flat {n : V K} {d : K} (hn : n ≠ ⟨0, 0, 0⟩) {v0 : V K} {vs : List (V K)}
    (h : InPlane n d (v0 :: vs)) :
    fanSum volFlux (v0 :: vs) = d * fanSum (coef n) (v0 :: vs) / 3 := by
  unfold fanSum
  rw [mul_comm d, mul_div_assoc, ← sum_mul_right]
  refine sum_congr fun s hs => ?_
  have hm := steps_mem hs
  have h0 := h _ List.mem_cons_self
  have := area_coef (t := ⟨v0, s.1, s.2⟩) hn h0 (h _ (List.mem_cons_of_mem _ hm.1))
    (h _ (List.mem_cons_of_mem _ hm.2))
  unfold volFlux
  rw [this]
  simp only [dot, smul] at *
  rw [← h0]; ring

/-- The part of a flat face in the volume. -/
theorem facePart_flat {sq : K → K} (hs : IsSqrt sq) (cen : V K) {n : V K} {d : K} (hn : n ≠ ⟨0, 0, 0⟩) {v0 : V K}
    {vs : List (V K)} (h : InPlane n d (v0 :: vs)) :
    facePart sq cen (v0 :: vs) = some (fanSum volFlux (v0 :: vs)) := by
  have h0 := h _ List.mem_cons_self
  rw [volFan_flat hn h]
  unfold facePart
  simp only [normal_flat hn h]
  obtain ⟨h1, h2⟩ := centreLoop_flat hs hn (fanSum (coef n) (v0 :: vs)) h0 (steps vs) (fun s hs => by
    have := steps_mem hs
    exact ⟨h _ (List.mem_cons_of_mem _ this.1), h _ (List.mem_cons_of_mem _ this.2)⟩) zero 0
    (by simp [dot, zero])
  have h3 : ((steps vs).map fun s => coef n ⟨v0, s.1, s.2⟩).sum = fanSum (coef n) (v0 :: vs) := rfl
  rw [h3, zero_add] at h2
  generalize fanSum (coef n) (v0 :: vs) = C at *
  generalize centreLoop sq (smul C n) v0 (steps vs) (zero, 0) = r at *
  obtain ⟨x, a⟩ := r
  simp only at h1 h2 ⊢
  by_cases ha : a = 0
  · rw [if_pos ha]
    have hC : C = 0 := fan_zero_coef hs hn (h2 ▸ ha)
    subst hC
    simp [dot, smul]
  · rw [if_neg ha]
    congr 1
    simp only [dot, smul] at *
    field_simp
    linear_combination C * h1

/-! ## Barycenters of flat faces -/

/-- The sum of the centres of triangles with their areas, in terms of the coefficients. -/
def centreSum (n : V K) (q : V K → K) (v0 : V K) (ts : List (V K × V K)) : K :=
  (ts.map fun s => coef n ⟨v0, s.1, s.2⟩ * ((q v0 + q s.1 + q s.2) / 3)).sum

theorem centreLoopAt_flat {sq : K → K} (hs : IsSqrt sq) {n : V K} {d : K} (hn : n ≠ ⟨0, 0, 0⟩) {v0 : V K} (C : K)
    (xf : V K) (h0 : dot n v0 = d) : ∀ (ts : List (V K × V K)), (∀ s ∈ ts, dot n s.1 = d ∧ dot n s.2 = d) →
    ∀ (x : V K) (a : K),
    centreLoopAt sq xf (smul C n) v0 ts (x, a) =
      (⟨x.x + sq (dot n n) * sgn C * (centreSum n V.x v0 ts - (ts.map fun s => coef n ⟨v0, s.1, s.2⟩).sum * xf.x),
        x.y + sq (dot n n) * sgn C * (centreSum n V.y v0 ts - (ts.map fun s => coef n ⟨v0, s.1, s.2⟩).sum * xf.y),
        x.z + sq (dot n n) * sgn C * (centreSum n V.z v0 ts - (ts.map fun s => coef n ⟨v0, s.1, s.2⟩).sum * xf.z)⟩,
       a + sq (dot n n) * sgn C * (ts.map fun s => coef n ⟨v0, s.1, s.2⟩).sum) := by
  intro ts
  induction ts with
  | nil => intro _ x a; simp [centreLoopAt, centreSum]
  | cons s ts ih =>
    intro hts x a
    obtain ⟨v1, v2⟩ := s
    have h12 := hts _ List.mem_cons_self
    have hw : signedArea sq (smul C n) (triNormal v0 v1 v2) = sq (dot n n) * sgn C * coef n ⟨v0, v1, v2⟩ := by
      rw [triNormal_area, area_coef (t := ⟨v0, v1, v2⟩) hn h0 h12.1 h12.2, signedArea_coef hs hn]
    rw [centreLoopAt, hw, ih (fun s hs => hts s (List.mem_cons_of_mem _ hs))]
    unfold centreSum
    simp only [List.map_cons, List.sum_cons, addThirdAt, addThird, sub]
    refine Prod.ext ?_ ?_
    · apply V.ext' <;> simp only <;> ring
    · simp only; ring

theorem centreSum_plane {n : V K} {d : K} {v0 : V K} (h0 : dot n v0 = d) : ∀ (ts : List (V K × V K)),
    (∀ s ∈ ts, dot n s.1 = d ∧ dot n s.2 = d) →
    n.x * centreSum n V.x v0 ts + n.y * centreSum n V.y v0 ts + n.z * centreSum n V.z v0 ts =
      d * (ts.map fun s => coef n ⟨v0, s.1, s.2⟩).sum := by
  intro ts
  induction ts with
  | nil => intro _; simp [centreSum]
  | cons s ts ih =>
    intro hts
    have := ih (fun s hs => hts s (List.mem_cons_of_mem _ hs))
    obtain ⟨e1, e2⟩ := hts _ List.mem_cons_self
    unfold centreSum at *
    simp only [List.map_cons, List.sum_cons, dot] at *
    linear_combination this + coef n ⟨v0, s.1, s.2⟩ / 3 * (h0 + e1 + e2)

/-- The barycenter of a flat polygon: it lies in the plane; if the polygon has area it is the mean of the
centres of the triangles. -/
theorem pointsCentre_flat {sq : K → K} (hs : IsSqrt sq) {n : V K} {d : K} (hn : n ≠ ⟨0, 0, 0⟩) {v0 : V K}
    {vs : List (V K)} (h : InPlane n d (v0 :: vs)) : ∃ X, pointsCentre sq (v0 :: vs) = some X ∧
      dot X (smul (fanSum (coef n) (v0 :: vs)) n) = d * fanSum (coef n) (v0 :: vs) ∧
      (fanSum (coef n) (v0 :: vs) ≠ 0 →
        X.x * fanSum (coef n) (v0 :: vs) = fanSum (fun t => coef n t * ((t.a.x + t.b.x + t.c.x) / 3)) (v0 :: vs) ∧
        X.y * fanSum (coef n) (v0 :: vs) = fanSum (fun t => coef n t * ((t.a.y + t.b.y + t.c.y) / 3)) (v0 :: vs) ∧
        X.z * fanSum (coef n) (v0 :: vs) = fanSum (fun t => coef n t * ((t.a.z + t.b.z + t.c.z) / 3)) (v0 :: vs)) := by
  have h0 := h _ List.mem_cons_self
  have hts : ∀ s ∈ steps vs, dot n s.1 = d ∧ dot n s.2 = d := fun s hs => by
    have := steps_mem hs
    exact ⟨h _ (List.mem_cons_of_mem _ this.1), h _ (List.mem_cons_of_mem _ this.2)⟩
  have hpl := centreSum_plane h0 (steps vs) hts
  obtain ⟨xf, hxf⟩ : ∃ xf, mean (v0 :: vs) = some xf := by simp [mean]
  unfold pointsCentre
  simp only [hxf, normal_flat hn h]
  rw [centreLoopAt_flat hs hn _ xf h0 (steps vs) hts]
  have h3 : ((steps vs).map fun s => coef n ⟨v0, s.1, s.2⟩).sum = fanSum (coef n) (v0 :: vs) := rfl
  have hx : fanSum (fun t => coef n t * ((t.a.x + t.b.x + t.c.x) / 3)) (v0 :: vs) = centreSum n V.x v0 (steps vs) := rfl
  have hy : fanSum (fun t => coef n t * ((t.a.y + t.b.y + t.c.y) / 3)) (v0 :: vs) = centreSum n V.y v0 (steps vs) := rfl
  have hz : fanSum (fun t => coef n t * ((t.a.z + t.b.z + t.c.z) / 3)) (v0 :: vs) = centreSum n V.z v0 (steps vs) := rfl
  rw [hx, hy, hz]
  rw [h3] at hpl ⊢
  have hfz := fan_zero_coef hs hn (C := fanSum (coef n) (v0 :: vs))
  generalize fanSum (coef n) (v0 :: vs) = C at *
  generalize sq (dot n n) * sgn C = m at *
  generalize centreSum n V.x v0 (steps vs) = X at *
  generalize centreSum n V.y v0 (steps vs) = Y at *
  generalize centreSum n V.z v0 (steps vs) = Z at *
  simp only [zero, zero_add]
  by_cases hC : C = 0
  · subst hC
    refine ⟨xf, by simp, by simp [dot, smul], fun h => absurd rfl h⟩
  · have hm : m * C ≠ 0 := fun h => hC (hfz h)
    have hm' : m ≠ 0 := left_ne_zero_of_mul hm
    rw [if_neg hm]
    refine ⟨_, rfl, ?_, fun _ => ⟨?_, ?_, ?_⟩⟩
    · simp only [dot, smul]
      field_simp
      linear_combination hpl
    · simp only; field_simp; ring
    · simp only; field_simp; ring
    · simp only; field_simp; ring

end Verif.Geometry
