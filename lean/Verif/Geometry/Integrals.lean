import Verif.Geometry.Model
import Verif.Geometry.Spec
import Verif.Search.Spec
import Mathlib.Tactic.Linarith
import Mathlib.Tactic.NormNum
import Mathlib.Tactic.Ring
import Mathlib.Tactic.FieldSimp
import Mathlib.Tactic.LinearCombination

/-!
# Sums over triangles

A function of triangles that changes its sign with the side, and whose sum over the faces of a tetrahedron is
known, is summed over the surface of a solid: `solid_flux`.
-/

namespace Verif.Geometry
open Verif.Topology Verif.EdgeLoop Verif.Search

variable {K : Type} [Field K] [LinearOrder K] [IsStrictOrderedRing K]

theorem sum_map_neg {α : Type} (l : List α) (f : α → K) : (l.map fun a => -f a).sum = -(l.map f).sum := by
  induction l with
  | nil => simp
  | cons a l ih => simp only [List.map_cons, List.sum_cons, ih]; ring

theorem sum_map_mul {α : Type} (l : List α) (f : α → K) (c : K) :
    (l.map fun a => c * f a).sum = c * (l.map f).sum := by
  induction l with
  | nil => simp
  | cons a l ih => simp only [List.map_cons, List.sum_cons, ih]; ring

theorem sum_congr {α : Type} {l : List α} {f g : α → K} (h : ∀ a ∈ l, f a = g a) :
    (l.map f).sum = (l.map g).sum := by rw [List.map_congr_left h]

theorem sum_flatMap {α β : Type} (l : List α) (f : α → List β) (g : β → K) :
    ((l.flatMap f).map g).sum = (l.map fun a => ((f a).map g).sum).sum := by
  induction l with
  | nil => simp
  | cons a l ih => simp [List.map_append, List.sum_append, ih]

/-- Pairs of opposite sides do not contribute. -/
theorem sidesCancel_sum {l m : List (V K × V K)} (h : SidesCancel l m) (g : V K → V K → K)
    (hg : ∀ a b, g b a = -g a b) :
    (l.map fun s => g s.1 s.2).sum = (m.map fun s => g s.1 s.2).sum := by
  obtain ⟨P, hP⟩ := h
  rw [(hP.map _).sum_eq, List.map_append, List.map_append, List.sum_append, List.sum_append, List.map_map]
  have : (P.map ((fun s : V K × V K => g s.1 s.2) ∘ Prod.swap)).sum = -(P.map fun s => g s.1 s.2).sum := by
    rw [← sum_map_neg]
    exact sum_congr fun s _ => hg s.1 s.2
  rw [this]; ring

/-- A function of triangles and its sums over tetrahedra. -/
structure Flux (F : Tri K → K) (w : Tet K → K) : Prop where
  rot : ∀ t, F t.rot = F t
  flip : ∀ t, F t.flip = -F t
  tet : ∀ t, (t.boundary.map F).sum = w t
  flat : ∀ t, t.vol = 0 → w t = 0

/-- Pairs of opposite triangles do not contribute. -/
theorem trisCancel_sum {l m : List (Tri K)} (h : TrisCancel l m) {F : Tri K → K} {w : Tet K → K}
    (hF : Flux F w) : (l.map F).sum = (m.map F).sum := by
  obtain ⟨P, l', h1, h2⟩ := h
  rw [(h1.map F).sum_eq]
  have h3 : (l'.map F).sum = ((m ++ (P ++ P.map Tri.flip)).map F).sum := by
    clear h1
    generalize m ++ (P ++ P.map Tri.flip) = r at h2
    induction h2 with
    | nil => rfl
    | cons hs _ ih =>
      rw [List.map_cons, List.map_cons, List.sum_cons, List.sum_cons, ih]
      rcases hs with rfl | rfl | rfl
      · rfl
      · rw [hF.rot]
      · rw [hF.rot, hF.rot]
  rw [h3, List.map_append, List.map_append, List.sum_append, List.sum_append, List.map_map]
  have : (P.map (F ∘ Tri.flip)).sum = -(P.map F).sum := by
    rw [← sum_map_neg]
    exact sum_congr fun t _ => hF.flip t
  rw [this]; ring

/-! ## Flat faces -/

theorem ne_zero_cases {n : V K} (h : n ≠ ⟨0, 0, 0⟩) : n.x ≠ 0 ∨ n.y ≠ 0 ∨ n.z ≠ 0 := by
  by_contra hc
  simp only [not_or, not_not] at hc
  apply h
  obtain ⟨a, b, c⟩ := n
  simp_all

theorem norm_pos {n : V K} (h : n ≠ ⟨0, 0, 0⟩) : 0 < dot n n := by
  unfold dot
  rcases ne_zero_cases h with h | h | h
  · have := mul_self_pos.2 h; nlinarith [mul_self_nonneg n.y, mul_self_nonneg n.z]
  · have := mul_self_pos.2 h; nlinarith [mul_self_nonneg n.x, mul_self_nonneg n.z]
  · have := mul_self_pos.2 h; nlinarith [mul_self_nonneg n.x, mul_self_nonneg n.y]

/-- Four points of a plane form no tetrahedron. -/
theorem coplanar {n : V K} {d : K} (hn : n ≠ ⟨0, 0, 0⟩) {t : Tet K} (hp : dot n t.p = d) (ha : dot n t.a = d)
    (hb : dot n t.b = d) (hc : dot n t.c = d) : t.vol = 0 := by
  have h6 : dot (sub t.a t.p) (cross (sub t.b t.p) (sub t.c t.p)) = 0 := by
    unfold dot at hp ha hb hc
    have e1 : n.x * dot (sub t.a t.p) (cross (sub t.b t.p) (sub t.c t.p)) = 0 := by
      simp only [dot, cross, sub]
      linear_combination ((t.b.y - t.p.y) * (t.c.z - t.p.z) - (t.b.z - t.p.z) * (t.c.y - t.p.y)) * (ha - hp) +
        ((t.c.y - t.p.y) * (t.a.z - t.p.z) - (t.c.z - t.p.z) * (t.a.y - t.p.y)) * (hb - hp) +
        ((t.a.y - t.p.y) * (t.b.z - t.p.z) - (t.a.z - t.p.z) * (t.b.y - t.p.y)) * (hc - hp)
    have e2 : n.y * dot (sub t.a t.p) (cross (sub t.b t.p) (sub t.c t.p)) = 0 := by
      simp only [dot, cross, sub]
      linear_combination ((t.b.z - t.p.z) * (t.c.x - t.p.x) - (t.b.x - t.p.x) * (t.c.z - t.p.z)) * (ha - hp) +
        ((t.c.z - t.p.z) * (t.a.x - t.p.x) - (t.c.x - t.p.x) * (t.a.z - t.p.z)) * (hb - hp) +
        ((t.a.z - t.p.z) * (t.b.x - t.p.x) - (t.a.x - t.p.x) * (t.b.z - t.p.z)) * (hc - hp)
    have e3 : n.z * dot (sub t.a t.p) (cross (sub t.b t.p) (sub t.c t.p)) = 0 := by
      simp only [dot, cross, sub]
      linear_combination ((t.b.x - t.p.x) * (t.c.y - t.p.y) - (t.b.y - t.p.y) * (t.c.x - t.p.x)) * (ha - hp) +
        ((t.c.x - t.p.x) * (t.a.y - t.p.y) - (t.c.y - t.p.y) * (t.a.x - t.p.x)) * (hb - hp) +
        ((t.a.x - t.p.x) * (t.b.y - t.p.y) - (t.a.y - t.p.y) * (t.b.x - t.p.x)) * (hc - hp)
    rcases ne_zero_cases hn with h | h | h
    · exact (mul_eq_zero.1 e1).resolve_left h
    · exact (mul_eq_zero.1 e2).resolve_left h
    · exact (mul_eq_zero.1 e3).resolve_left h
  unfold Tet.vol
  rw [h6]; simp

section
variable {F : Tri K → K} {w : Tet K → K}

theorem Flux.first (hF : Flux F w) (o a b : V K) : F ⟨o, b, a⟩ = -F ⟨o, a, b⟩ := hF.flip ⟨o, a, b⟩

theorem Flux.zero (hF : Flux F w) (o b : V K) : F ⟨o, o, b⟩ = 0 := by
  have h1 := hF.flip ⟨o, o, b⟩
  have h2 := hF.rot ⟨o, b, o⟩
  have h3 := hF.rot ⟨b, o, o⟩
  simp only [Tri.flip, Tri.rot] at h1 h2 h3
  have h4 : F ⟨o, b, o⟩ = F ⟨o, o, b⟩ := by rw [← h2, h3]
  linarith

theorem Flux.zero' (hF : Flux F w) (o b : V K) : F ⟨o, b, o⟩ = 0 := by
  rw [hF.first, hF.zero]; simp

/-- The sum over triangles of a plane is a sum over their sides. -/
theorem tri_sides (hF : Flux F w) {n : V K} {d : K} (hn : n ≠ ⟨0, 0, 0⟩) {o : V K} (ho : dot n o = d)
    {t : Tri K} (ha : dot n t.a = d) (hb : dot n t.b = d) (hc : dot n t.c = d) :
    F t = (t.sides.map fun s => F ⟨o, s.1, s.2⟩).sum := by
  have h1 := hF.tet ⟨o, t.a, t.b, t.c⟩
  have h0 : w ⟨o, t.a, t.b, t.c⟩ = 0 := hF.flat _ (coplanar hn ho ha hb hc)
  have h2 := hF.first o t.a t.b
  have h3 := hF.first o t.b t.c
  have h4 := hF.first o t.c t.a
  rw [h0] at h1
  simp only [Tet.boundary, List.map_cons, List.map_nil, List.sum_cons, List.sum_nil] at h1
  simp only [Tri.sides, List.map_cons, List.map_nil, List.sum_cons, List.sum_nil]
  have h5 : F t = F ⟨t.a, t.b, t.c⟩ := rfl
  linarith

/-- The sum over a flat face that is cut into triangles. -/
theorem cutFace_sum (hF : Flux F w) {ns : List (V K)} {ts : List (Tri K)} (h : CutFace ns ts) {o : V K}
    (ho : o ∈ ns) : (ts.map F).sum = ((cyc ns).map fun s => F ⟨o, s.1, s.2⟩).sum := by
  obtain ⟨n, d, hn, h1, h2⟩ := h.plane
  rw [← sidesCancel_sum h.sides (fun a b => F ⟨o, a, b⟩) (fun a b => hF.first o a b), sum_flatMap]
  exact sum_congr fun t ht => tri_sides hF hn (h1 o ho) (h2 t ht).1 (h2 t ht).2.1 (h2 t ht).2.2

/-- The sum over the triangles at the first node. -/
def fanSum (F : Tri K → K) : List (V K) → K
  | [] => 0
  | v0 :: vs => ((steps vs).map fun s => F ⟨v0, s.1, s.2⟩).sum

theorem steps_sum (g : V K → V K → K) (z : V K) : ∀ (vs : List (V K)) (v : V K), (∀ a, g a z = 0) →
    ((steps (v :: vs)).map fun s => g s.1 s.2).sum =
      (((v :: vs).zip (vs ++ [z])).map fun s => g s.1 s.2).sum := by
  intro vs
  induction vs with
  | nil => intro v h; simp [steps, h]
  | cons x vs ih => intro v h; simp [steps, ih x h]

/-- The triangles at the first node give the sum over the sides. -/
theorem fan_sides (hF : Flux F w) (v0 : V K) (vs : List (V K)) :
    fanSum F (v0 :: vs) = ((cyc (v0 :: vs)).map fun s => F ⟨v0, s.1, s.2⟩).sum := by
  unfold fanSum cyc
  match vs with
  | [] => simp [steps, hF.zero]
  | v1 :: vs =>
    change ((steps (v1 :: vs)).map fun s => F ⟨v0, s.1, s.2⟩).sum = _
    rw [steps_sum (fun a b => F ⟨v0, a, b⟩) v0 vs v1 (fun a => hF.zero' v0 a)]
    simp [hF.zero]

theorem fan_cut (hF : Flux F w) {ns : List (V K)} {ts : List (Tri K)} (h : CutFace ns ts) (hne : ns ≠ []) :
    fanSum F ns = (ts.map F).sum := by
  match ns, hne with
  | v0 :: vs, _ => rw [fan_sides hF, cutFace_sum hF h List.mem_cons_self]

/-- `1` for faces with nodes around the outward normal, `-1` for the others. -/
def outSign (out : El → Bool) (f : El) : K := if out f then 1 else -1

/-- The sum over the surface of a solid is the sum over its tetrahedra. -/
theorem solid_flux (hF : Flux F w) {fs : List El} {pts : El → List (V K)} {out : El → Bool}
    {cut : El → List (Tri K)} {ts : List (Tet K)} (h : CutSolid fs pts out cut ts)
    (hne : ∀ f ∈ fs, pts f ≠ []) :
    (fs.map fun f => outSign out f * fanSum F (pts f)).sum = (ts.map w).sum := by
  have h1 := trisCancel_sum h.boundary hF
  rw [sum_flatMap, sum_flatMap] at h1
  rw [sum_congr (fun t _ => hF.tet t)] at h1
  rw [h1]
  refine sum_congr fun f hf => ?_
  rw [fan_cut hF (h.face f hf) (hne f hf)]
  unfold outSign
  cases out f with
  | true => simp
  | false =>
    simp only [Bool.false_eq_true, if_false, List.map_map]
    have : ((cut f).map (F ∘ Tri.flip)).sum = -((cut f).map F).sum := by
      rw [← sum_map_neg]
      exact sum_congr fun t _ => hF.flip t
    rw [this]; ring

end

/-! ## The functions that are summed -/

/-- Volume. -/
def volFlux (t : Tri K) : K := dot t.a t.area / 3

theorem volFlux_flux : Flux (volFlux (K := K)) Tet.vol := by
  constructor
  · intro t; simp only [volFlux, Tri.area, Tri.rot, dot, smul, cross, sub]; ring
  · intro t; simp only [volFlux, Tri.area, Tri.flip, dot, smul, cross, sub]; ring
  · intro t
    simp only [Tet.boundary, List.map_cons, List.map_nil, List.sum_cons, List.sum_nil, volFlux, Tri.area, dot,
      smul, cross, sub, Tet.vol]
    ring
  · intro t h; exact h

/-- Area as a vector. -/
theorem area_flux_x : Flux (fun t : Tri K => t.area.x) (fun _ => 0) := by
  constructor
  · intro t; simp only [Tri.area, Tri.rot, smul, cross, sub]; ring
  · intro t; simp only [Tri.area, Tri.flip, smul, cross, sub]; ring
  · intro t
    simp only [Tet.boundary, List.map_cons, List.map_nil, List.sum_cons, List.sum_nil, Tri.area, smul, cross, sub]
    ring
  · intro t h; rfl

theorem area_flux_y : Flux (fun t : Tri K => t.area.y) (fun _ => 0) := by
  constructor
  · intro t; simp only [Tri.area, Tri.rot, smul, cross, sub]; ring
  · intro t; simp only [Tri.area, Tri.flip, smul, cross, sub]; ring
  · intro t
    simp only [Tet.boundary, List.map_cons, List.map_nil, List.sum_cons, List.sum_nil, Tri.area, smul, cross, sub]
    ring
  · intro t h; rfl

theorem area_flux_z : Flux (fun t : Tri K => t.area.z) (fun _ => 0) := by
  constructor
  · intro t; simp only [Tri.area, Tri.rot, smul, cross, sub]; ring
  · intro t; simp only [Tri.area, Tri.flip, smul, cross, sub]; ring
  · intro t
    simp only [Tet.boundary, List.map_cons, List.map_nil, List.sum_cons, List.sum_nil, Tri.area, smul, cross, sub]
    ring
  · intro t h; rfl

/-- First moments. -/
theorem moment_flux_x (xc : V K) :
    Flux (fun t : Tri K => (moment xc t.a t.b t.c).x) (fun t => t.vol * (t.centre.x - xc.x)) := by
  constructor
  · intro t; simp only [moment, triNormal, pairSquares, Tri.rot, smul, cross, sub]; ring
  · intro t; simp only [moment, triNormal, pairSquares, Tri.flip, smul, cross, sub]; ring
  · intro t
    simp only [Tet.boundary, List.map_cons, List.map_nil, List.sum_cons, List.sum_nil, moment, triNormal,
      pairSquares, smul, cross, sub, Tet.vol, Tet.centre, dot]
    ring
  · intro t h; simp [h]

theorem moment_flux_y (xc : V K) :
    Flux (fun t : Tri K => (moment xc t.a t.b t.c).y) (fun t => t.vol * (t.centre.y - xc.y)) := by
  constructor
  · intro t; simp only [moment, triNormal, pairSquares, Tri.rot, smul, cross, sub]; ring
  · intro t; simp only [moment, triNormal, pairSquares, Tri.flip, smul, cross, sub]; ring
  · intro t
    simp only [Tet.boundary, List.map_cons, List.map_nil, List.sum_cons, List.sum_nil, moment, triNormal,
      pairSquares, smul, cross, sub, Tet.vol, Tet.centre, dot]
    ring
  · intro t h; simp [h]

theorem moment_flux_z (xc : V K) :
    Flux (fun t : Tri K => (moment xc t.a t.b t.c).z) (fun t => t.vol * (t.centre.z - xc.z)) := by
  constructor
  · intro t; simp only [moment, triNormal, pairSquares, Tri.rot, smul, cross, sub]; ring
  · intro t; simp only [moment, triNormal, pairSquares, Tri.flip, smul, cross, sub]; ring
  · intro t
    simp only [Tet.boundary, List.map_cons, List.map_nil, List.sum_cons, List.sum_nil, moment, triNormal,
      pairSquares, smul, cross, sub, Tet.vol, Tet.centre, dot]
    ring
  · intro t h; simp [h]

end Verif.Geometry
