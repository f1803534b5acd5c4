import Verif.Search.Inside
import Verif.Search.Spec
import Mathlib.Tactic.Linarith
import Mathlib.Tactic.NormNum
import Mathlib.Tactic.Ring
import Mathlib.Tactic.FieldSimp
import Mathlib.Tactic.LinearCombination

/-!
# Vocabulary and lemmas for the test whether a point is inside of a cell
-/

namespace Verif.Search

variable {K : Type} [Field K] [LinearOrder K] [IsStrictOrderedRing K]

/-- The sides of a polygon: consecutive vertices, the last one is followed by the first one. -/
def sides (ns : List (V K)) : List (V K × V K) := ns.zip (ns.tail ++ ns.head?.toList)

/-- The sides of a face, in the direction around the outward normal of the cell. -/
def outSides (f : FaceGeom K) : List (V K × V K) :=
  if f.out then sides f.nodes else (sides f.nodes).map Prod.swap

/-- The surface has no boundary: each side of a face is run through in the opposite direction by
another side. -/
def ClosedSurface (fs : List (FaceGeom K)) : Prop :=
  (fs.flatMap outSides).Perm ((fs.flatMap outSides).map Prod.swap)

/-- Six times the signed volume of the tetrahedron `p`, `a`, `b`, `c`. -/
def vol (p a b c : V K) : K := dot (sub a p) (cross (sub b p) (sub c p))

/-- Six times the signed volume of the pyramid over the face with apex `p`: it is positive when `p` is on
the inner side of the face. -/
def pyramid (p : V K) (f : FaceGeom K) : K :=
  (if f.out then 1 else -1) * ((sides f.nodes).map fun s => vol p f.cen s.1 s.2).sum

/-- Six times the volume of the cell. -/
def volume (fs : List (FaceGeom K)) : K := (fs.map (pyramid ⟨0, 0, 0⟩)).sum

/-- No plane has all points of `S` strictly on one side and `p` on the other side or on the plane:
`p` belongs to the convex hull of `S`. -/
def InHull (S : List (V K)) (p : V K) : Prop := ∀ l : V K, ¬ ∀ x ∈ S, 0 < dot l (sub x p)

/-- The face is flat, it has the normal `n`, and its nodes turn around the centroid. -/
def FlatStar (f : FaceGeom K) : Prop :=
  InHull f.nodes f.cen ∧ ∃ n : V K, ∀ s ∈ sides f.nodes, ∃ c : K, 0 ≤ c ∧
    cross (sub s.1 f.cen) (sub s.2 f.cen) = smul c n

/-! ## Sums over sides -/

/-- Sum over the steps of a path that starts at `v`. -/
def along (g : V K → V K → K) : V K → List (V K) → K
  | _, [] => 0
  | v, w :: ws => g v w + along g w ws

theorem along_zip (g : V K → V K → K) (z : V K) : ∀ (ws : List (V K)) (v : V K),
    along g v ws + g ((v :: ws).getLast (by simp)) z =
      (((v :: ws).zip (ws ++ [z])).map fun s => g s.1 s.2).sum := by
  intro ws
  induction ws with
  | nil => intro v; simp [along]
  | cons w ws ih =>
    intro v
    have := ih w
    rw [along, List.cons_append, List.zip_cons_cons, List.map_cons, List.sum_cons, ← this]
    rw [List.getLast_cons (by simp : w :: ws ≠ [])]
    ring

/-- The loop over a face sums over its sides. -/
theorem along_sides (g : V K → V K → K) (ns : List (V K)) (l : V K) (h : ns.getLast? = some l) :
    along g l ns = ((sides ns).map fun s => g s.1 s.2).sum := by
  match ns, h with
  | v :: ws, h =>
    have hl : (v :: ws).getLast (by simp) = l := by
      rw [List.getLast?_eq_some_getLast (by simp)] at h
      exact Option.some.inj h
    have := along_zip g v ws v
    rw [hl] at this
    simp only [sides, List.tail_cons, List.head?_cons, Option.toList_some]
    rw [← this, along]; ring

theorem fan_along (p v0 : V K) : ∀ (ns : List (V K)) (v : V K) (d : K),
    fan p v0 v ns d = d + along (fun a b => det4v p v0 a b) v ns := by
  intro ns
  induction ns with
  | nil => intro v d; simp [fan, along]
  | cons w ws ih => intro v d; rw [fan, ih, along]; ring

theorem det4v_vol (p a b c : V K) : det4v p a b c = vol p a b c := by
  simp only [det4v, det3d, vol, dot, sub, cross]; ring

theorem faceDet_eq (p : V K) (f : FaceGeom K) (h : f.nodes ≠ []) :
    faceDet p f = some (((sides f.nodes).map fun s => vol p f.cen s.1 s.2).sum) := by
  rw [faceDet]
  cases hl : f.nodes.getLast? with
  | none => exact absurd (List.getLast?_eq_none_iff.1 hl) h
  | some l =>
    simp only []
    rw [fan_along, along_sides _ _ _ hl]
    simp [det4v_vol]

/-- Sums of telescoping terms over the sides of a polygon vanish. -/
theorem sides_telescope (g : V K → K) (ns : List (V K)) :
    ((sides ns).map fun s => g s.1 - g s.2).sum = 0 := by
  cases hl : ns.getLast? with
  | none => simp [List.getLast?_eq_none_iff.1 hl, sides]
  | some l =>
    rw [← along_sides (fun a b => g a - g b) ns l hl]
    have key : ∀ (ws : List (V K)) (v : V K),
        along (fun a b => g a - g b) v ws = g v - g ((v :: ws).getLast (by simp)) := by
      intro ws
      induction ws with
      | nil => intro v; simp [along]
      | cons w ws ih => intro v; rw [along, ih, List.getLast_cons (by simp : w :: ws ≠ [])]; ring
    rw [key]
    match ns, hl with
    | v :: ws, hl =>
      rw [List.getLast?_eq_some_getLast (by simp)] at hl
      rw [List.getLast_cons (by simp : v :: ws ≠ []), Option.some.inj hl]; ring

theorem mem_sides {ns : List (V K)} {s : V K × V K} (h : s ∈ sides ns) : s.1 ∈ ns ∧ s.2 ∈ ns := by
  obtain ⟨a, b⟩ := s
  have := List.of_mem_zip h
  refine ⟨this.1, ?_⟩
  rcases List.mem_append.1 this.2 with h | h
  · exact List.mem_of_mem_tail h
  · exact List.mem_of_mem_head? (by simpa using h)

theorem sum_map_add {α : Type} (l : List α) (f g : α → K) :
    (l.map fun s => f s + g s).sum = (l.map f).sum + (l.map g).sum := by
  induction l with
  | nil => simp
  | cons a l ih => simp only [List.map_cons, List.sum_cons, ih]; ring

theorem sum_map_mul {α : Type} (l : List α) (f : α → K) (c : K) :
    (l.map fun s => c * f s).sum = c * (l.map f).sum := by
  induction l with
  | nil => simp
  | cons a l ih => simp only [List.map_cons, List.sum_cons, ih]; ring

theorem sum_nonneg {α : Type} (l : List α) (f : α → K) (h : ∀ a ∈ l, 0 ≤ f a) : 0 ≤ (l.map f).sum := by
  induction l with
  | nil => simp
  | cons a l ih =>
    rw [List.map_cons, List.sum_cons]
    have := h a (by simp)
    have := ih fun b hb => h b (by simp [hb])
    linarith

theorem sum_zero {α : Type} (l : List α) (f : α → K) (h : ∀ a ∈ l, 0 ≤ f a) (hs : (l.map f).sum = 0) :
    ∀ a ∈ l, f a = 0 := by
  induction l with
  | nil => simp
  | cons a l ih =>
    rw [List.map_cons, List.sum_cons] at hs
    have h1 := h a (by simp)
    have h2 := sum_nonneg l f fun b hb => h b (by simp [hb])
    intro b hb
    rcases List.mem_cons.1 hb with rfl | hb
    · linarith
    · exact ih (fun b hb => h b (by simp [hb])) (by linarith) b hb

/-- Over a closed surface the sum of a quantity that changes sign with the direction vanishes. -/
theorem closed_sum {fs : List (FaceGeom K)} (h : ClosedSurface fs) (g : V K → V K → K)
    (hg : ∀ a b, g b a = - g a b) :
    (fs.map fun f => (if f.out then 1 else -1) * ((sides f.nodes).map fun s => g s.1 s.2).sum).sum = 0 := by
  have e : (fs.map fun f => (if f.out then 1 else -1) * ((sides f.nodes).map fun s => g s.1 s.2).sum).sum =
      ((fs.flatMap outSides).map fun s => g s.1 s.2).sum := by
    clear h
    induction fs with
    | nil => simp
    | cons f fs ih =>
      rw [List.map_cons, List.sum_cons, ih, List.flatMap_cons, List.map_append, List.sum_append]
      congr 1
      rw [outSides]
      cases f.out
      · simp only [Bool.false_eq_true, if_false, List.map_map]
        have : ((fun s : V K × V K => g s.1 s.2) ∘ Prod.swap) = fun s => (-1 : K) * g s.1 s.2 := by
          funext s; simp only [Function.comp, Prod.fst_swap, Prod.snd_swap, hg s.1 s.2]; ring
        rw [this, sum_map_mul]
      · simp
  rw [e]
  have h1 : ((fs.flatMap outSides).map fun s => g s.1 s.2).sum =
      (((fs.flatMap outSides).map Prod.swap).map fun s => g s.1 s.2).sum := (h.map _).sum_eq
  rw [List.map_map] at h1
  have : ((fun s : V K × V K => g s.1 s.2) ∘ Prod.swap) = fun s => (-1 : K) * g s.1 s.2 := by
    funext s; simp only [Function.comp, Prod.fst_swap, Prod.snd_swap, hg s.1 s.2]; ring
  rw [this, sum_map_mul] at h1
  linarith

/-- The pyramids from any point fill the same volume. -/
theorem pyramids_volume {fs : List (FaceGeom K)} (h : ClosedSurface fs) (p : V K) :
    (fs.map (pyramid p)).sum = volume fs := by
  have e : ∀ f : FaceGeom K, pyramid p f = pyramid ⟨0, 0, 0⟩ f +
      (if f.out then 1 else -1) * ((sides f.nodes).map fun s => - dot p (cross s.1 s.2)).sum := by
    intro f
    rw [pyramid, pyramid, ← mul_add, ← sum_map_add]
    congr 1
    have e2 : (fun s : V K × V K => vol p f.cen s.1 s.2) = fun s =>
        (vol ⟨0, 0, 0⟩ f.cen s.1 s.2 + - dot p (cross s.1 s.2)) +
          (dot p (cross s.1 f.cen) - dot p (cross s.2 f.cen)) := by
      funext s
      simp only [vol, dot, sub, cross]; ring
    rw [e2, sum_map_add, sides_telescope (fun v => dot p (cross v f.cen)), add_zero]
  rw [List.map_congr_left (fun f _ => e f), sum_map_add, volume]
  rw [closed_sum h (fun a b => - dot p (cross a b)) (by intro a b; simp only [dot, cross]; ring), add_zero]

/-! ## The counters -/

theorem countSides_eq (eps : K) (p : V K) : ∀ (fs : List (FaceGeom K)) (vp vm vz : Nat),
    (∀ f ∈ fs, f.nodes ≠ []) → ∃ a b c, countSides eps p fs (vp, vm, vz) = some (vp + a, vm + b, vz + c) ∧
      (0 < a ↔ ∃ f ∈ fs, pyramid p f > eps) ∧ (0 < b ↔ ∃ f ∈ fs, pyramid p f < -eps ∧ ¬ pyramid p f > eps) := by
  intro fs
  induction fs with
  | nil => intro vp vm vz _; exact ⟨0, 0, 0, rfl, by simp, by simp⟩
  | cons f fs ih =>
    intro vp vm vz hne
    have hd := faceDet_eq p f (hne f (by simp))
    have hne' : ∀ f ∈ fs, f.nodes ≠ [] := fun g hg => hne g (by simp [hg])
    rw [countSides, hd]
    simp only []
    rw [show (if f.out = true then (1 : K) else -1) * ((sides f.nodes).map fun s => vol p f.cen s.1 s.2).sum =
      pyramid p f from rfl]
    by_cases h1 : pyramid p f > eps
    · rw [if_pos h1]
      obtain ⟨a, b, c, e, ha, hb⟩ := ih (vp + 1) vm vz hne'
      refine ⟨a + 1, b, c, by rw [e]; simp only [Nat.add_assoc, Nat.add_comm 1], ?_, ?_⟩
      · simp [h1]
      · rw [hb]; simp [h1]
    · rw [if_neg h1]
      by_cases h2 : pyramid p f < -eps
      · rw [if_pos h2]
        obtain ⟨a, b, c, e, ha, hb⟩ := ih vp (vm + 1) vz hne'
        refine ⟨a, b + 1, c, by rw [e]; simp only [Nat.add_assoc, Nat.add_comm 1], ?_, ?_⟩
        · rw [ha]; simp [h1]
        · exact ⟨fun _ => ⟨f, by simp, h2, h1⟩, fun _ => Nat.succ_pos _⟩
      · rw [if_neg h2]
        obtain ⟨a, b, c, e, ha, hb⟩ := ih vp vm (vz + 1) hne'
        refine ⟨a, b, c + 1, by rw [e]; simp only [Nat.add_assoc, Nat.add_comm 1], ?_, ?_⟩
        · rw [ha]; simp [h1]
        · rw [hb]; simp [h2]

/-- The answer in terms of the pyramids. -/
theorem insideSolid_eq (eps : K) (he : 0 ≤ eps) (p : V K) (fs : List (FaceGeom K))
    (hne : ∀ f ∈ fs, f.nodes ≠ []) : ∃ b, insideSolid eps fs p = some b ∧
      (b = true ↔ (∀ f ∈ fs, pyramid p f ≤ eps) ∨ ∀ f ∈ fs, -eps ≤ pyramid p f) := by
  obtain ⟨a, b, c, e, ha, hb⟩ := countSides_eq eps p fs 0 0 0 hne
  refine ⟨_, by rw [insideSolid, e], ?_⟩
  simp only [Nat.zero_add]
  have hb' : 0 < b ↔ ∃ f ∈ fs, pyramid p f < -eps := by
    rw [hb]
    constructor
    · rintro ⟨f, hf, h, _⟩; exact ⟨f, hf, h⟩
    · rintro ⟨f, hf, h⟩; exact ⟨f, hf, h, by intro h'; linarith⟩
  by_cases h : a * b > 0
  · rw [if_pos h]
    have h1 : 0 < a := Nat.pos_of_mul_pos_right h
    have h2 : 0 < b := Nat.pos_of_mul_pos_left h
    obtain ⟨f, hf, hf1⟩ := ha.1 h1
    obtain ⟨g, hg, hg1⟩ := hb'.1 h2
    simp only [Bool.false_eq_true, false_iff]
    rintro (h | h)
    · have := h f hf; linarith
    · have := h g hg; linarith
  · rw [if_neg h]
    simp only [true_iff]
    by_cases h1 : 0 < a
    · right
      intro f hf
      by_contra hc
      exact h (Nat.mul_pos h1 (hb'.2 ⟨f, hf, by linarith [not_le.1 hc]⟩))
    · left
      intro f hf
      by_contra hc
      exact h1 (ha.2 ⟨f, hf, not_le.1 hc⟩)

/-! ## Points that a plane separates from the cell -/

/-- A relation between four vectors of the space. -/
theorem four_vectors (l c x y z : V K) :
    dot x (cross y z) * dot l c = dot c (cross y z) * dot l x - dot c (cross x z) * dot l y +
      dot c (cross x y) * dot l z := by
  simp only [dot, cross]; ring

theorem inHull_cen {f : FaceGeom K} (h : InHull f.nodes f.cen) {l p : V K}
    (hs : ∀ x ∈ f.nodes, 0 < dot l (sub x p)) : 0 < dot l (sub f.cen p) := by
  by_contra hc
  have hc := not_lt.1 hc
  refine h l fun x hx => ?_
  have := hs x hx
  have e : dot l (sub x f.cen) = dot l (sub x p) - dot l (sub f.cen p) := by
    simp only [dot, sub]; ring
  rw [e]; linarith

/-- All pyramids vanish if none of them is negative and a plane separates the apex from the cell. -/
theorem separated {fs : List (FaceGeom K)} (hc : ClosedSurface fs) (hf : ∀ f ∈ fs, FlatStar f)
    {l p : V K} (hs : ∀ f ∈ fs, ∀ x ∈ f.nodes, 0 < dot l (sub x p)) (hl : 0 < dot l l)
    (hp : ∀ f ∈ fs, 0 ≤ pyramid p f) : ∀ f ∈ fs, pyramid p f = 0 := by
  -- the weight of a triangle
  let h : V K → K := fun x => dot l (sub x p)
  let w : FaceGeom K → V K × V K → K := fun f s => vol p f.cen s.1 s.2 / (h f.cen * h s.1 * h s.2)
  let g : V K → V K → K := fun a b => dot l (cross (sub a p) (sub b p)) / (h a * h b) / dot l l
  let W : FaceGeom K → K := fun f => (if f.out then 1 else -1) * ((sides f.nodes).map (w f)).sum
  have hcen : ∀ f ∈ fs, 0 < h f.cen := fun f hf' => inHull_cen (hf f hf').1 (hs f hf')
  have hw : ∀ f ∈ fs, W f = (if f.out then 1 else -1) * ((sides f.nodes).map fun s => g s.1 s.2).sum := by
    intro f hff
    simp only [W]
    congr 1
    have e : (sides f.nodes).map (w f) = (sides f.nodes).map fun s =>
        g s.1 s.2 + (g f.cen s.1 - g f.cen s.2) := by
      apply List.map_congr_left
      intro s hs'
      have h1 : 0 < h s.1 := hs f hff _ (mem_sides hs').1
      have h2 : 0 < h s.2 := hs f hff _ (mem_sides hs').2
      have h0 := hcen f hff
      have e := four_vectors l l (sub f.cen p) (sub s.1 p) (sub s.2 p)
      have ev : vol p f.cen s.1 s.2 = dot (sub f.cen p) (cross (sub s.1 p) (sub s.2 p)) := rfl
      simp only [w, g, ev]
      change dot (sub f.cen p) (cross (sub s.1 p) (sub s.2 p)) * dot l l =
        dot l (cross (sub s.1 p) (sub s.2 p)) * h f.cen - dot l (cross (sub f.cen p) (sub s.2 p)) * h s.1 +
          dot l (cross (sub f.cen p) (sub s.1 p)) * h s.2 at e
      have n0 := h0.ne'
      have n1 := h1.ne'
      have n2 := h2.ne'
      have nl := hl.ne'
      field_simp
      linear_combination e
    rw [e, sum_map_add, sides_telescope (fun v => g f.cen v), add_zero]
  have hsum : (fs.map W).sum = 0 := by
    rw [List.map_congr_left hw]
    apply closed_sum hc
    intro a b
    simp only [g]
    have : dot l (cross (sub b p) (sub a p)) = - dot l (cross (sub a p) (sub b p)) := by
      simp only [dot, cross]; ring
    rw [this, mul_comm (h b) (h a)]; ring
  -- the triangles of a face agree in sign
  have hface : ∀ f ∈ fs, ∃ v : K, ∀ s ∈ sides f.nodes, ∃ c : K, 0 ≤ c ∧ vol p f.cen s.1 s.2 = c * v := by
    intro f hff
    obtain ⟨n, hn⟩ := (hf f hff).2
    refine ⟨dot (sub f.cen p) n, fun s hs' => ?_⟩
    obtain ⟨c, hc0, hc1⟩ := hn s hs'
    refine ⟨c, hc0, ?_⟩
    have : vol p f.cen s.1 s.2 = dot (sub f.cen p) (cross (sub s.1 f.cen) (sub s.2 f.cen)) := by
      simp only [vol, dot, sub, cross]; ring
    rw [this, hc1]
    simp only [dot, smul]; ring
  have hterm : ∀ f ∈ fs, ∀ s ∈ sides f.nodes,
      0 ≤ (if f.out then (1 : K) else -1) * vol p f.cen s.1 s.2 := by
    intro f hff s hs'
    obtain ⟨v, hv⟩ := hface f hff
    by_contra hneg
    have hneg := not_le.1 hneg
    obtain ⟨c, hc0, hc1⟩ := hv s hs'
    rw [hc1] at hneg
    have hcpos : 0 < c := by
      rcases lt_or_eq_of_le hc0 with h | h
      · exact h
      · rw [← h] at hneg; simp at hneg
    have hv0 : (if f.out then (1 : K) else -1) * v < 0 := by
      by_contra hge
      have := mul_nonneg hc0 (not_lt.1 hge)
      linarith [show (if f.out then (1 : K) else -1) * (c * v) = c * ((if f.out then (1 : K) else -1) * v) by ring]
    have hle : ∀ t ∈ sides f.nodes, 0 ≤ - ((if f.out then (1 : K) else -1) * vol p f.cen t.1 t.2) := by
      intro t ht
      obtain ⟨c', h0, h1⟩ := hv t ht
      rw [h1]
      have := mul_nonneg h0 (neg_nonneg.2 hv0.le)
      linarith [show (if f.out then (1 : K) else -1) * (c' * v) = c' * ((if f.out then (1 : K) else -1) * v) by ring]
    have hsum0 : 0 ≤ ((sides f.nodes).map fun t =>
        - ((if f.out then (1 : K) else -1) * vol p f.cen t.1 t.2)).sum := sum_nonneg _ _ hle
    have e : ((sides f.nodes).map fun t => - ((if f.out then (1 : K) else -1) * vol p f.cen t.1 t.2)).sum =
        - pyramid p f := by
      rw [pyramid, ← sum_map_mul]
      have := sum_map_mul (sides f.nodes) (fun t => (if f.out then (1 : K) else -1) * vol p f.cen t.1 t.2) (-1)
      simp only [neg_one_mul] at this
      exact this
    have h0 : ((sides f.nodes).map fun t =>
        - ((if f.out then (1 : K) else -1) * vol p f.cen t.1 t.2)).sum = 0 := by
      rw [e] at hsum0 ⊢
      have := hp f hff
      linarith
    have := sum_zero _ _ hle h0 s hs'
    rw [hc1] at this
    linarith
  have hW : ∀ f ∈ fs, 0 ≤ W f := by
    intro f hff
    simp only [W]
    rw [← sum_map_mul]
    apply sum_nonneg
    intro s hs'
    have h1 : 0 < h s.1 := hs f hff _ (mem_sides hs').1
    have h2 : 0 < h s.2 := hs f hff _ (mem_sides hs').2
    have h0 := hcen f hff
    simp only [w]
    rw [← mul_div_assoc]
    exact div_nonneg (hterm f hff s hs') (mul_pos (mul_pos h0 h1) h2).le
  intro f hff
  have h0 := sum_zero fs W hW hsum f hff
  simp only [W] at h0
  rw [← sum_map_mul] at h0
  have hz := sum_zero _ _ (by
    intro s hs'
    have h1 : 0 < h s.1 := hs f hff _ (mem_sides hs').1
    have h2 : 0 < h s.2 := hs f hff _ (mem_sides hs').2
    have h0 := hcen f hff
    simp only [w]
    rw [← mul_div_assoc]
    exact div_nonneg (hterm f hff s hs') (mul_pos (mul_pos h0 h1) h2).le) h0
  rw [pyramid, ← sum_map_mul]
  rw [List.map_congr_left (g := fun _ => (0 : K))]
  · simp
  · intro s hs'
    have h1 : 0 < h s.1 := hs f hff _ (mem_sides hs').1
    have h2 : 0 < h s.2 := hs f hff _ (mem_sides hs').2
    have h0 := hcen f hff
    have := hz s hs'
    simp only [w] at this
    rw [← mul_div_assoc, div_eq_zero_iff] at this
    rcases this with h | h
    · exact h
    · exact absurd h (mul_pos (mul_pos h0 h1) h2).ne'

end Verif.Search
