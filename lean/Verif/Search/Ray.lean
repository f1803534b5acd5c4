import Mathlib.Algebra.Field.Rat
import Mathlib.Algebra.Order.Ring.Rat
import Mathlib.Algebra.Order.Field.Rat
import Mathlib.Algebra.Order.Group.Unbundled.Abs
import Mathlib.Algebra.Order.Group.Abs
import Mathlib.Tactic.Ring
import Mathlib.Tactic.FieldSimp
import Mathlib.Tactic.Linarith
import Mathlib.Tactic.LinearCombination
import Mathlib.Tactic.NormNum

/-!
Intersection of a ray with a face, `Element::CastRay`, geometry.cpp L2632-2751, case FACE
L2659-2734 with three dimensions, in exact arithmetic.
-/

namespace Verif.Ray

@[ext] structure V where
  x : ℚ
  y : ℚ
  z : ℚ

/-- Difference of points, as in L2671-2680. -/
def sub (a b : V) : V := ⟨a.x - b.x, a.y - b.y, a.z - b.z⟩

/-- `vec_dot_product`, geometry.cpp L55-61. -/
def dot (a b : V) : ℚ := a.x * b.x + a.y * b.y + a.z * b.z

/-- `vec_cross_product`, geometry.cpp L44-53. -/
def cross (a b : V) : V := ⟨a.y * b.z - a.z * b.y, a.z * b.x - a.x * b.z, a.x * b.y - a.y * b.x⟩

/-- The point `pos + k dir`, L2690-2692. -/
def along (pos dir : V) (k : ℚ) : V := ⟨pos.x + k * dir.x, pos.y + k * dir.y, pos.z + k * dir.z⟩

/-- What is entered to `hits`: the face, the node with this number, or the edge of two nodes that
`FindSharedAdjacency` finds (L2719). -/
inductive Hit where
  | face
  | node (i : Nat)
  | edge (i j : Nat)
  deriving DecidableEq

/-- The small number `1.0e-25` of L2684 and L2702. -/
def tiny : ℚ := 1 / 10 ^ 25

/-- One triangle, L2671-2708: the parameter `k` and the numbers `uq`, `vq` if the ray meets the
triangle of `p0`, `p1` and the centre `cen`. -/
@[irreducible] def triangle (eps : ℚ) (pos dir cen p0 p1 : V) : Option (ℚ × ℚ × ℚ) :=
  let a := sub p0 cen
  let b := sub p1 cen
  let n := cross a b
  let d := -dot n cen
  let m := dot n dir
  if ¬ |m| < tiny then
    let l := dot n pos
    let k := -(d + l) / m
    if k ≥ 0 then
      let c := sub (along pos dir k) cen
      let dot00 := dot a a
      let dot01 := dot a b
      let dot02 := dot a c
      let dot11 := dot b b
      let dot12 := dot b c
      let invdenom := dot00 * dot11 - dot01 * dot01
      if ¬ |invdenom| < tiny then
        let uq := (dot11 * dot02 - dot01 * dot12) / invdenom
        let vq := (dot00 * dot12 - dot01 * dot02) / invdenom
        if uq ≥ -eps ∧ vq ≥ -eps then
          if 1 - (uq + vq) ≥ -eps then some (k, uq, vq) else none
        else none
      else none
    else none
  else none

/-- The entry for the hit, L2710-2724; `i` and `j` are the numbers of the nodes `shr_nodes`. -/
def entry (eps : ℚ) (i j : Nat) (uq vq : ℚ) : Hit :=
  if 1 - (uq + vq) ≤ eps then
    if uq ≤ eps ∧ vq ≥ -eps then .node i
    else if uq ≥ -eps ∧ vq ≤ eps then .node j
    else .edge i j
  else .face

/-- Coordinates of the node `i` of the face; only used for `i` below the number of nodes. -/
def at' (nodes : List V) (i : Nat) : V := nodes.getD i ⟨0, 0, 0⟩

/-- The loop L2666-2732; `p0` is `tri[0]`. The loop ends with the first hit, L2725. -/
def loop (eps : ℚ) (pos dir cen : V) (nodes : List V) : List Nat → V → Option (Hit × ℚ)
  | [], _ => none
  | q :: r, p0 =>
    let p1 := at' nodes ((q + 1) % nodes.length)
    match triangle eps pos dir cen p0 p1 with
    | some (k, uq, vq) => some (entry eps q ((q + 1) % nodes.length) uq vq, k)
    | none => loop eps pos dir cen nodes r p1

/-- `CastRay` of a face: the entry added to `hits`. A face has nodes (L2665). -/
def castRay (eps : ℚ) (pos dir cen : V) (nodes : List V) : Option (Hit × ℚ) :=
  loop eps pos dir cen nodes (List.range nodes.length) (at' nodes 0)

/-! ## Specification -/

/-- The point `p` is `cen + u (p0 - cen) + v (p1 - cen)`. -/
def Combination (cen p0 p1 : V) (u v : ℚ) (p : V) : Prop :=
  p.x = cen.x + u * (p0.x - cen.x) + v * (p1.x - cen.x) ∧
  p.y = cen.y + u * (p0.y - cen.y) + v * (p1.y - cen.y) ∧
  p.z = cen.z + u * (p0.z - cen.z) + v * (p1.z - cen.z)

/-- The node `i` of the face is `p`. -/
def IsNode (nodes : List V) (i : Nat) (p : V) : Prop := nodes[i]? = some p

/-- `p` lies in the triangle of the centre, the node `q` and the next node. -/
def InTriangle (cen : V) (nodes : List V) (q : Nat) (p : V) : Prop :=
  ∃ p0 p1 u v, IsNode nodes q p0 ∧ IsNode nodes ((q + 1) % nodes.length) p1 ∧ 0 ≤ u ∧ 0 ≤ v ∧ u + v ≤ 1 ∧ Combination cen p0 p1 u v p

/-! ## Lemmas -/

theorem at_node {nodes : List V} {i : Nat} {p : V} (h : IsNode nodes i p) : at' nodes i = p := by
  unfold at' IsNode at *
  rw [List.getD_eq_getElem?_getD, h]
  rfl

theorem node_at {nodes : List V} {i : Nat} (h : i < nodes.length) : IsNode nodes i (at' nodes i) := by
  unfold at' IsNode
  rw [List.getD_eq_getElem?_getD, List.getElem?_eq_getElem h]
  rfl

theorem tiny_pos : 0 < tiny := by norm_num [tiny]

theorem ne_of_tiny {a : ℚ} (h : ¬ |a| < tiny) : a ≠ 0 := by
  rintro rfl
  exact h (by rw [abs_zero]; exact tiny_pos)

theorem loop_some (eps : ℚ) (pos dir cen : V) (nodes : List V) (h : Hit) (k : ℚ) : ∀ (m s : Nat), s + m = nodes.length →
    loop eps pos dir cen nodes (List.range' s m) (at' nodes s) = some (h, k) →
    ∃ q u v, q < nodes.length ∧ triangle eps pos dir cen (at' nodes q) (at' nodes ((q + 1) % nodes.length)) = some (k, u, v) ∧
      h = entry eps q ((q + 1) % nodes.length) u v := by
  intro m
  induction m with
  | zero => intro s _ e; simp [loop] at e
  | succ m ih =>
    intro s hs e
    rw [List.range'_succ] at e
    cases ht : triangle eps pos dir cen (at' nodes s) (at' nodes ((s + 1) % nodes.length)) with
    | some w =>
      obtain ⟨k', u, v⟩ := w
      simp only [loop, ht, Option.some.injEq, Prod.mk.injEq] at e
      exact ⟨s, u, v, by omega, by rw [ht, e.2], e.1.symm⟩
    | none =>
      simp only [loop, ht] at e
      by_cases hm : m = 0
      · subst hm
        simp [loop] at e
      · rw [Nat.mod_eq_of_lt (by omega)] at e
        exact ih (s + 1) (by omega) e

theorem loop_none (eps : ℚ) (pos dir cen : V) (nodes : List V) : ∀ (m s : Nat), s + m = nodes.length →
    loop eps pos dir cen nodes (List.range' s m) (at' nodes s) = none →
    ∀ q, s ≤ q → q < nodes.length → triangle eps pos dir cen (at' nodes q) (at' nodes ((q + 1) % nodes.length)) = none := by
  intro m
  induction m with
  | zero => intro s hs _ q h1 h2; omega
  | succ m ih =>
    intro s hs e q h1 h2
    rw [List.range'_succ] at e
    cases ht : triangle eps pos dir cen (at' nodes s) (at' nodes ((s + 1) % nodes.length)) with
    | some w => simp [loop, ht] at e
    | none =>
      simp only [loop, ht] at e
      by_cases hq : q = s
      · subst hq
        exact ht
      · rw [Nat.mod_eq_of_lt (by omega)] at e
        exact ih (s + 1) (by omega) e q (by omega) h2

/-- The plane of a triangle and the numbers of a point of the plane. -/
theorem combination_of_plane (cen p0 p1 P : V) (D : ℚ)
    (hD : D = dot (sub p0 cen) (sub p0 cen) * dot (sub p1 cen) (sub p1 cen) - dot (sub p0 cen) (sub p1 cen) * dot (sub p0 cen) (sub p1 cen)) (hD0 : D ≠ 0)
    (hc : dot (cross (sub p0 cen) (sub p1 cen)) (sub P cen) = 0) :
    Combination cen p0 p1
      ((dot (sub p1 cen) (sub p1 cen) * dot (sub p0 cen) (sub P cen) - dot (sub p0 cen) (sub p1 cen) * dot (sub p1 cen) (sub P cen)) / D)
      ((dot (sub p0 cen) (sub p0 cen) * dot (sub p1 cen) (sub P cen) - dot (sub p0 cen) (sub p1 cen) * dot (sub p0 cen) (sub P cen)) / D) P := by
  refine ⟨?_, ?_, ?_⟩
  all_goals
    field_simp
    rw [hD]
    simp only [dot, cross, sub] at hc ⊢
  · linear_combination ((p0.y - cen.y) * (p1.z - cen.z) - (p0.z - cen.z) * (p1.y - cen.y)) * hc
  · linear_combination ((p0.z - cen.z) * (p1.x - cen.x) - (p0.x - cen.x) * (p1.z - cen.z)) * hc
  · linear_combination ((p0.x - cen.x) * (p1.y - cen.y) - (p0.y - cen.y) * (p1.x - cen.x)) * hc

theorem triangle_some {eps : ℚ} {pos dir cen p0 p1 : V} {k u v : ℚ} (h : triangle eps pos dir cen p0 p1 = some (k, u, v)) :
    0 ≤ k ∧ -eps ≤ u ∧ -eps ≤ v ∧ -eps ≤ 1 - (u + v) ∧ Combination cen p0 p1 u v (along pos dir k) := by
  unfold triangle at h
  simp only at h
  split at h
  case isFalse => simp at h
  case isTrue hm =>
    split at h
    case isFalse => simp at h
    case isTrue hk =>
      split at h
      case isFalse => simp at h
      case isTrue hd =>
        split at h
        case isFalse => simp at h
        case isTrue huv =>
          split at h
          case isFalse => simp at h
          case isTrue hs =>
            simp only [Option.some.injEq, Prod.mk.injEq] at h
            obtain ⟨hK, hu, hv⟩ := h
            rw [hK] at hu hv hk huv hs
            rw [hu, hv] at huv hs
            have hm' := ne_of_tiny hm
            have hplane : k * dot (cross (sub p0 cen) (sub p1 cen)) dir =
                dot (cross (sub p0 cen) (sub p1 cen)) cen - dot (cross (sub p0 cen) (sub p1 cen)) pos := by
              rw [← hK, div_mul_cancel₀ _ hm']
              ring
            have hc : dot (cross (sub p0 cen) (sub p1 cen)) (sub (along pos dir k) cen) = 0 := by
              simp only [dot, cross, sub, along] at hplane ⊢
              linear_combination hplane
            refine ⟨hk, huv.1, huv.2, hs, ?_⟩
            rw [← hu, ← hv]
            exact combination_of_plane cen p0 p1 _ _ rfl (ne_of_tiny hd) hc

theorem triangle_complete {eps : ℚ} (he : 0 ≤ eps) {pos dir cen p0 p1 : V} {t u v : ℚ} (ht : 0 ≤ t) (hu : 0 ≤ u) (hv : 0 ≤ v) (huv : u + v ≤ 1)
    (hc : Combination cen p0 p1 u v (along pos dir t)) (hm : ¬ |dot (cross (sub p0 cen) (sub p1 cen)) dir| < tiny)
    (hd : ¬ |dot (sub p0 cen) (sub p0 cen) * dot (sub p1 cen) (sub p1 cen) - dot (sub p0 cen) (sub p1 cen) * dot (sub p0 cen) (sub p1 cen)| < tiny) :
    triangle eps pos dir cen p0 p1 = some (t, u, v) := by
  have hm' := ne_of_tiny hm
  have hd' := ne_of_tiny hd
  obtain ⟨c1, c2, c3⟩ := hc
  have hk : -(-dot (cross (sub p0 cen) (sub p1 cen)) cen + dot (cross (sub p0 cen) (sub p1 cen)) pos) / dot (cross (sub p0 cen) (sub p1 cen)) dir = t := by
    rw [div_eq_iff hm']
    simp only [dot, cross, sub, along] at c1 c2 c3 ⊢
    linear_combination (-((p0.y - cen.y) * (p1.z - cen.z) - (p0.z - cen.z) * (p1.y - cen.y))) * c1 -
      ((p0.z - cen.z) * (p1.x - cen.x) - (p0.x - cen.x) * (p1.z - cen.z)) * c2 - ((p0.x - cen.x) * (p1.y - cen.y) - (p0.y - cen.y) * (p1.x - cen.x)) * c3
  have d02 : dot (sub p0 cen) (sub (along pos dir t) cen) = u * dot (sub p0 cen) (sub p0 cen) + v * dot (sub p0 cen) (sub p1 cen) := by
    simp only [dot, sub]
    rw [c1, c2, c3]
    ring
  have d12 : dot (sub p1 cen) (sub (along pos dir t) cen) = u * dot (sub p0 cen) (sub p1 cen) + v * dot (sub p1 cen) (sub p1 cen) := by
    simp only [dot, sub]
    rw [c1, c2, c3]
    ring
  have eu : (dot (sub p1 cen) (sub p1 cen) * dot (sub p0 cen) (sub (along pos dir t) cen) - dot (sub p0 cen) (sub p1 cen) * dot (sub p1 cen) (sub (along pos dir t) cen)) /
      (dot (sub p0 cen) (sub p0 cen) * dot (sub p1 cen) (sub p1 cen) - dot (sub p0 cen) (sub p1 cen) * dot (sub p0 cen) (sub p1 cen)) = u := by
    rw [div_eq_iff hd', d02, d12]
    ring
  have ev : (dot (sub p0 cen) (sub p0 cen) * dot (sub p1 cen) (sub (along pos dir t) cen) - dot (sub p0 cen) (sub p1 cen) * dot (sub p0 cen) (sub (along pos dir t) cen)) /
      (dot (sub p0 cen) (sub p0 cen) * dot (sub p1 cen) (sub p1 cen) - dot (sub p0 cen) (sub p1 cen) * dot (sub p0 cen) (sub p1 cen)) = v := by
    rw [div_eq_iff hd', d02, d12]
    ring
  unfold triangle
  simp only
  rw [if_pos hm, hk, if_pos ht, if_pos hd, eu, ev, if_pos ⟨by linarith, by linarith⟩, if_pos (by linarith)]

/-! ## Properties -/

/-- C160, full claim: an entry of `CastRay` for a face gives the parameter of a point of the ray in
the face, up to the tolerance of the mesh; the entry is for a node if the point is this node, for
an edge if the point is on the edge, and for the face otherwise. Proved but for the choice between
the two nodes of a side, which is wrong, see `C160_node_fails`. -/
theorem C160_point_partial (eps : ℚ) (pos dir cen : V) (nodes : List V) (h : Hit) (k : ℚ) (e : castRay eps pos dir cen nodes = some (h, k)) :
    0 ≤ k ∧ ∃ q p0 p1 u v, IsNode nodes q p0 ∧ IsNode nodes ((q + 1) % nodes.length) p1 ∧
      -eps ≤ u ∧ -eps ≤ v ∧ u + v ≤ 1 + eps ∧ Combination cen p0 p1 u v (along pos dir k) ∧
      (h = .face ↔ u + v < 1 - eps) ∧
      (∀ i j, h = .edge i j ↔ i = q ∧ j = (q + 1) % nodes.length ∧ 1 - eps ≤ u + v ∧ eps < u ∧ eps < v) ∧
      (∀ i, h = .node i → (i = q ∨ i = (q + 1) % nodes.length) ∧ 1 - eps ≤ u + v ∧ (u ≤ eps ∨ v ≤ eps)) := by
  unfold castRay at e
  rw [List.range_eq_range'] at e
  obtain ⟨q, u, v, hq, ht, rfl⟩ := loop_some eps pos dir cen nodes h k nodes.length 0 (by omega) e
  obtain ⟨h1, h2, h3, h4, h5⟩ := triangle_some ht
  refine ⟨h1, q, _, _, u, v, node_at hq, node_at (Nat.mod_lt _ (by omega)), h2, h3, by linarith, h5, ?_, ?_, ?_⟩
  · unfold entry
    by_cases c1 : 1 - (u + v) ≤ eps
    · rw [if_pos c1]
      refine iff_of_false ?_ (by linarith)
      split
      · simp
      · split <;> simp
    · rw [if_neg c1]
      exact iff_of_true rfl (by linarith [not_le.1 c1])
  · intro i j
    unfold entry
    by_cases c1 : 1 - (u + v) ≤ eps
    · rw [if_pos c1]
      by_cases c2 : u ≤ eps
      · rw [if_pos ⟨c2, h3⟩]
        exact iff_of_false (by simp) fun w => by linarith [w.2.2.2.1]
      · rw [if_neg (by tauto)]
        by_cases c3 : v ≤ eps
        · rw [if_pos ⟨h2, c3⟩]
          exact iff_of_false (by simp) fun w => by linarith [w.2.2.2.2]
        · rw [if_neg (by tauto), Hit.edge.injEq]
          constructor
          · rintro ⟨rfl, rfl⟩
            exact ⟨rfl, rfl, by linarith, not_le.1 c2, not_le.1 c3⟩
          · rintro ⟨rfl, rfl, _⟩
            exact ⟨rfl, rfl⟩
    · rw [if_neg c1]
      exact iff_of_false (by simp) fun w => by linarith [w.2.2.1, not_le.1 c1]
  · intro i hi
    unfold entry at hi
    by_cases c1 : 1 - (u + v) ≤ eps
    · rw [if_pos c1] at hi
      by_cases c2 : u ≤ eps
      · rw [if_pos ⟨c2, h3⟩] at hi
        exact ⟨.inl (Hit.node.inj hi).symm, by linarith, .inl c2⟩
      · rw [if_neg (by tauto)] at hi
        by_cases c3 : v ≤ eps
        · rw [if_pos ⟨h2, c3⟩] at hi
          exact ⟨.inr (Hit.node.inj hi).symm, by linarith, .inr c3⟩
        · rw [if_neg (by tauto)] at hi
          simp at hi
    · rw [if_neg c1] at hi
      simp at hi

/-- C160: with zero tolerance a ray that does not meet the face adds nothing. -/
theorem C160_missed (pos dir cen : V) (nodes : List V) (hmiss : ∀ t q, 0 ≤ t → ¬ InTriangle cen nodes q (along pos dir t)) :
    castRay 0 pos dir cen nodes = none := by
  cases e : castRay 0 pos dir cen nodes with
  | none => rfl
  | some w =>
    obtain ⟨h, k⟩ := w
    obtain ⟨h1, q, p0, p1, u, v, i0, i1, h2, h3, h4, h5, _⟩ := C160_point_partial 0 pos dir cen nodes h k e
    exact absurd ⟨p0, p1, u, v, i0, i1, by linarith, by linarith, by linarith, h5⟩ (hmiss k q h1)

/-- C160: a ray that meets a plane face at the parameter `t`, in a triangle that is not too small
and not almost parallel to the ray, adds an entry with this parameter. -/
theorem C160_found (eps : ℚ) (he : 0 ≤ eps) (pos dir cen : V) (nodes : List V) (N : V) (D : ℚ)
    (hplane : ∀ p ∈ cen :: nodes, dot N p = D) (hN : dot N dir ≠ 0) (t : ℚ) (ht : 0 ≤ t) (q : Nat) (p0 p1 : V) (u v : ℚ)
    (h0 : IsNode nodes q p0) (h1 : IsNode nodes ((q + 1) % nodes.length) p1) (hu : 0 ≤ u) (hv : 0 ≤ v) (huv : u + v ≤ 1)
    (hc : Combination cen p0 p1 u v (along pos dir t)) (hm : 1 / 10 ^ 25 ≤ |dot (cross (sub p0 cen) (sub p1 cen)) dir|)
    (hd : 1 / 10 ^ 25 ≤ dot (cross (sub p0 cen) (sub p1 cen)) (cross (sub p0 cen) (sub p1 cen))) :
    ∃ h, castRay eps pos dir cen nodes = some (h, t) := by
  have hcomb : ∀ a b u v p, a ∈ nodes → b ∈ nodes → Combination cen a b u v p → dot N p = D := by
    rintro a b u v p ha hb ⟨c1, c2, c3⟩
    have e0 := hplane cen List.mem_cons_self
    have e1 := hplane a (List.mem_cons_of_mem _ ha)
    have e2 := hplane b (List.mem_cons_of_mem _ hb)
    simp only [dot] at e0 e1 e2 ⊢
    rw [c1, c2, c3]
    linear_combination (1 - u - v) * e0 + u * e1 + v * e2
  have hq : q < nodes.length := (List.getElem?_eq_some_iff.1 h0).1
  have hgram : dot (sub p0 cen) (sub p0 cen) * dot (sub p1 cen) (sub p1 cen) - dot (sub p0 cen) (sub p1 cen) * dot (sub p0 cen) (sub p1 cen) =
      dot (cross (sub p0 cen) (sub p1 cen)) (cross (sub p0 cen) (sub p1 cen)) := by
    simp only [dot, cross, sub]
    ring
  have htri : triangle eps pos dir cen p0 p1 = some (t, u, v) :=
    triangle_complete he ht hu hv huv hc (not_lt.2 hm) (by rw [hgram]; exact not_lt.2 (hd.trans (le_abs_self _)))
  cases e : castRay eps pos dir cen nodes with
  | none =>
    unfold castRay at e
    rw [List.range_eq_range'] at e
    have := loop_none eps pos dir cen nodes nodes.length 0 (by omega) e q (Nat.zero_le _) hq
    rw [at_node h0, at_node h1, htri] at this
    simp at this
  | some w =>
    obtain ⟨h, k⟩ := w
    obtain ⟨_, q', a, b, u', v', i0, i1, _, _, _, h5, _⟩ := C160_point_partial eps pos dir cen nodes h k e
    have e1 := hcomb a b u' v' _ (List.mem_of_getElem? i0) (List.mem_of_getElem? i1) h5
    have e2 := hcomb p0 p1 u v _ (List.mem_of_getElem? h0) (List.mem_of_getElem? h1) hc
    have : (k - t) * dot N dir = 0 := by
      simp only [dot, along] at e1 e2 ⊢
      linear_combination e1 - e2
    have hkt : k = t := by
      rcases mul_eq_zero.1 this with h | h
      · linarith
      · exact absurd h hN
    exact ⟨h, by rw [hkt]⟩

/-- A square. -/
def square : List V := [⟨0, 0, 0⟩, ⟨1, 0, 0⟩, ⟨1, 1, 0⟩, ⟨0, 1, 0⟩]

/-- A ray that meets the inner part, a side, and passes by. -/
example : castRay 0 ⟨1 / 2, 1 / 4, 2⟩ ⟨0, 0, -1⟩ ⟨1 / 2, 1 / 2, 0⟩ square = some (.face, 2) ∧
    castRay 0 ⟨1, 1 / 2, 2⟩ ⟨0, 0, -1⟩ ⟨1 / 2, 1 / 2, 0⟩ square = some (.edge 1 2, 2) ∧
    castRay 0 ⟨2, 1 / 2, 2⟩ ⟨0, 0, -1⟩ ⟨1 / 2, 1 / 2, 0⟩ square = none := by decide +kernel

/-- The hypotheses of `C160_found` are met. -/
example : (∀ p ∈ (⟨1 / 2, 1 / 2, 0⟩ : V) :: square, dot ⟨0, 0, 1⟩ p = 0) ∧ dot ⟨0, 0, 1⟩ ⟨0, 0, -1⟩ ≠ 0 ∧
    IsNode square 0 ⟨0, 0, 0⟩ ∧ IsNode square ((0 + 1) % square.length) ⟨1, 0, 0⟩ ∧
    Combination ⟨1 / 2, 1 / 2, 0⟩ ⟨0, 0, 0⟩ ⟨1, 0, 0⟩ (1 / 4) (1 / 4) (along ⟨1 / 2, 1 / 4, 2⟩ ⟨0, 0, -1⟩ 2) := by
  refine ⟨?_, ?_, rfl, rfl, ?_, ?_, ?_⟩
  · intro p hp
    simp only [square, List.mem_cons, List.not_mem_nil, or_false] at hp
    rcases hp with rfl | rfl | rfl | rfl | rfl <;> norm_num [dot]
  all_goals norm_num [dot, along]

/-- C160 fails for nodes: the ray meets the square exactly in the node 1 and the entry is for the node 0. -/
theorem C160_node_fails : castRay 0 ⟨1, 0, 1⟩ ⟨0, 0, -1⟩ ⟨1 / 2, 1 / 2, 0⟩ square = some (.node 0, 1) ∧
    IsNode square 1 (along ⟨1, 0, 1⟩ ⟨0, 0, -1⟩ 1) ∧ ¬ IsNode square 0 (along ⟨1, 0, 1⟩ ⟨0, 0, -1⟩ 1) := by
  refine ⟨by decide +kernel, ?_, ?_⟩
  · norm_num [IsNode, square, along]
  · norm_num [IsNode, square, along]

end Verif.Ray
