import Verif.Geometry.Faces
import Verif.Topology.ReachInv

/-!
# The change made by FixNormalOrientation
-/

namespace Verif.Geometry
open Verif.Topology Verif.EdgeLoop Verif.Search

variable {K : Type} [Field K] [LinearOrder K] [IsStrictOrderedRing K]

theorem Loop.rev {T : Topo} {es ns : List El} (h : Loop T es ns) : ∃ a l, ns = a :: l ∧
    Loop T es.reverse (a :: l.reverse) := by
  obtain ⟨a, hp⟩ := h.path
  have h3 := h.three
  have hc := h.corners
  have hne : ns ≠ [] := by rintro rfl; simp at hc; omega
  cases hp with
  | nil => simp at h3
  | cons hj hp =>
    next e m es ns =>
    refine ⟨a, ns, rfl, ?_⟩
    obtain ⟨ns', h1, h2⟩ := (Path.cons hj hp).rev
    have : ns' = a :: ns.reverse := by
      have h4 : ns' ++ [a] = (a :: ns.reverse) ++ [a] := by rw [h2]; simp
      exact List.append_cancel_right h4
    rw [this] at h1
    exact h1.loop (by simpa using h3)

/-- Two topologies in which faces look the same. -/
theorem Loop.congr {T T' : Topo} {es ns : List El} (h : Loop T es ns) (h1 : ∀ e ∈ es, T'.low e = T.low e)
    (h2 : T'.hid = T.hid) : Loop T' es ns :=
  ⟨h.three, h.corners, fun i e a b he ha hb => by
    unfold Joins; rw [h1 e (List.mem_of_getElem? he), h2]; exact h.joins i e a b he ha hb⟩

theorem filter_two {p : El → Bool} {a b : El} : ∀ {l : List El}, l.filter p = [a, b] →
    ∃ x y z, l = x ++ a :: (y ++ b :: z) ∧ (∀ c ∈ x, p c = false) ∧ (∀ c ∈ y, p c = false) ∧
      (∀ c ∈ z, p c = false) ∧ p a = true ∧ p b = true := by
  have one : ∀ (q : List El → Prop) (c : El) (r : List El) (l : List El), l.filter p = c :: r →
      ∃ x y, l = x ++ c :: y ∧ (∀ d ∈ x, p d = false) ∧ p c = true ∧ y.filter p = r := by
    intro _ c r l
    induction l with
    | nil => intro h; cases h
    | cons d l ih =>
      intro h
      rw [List.filter_cons] at h
      split at h
      next hd => cases h; exact ⟨[], l, rfl, by simp, hd, rfl⟩
      next hd =>
        obtain ⟨x, y, rfl, h1, h2, h3⟩ := ih h
        refine ⟨d :: x, y, rfl, ?_, h2, h3⟩
        intro e he
        rcases List.mem_cons.1 he with rfl | he
        · simpa using hd
        · exact h1 e he
  intro l h
  obtain ⟨x, y', rfl, h1, h2, h3⟩ := one (fun _ => True) a [b] l h
  obtain ⟨y, z, rfl, h4, h5, h6⟩ := one (fun _ => True) b [] y' h3
  refine ⟨x, y, z, rfl, h1, h4, ?_, h2, h5⟩
  intro c hc
  have := List.filter_eq_nil_iff.1 h6 c hc
  simpa using this

theorem takeWhile_skip {p : El → Bool} {a : El} (ha : p a = false) : ∀ {x : List El} (y : List El),
    (∀ c ∈ x, p c = true) → (x ++ a :: y).takeWhile p = x := by
  intro x
  induction x with
  | nil => intro y _; simp [ha]
  | cons c x ih =>
    intro y h
    rw [List.cons_append, List.takeWhile_cons, if_pos (h c List.mem_cons_self),
      ih y fun d hd => h d (List.mem_cons_of_mem _ hd)]

/-- `SwapCells` exchanges the two visible cells. -/
theorem swapTwo_vis {T T' : Topo} {f a b : El} (hv : vis T (T.high f) = [a, b])
    (h : T.swapTwo f (T.high f) = some T') : T'.low = T.low ∧ T'.hid = T.hid ∧
      (∀ x, x ≠ f → T'.high x = T.high x) ∧ vis T' (T'.high f) = [b, a] := by
  unfold vis at hv
  obtain ⟨x, y, z, hl, h1, h2, h3, ha, hb⟩ := filter_two hv
  have ha' : T.hid a = false := by simpa using ha
  have hb' : T.hid b = false := by simpa using hb
  have hx : ∀ c ∈ x, T.hid c = true := fun c hc => by simpa using h1 c hc
  have hy : ∀ c ∈ y, T.hid c = true := fun c hc => by simpa using h2 c hc
  have k1 : T.getNext (T.high f) 0 = x.length := by
    unfold Topo.getNext
    rw [List.drop_zero, hl, takeWhile_skip ha' _ hx]; omega
  have k2 : T.getNext (T.high f) (x.length + 1) = x.length + 1 + y.length := by
    unfold Topo.getNext
    have : (T.high f).drop (x.length + 1) = y ++ b :: z := by
      rw [hl, List.drop_append]
      rw [List.drop_of_length_le (by omega)]
      have : x.length + 1 - x.length = 1 := by omega
      rw [this]; rfl
    rw [this, takeWhile_skip hb' _ hy]
  unfold Topo.swapTwo at h
  simp only [k1, k2] at h
  have hs : swapAt (T.high f) x.length (x.length + 1 + y.length) = some (x ++ b :: (y ++ a :: z)) := by
    unfold swapAt
    have e1 : (T.high f)[x.length]? = some a := by rw [hl]; simp
    have e2 : (T.high f)[x.length + 1 + y.length]? = some b := by
      rw [hl, List.getElem?_append_right (by omega)]
      have : x.length + 1 + y.length - x.length = y.length + 1 := by omega
      rw [this, List.getElem?_cons_succ, List.getElem?_append_right (by omega)]
      simp
    rw [e1, e2]
    simp only [Option.some.injEq]
    rw [hl, List.set_append_right _ _ (Nat.le_refl _), Nat.sub_self, List.set_cons_zero,
      List.set_append_right _ _ (by omega)]
    have : x.length + 1 + y.length - x.length = y.length + 1 := by omega
    rw [this, List.set_cons_succ, List.set_append_right _ _ (Nat.le_refl _), Nat.sub_self, List.set_cons_zero]
  rw [hs] at h
  simp only at h
  unfold Topo.modHigh at h
  cases hc : T.hcOf f with
  | none => rw [hc] at h; cases h
  | some l =>
    rw [hc] at h
    cases h
    refine ⟨rfl, rfl, fun w hw => by simp only [set1_ne _ _ hw], ?_⟩
    simp only [set1_same]
    have : ∀ c, Topo.hid { T with high := set1 T.high f (x ++ b :: (y ++ a :: z)) } c = T.hid c := fun _ => rfl
    unfold vis
    simp only [this]
    rw [List.filter_append, List.filter_cons, List.filter_append, List.filter_cons]
    rw [List.filter_eq_nil_iff.2 fun c hc => by simp [h1 c hc], List.filter_eq_nil_iff.2 fun c hc => by simp [h2 c hc],
      List.filter_eq_nil_iff.2 fun c hc => by simp [h3 c hc]]
    simp [ha', hb']

end Verif.Geometry
