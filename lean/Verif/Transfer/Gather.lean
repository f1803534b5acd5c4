import Verif.Transfer.Message

/-! # Lemmas: what is gathered for a message -/

namespace Verif.Transfer

open Verif.Topology

variable {V : Type}

theorem mem_addNew (l : List El) (x y : El) : y ∈ addNew l x ↔ y ∈ l ∨ y = x := by
  unfold addNew
  split
  · next h =>
    rw [List.contains_iff_mem] at h
    exact ⟨Or.inl, fun h' => by rcases h' with h' | rfl; exacts [h', h]⟩
  · simp

theorem nodup_addNew {l : List El} (x : El) (h : l.Nodup) : (addNew l x).Nodup := by
  unfold addNew
  split
  · exact h
  · next h' =>
    rw [List.contains_iff_mem] at h'
    rw [List.nodup_append]
    refine ⟨h, by simp, ?_⟩
    intro a ha b hb hab
    rw [List.mem_singleton] at hb
    subst hb; subst hab
    exact h' ha

theorem mem_foldNew (m : List El) (l : List El) (y : El) : y ∈ m.foldl addNew l ↔ y ∈ l ∨ y ∈ m := by
  induction m generalizing l with
  | nil => simp
  | cons a m ih =>
    rw [List.foldl_cons, ih, mem_addNew, List.mem_cons]
    exact ⟨fun h => by rcases h with (h | h) | h <;> simp [h], fun h => by rcases h with h | h | h <;> simp [h]⟩

theorem nodup_foldNew (m : List El) {l : List El} (h : l.Nodup) : (m.foldl addNew l).Nodup := by
  induction m generalizing l with
  | nil => exact h
  | cons a m ih => exact ih (nodup_addNew a h)

theorem mem_gatherOne (S : Side V) (byNum : Nat → Bool) (dest t : Nat) (sel : Nat → List El) (e : El) (s : Nat)
    (x : El) : x ∈ gatherOne S byNum dest t sel e s ↔ x ∈ sel s ∨ S.known byNum dest e = false ∧
      ((s = t - 1 ∧ x ∈ S.T.low e) ∨ (s = 0 ∧ t = 3 ∧ S.T.cn = true ∧ x ∈ S.T.high e)) := by
  unfold gatherOne
  cases hk : S.known byNum dest e with
  | true => simp
  | false =>
    simp only [Bool.false_eq_true, if_false, true_and]
    have h1 : x ∈ set1 sel (t - 1) ((S.T.low e).foldl addNew (sel (t - 1))) s ↔
        x ∈ sel s ∨ (s = t - 1 ∧ x ∈ S.T.low e) := by
      by_cases hs : s = t - 1
      · subst hs; simp only [set1_same, mem_foldNew, true_and]
      · simp only [set1_ne _ _ hs, hs, false_and, or_false]
    by_cases hc : t = 3 ∧ S.T.cn = true
    · rw [if_pos hc]
      by_cases hs : s = 0
      · subst hs
        rw [set1_same, mem_foldNew, h1]
        constructor
        · rintro ((h | h) | h)
          · exact Or.inl h
          · exact Or.inr (Or.inl h)
          · exact Or.inr (Or.inr ⟨rfl, hc.1, hc.2, h⟩)
        · rintro (h | h | h)
          · exact Or.inl (Or.inl h)
          · exact Or.inl (Or.inr h)
          · exact Or.inr h.2.2.2
      · simp only [set1_ne _ _ hs, h1, hs, false_and, or_false]
    · rw [if_neg hc, h1]
      constructor
      · rintro (h | h)
        · exact Or.inl h
        · exact Or.inr (Or.inl h)
      · rintro (h | h | h)
        · exact Or.inl h
        · exact Or.inr h
        · exact absurd ⟨h.2.1, h.2.2.1⟩ hc

theorem nodup_gatherOne (S : Side V) (byNum : Nat → Bool) (dest t : Nat) {sel : Nat → List El} (e : El)
    (h : ∀ s, (sel s).Nodup) (s : Nat) : (gatherOne S byNum dest t sel e s).Nodup := by
  unfold gatherOne
  split
  · exact h s
  · have h1 : ∀ s, (set1 sel (t - 1) ((S.T.low e).foldl addNew (sel (t - 1))) s).Nodup := by
      intro s
      by_cases hs : s = t - 1
      · subst hs; simp only [set1_same]; exact nodup_foldNew _ (h _)
      · simp only [set1_ne _ _ hs]; exact h s
    split
    · by_cases hs : s = 0
      · subst hs; simp only [set1_same]; exact nodup_foldNew _ (h1 _)
      · simp only [set1_ne _ _ hs]; exact h1 s
    · exact h1 s

theorem mem_gatherFold (S : Side V) (byNum : Nat → Bool) (dest t : Nat) (l : List El) (sel : Nat → List El)
    (s : Nat) (x : El) : x ∈ l.foldl (gatherOne S byNum dest t) sel s ↔ x ∈ sel s ∨ ∃ e ∈ l,
      S.known byNum dest e = false ∧
      ((s = t - 1 ∧ x ∈ S.T.low e) ∨ (s = 0 ∧ t = 3 ∧ S.T.cn = true ∧ x ∈ S.T.high e)) := by
  induction l generalizing sel with
  | nil => simp
  | cons a l ih =>
    rw [List.foldl_cons, ih, mem_gatherOne]
    constructor
    · rintro ((h | h) | ⟨e, he, h⟩)
      · exact Or.inl h
      · exact Or.inr ⟨a, by simp, h⟩
      · exact Or.inr ⟨e, by simp [he], h⟩
    · rintro (h | ⟨e, he, h⟩)
      · exact Or.inl (Or.inl h)
      · rcases List.mem_cons.1 he with rfl | he
        · exact Or.inl (Or.inr h)
        · exact Or.inr ⟨e, he, h⟩

theorem nodup_gatherFold (S : Side V) (byNum : Nat → Bool) (dest t : Nat) (l : List El) {sel : Nat → List El}
    (h : ∀ s, (sel s).Nodup) (s : Nat) : (l.foldl (gatherOne S byNum dest t) sel s).Nodup := by
  induction l generalizing sel with
  | nil => exact h s
  | cons a l ih => exact ih fun s => nodup_gatherOne S byNum dest t a h s

/-- The lists after one type. -/
theorem mem_gatherType (S : Side V) (byNum : Nat → Bool) (dest t : Nat) (sel : Nat → List El) (s : Nat) (x : El) :
    x ∈ gatherType S byNum dest t sel s ↔ x ∈ sel s ∨ ∃ e ∈ sel t, S.known byNum dest e = false ∧
      ((s = t - 1 ∧ x ∈ S.T.low e) ∨ (s = 0 ∧ t = 3 ∧ S.T.cn = true ∧ x ∈ S.T.high e)) :=
  mem_gatherFold S byNum dest t (sel t) sel s x

section
variable (S : Side V) (byNum : Nat → Bool) (dest : Nat) (sel : Nat → List El)

/-- Elements of a type above are not added. -/
theorem gatherType_up {t : Nat} (ht : 0 < t) {s : Nat} (hs : t ≤ s) (x : El) :
    x ∈ gatherType S byNum dest t sel s ↔ x ∈ sel s := by
  rw [mem_gatherType]
  constructor
  · rintro (h | ⟨e, -, -, h | h⟩)
    · exact h
    · omega
    · omega
  · exact Or.inl

theorem gatherType_sub (t s : Nat) {x : El} (h : x ∈ sel s) : x ∈ gatherType S byNum dest t sel s :=
  (mem_gatherType _ _ _ _ _ _ _).2 (Or.inl h)

/-- A list with a property is extended by elements with the property. -/
theorem gatherType_ind {P : El → Prop} (hlow : ∀ e x, P e → 0 < e.ty → S.known byNum dest e = false → x ∈ S.T.low e → P x)
    (hhigh : ∀ e x, P e → e.ty = 3 → S.T.cn = true → S.known byNum dest e = false → x ∈ S.T.high e → P x) {t : Nat}
    (ht : 0 < t) (h : ∀ s, ∀ x ∈ sel s, P x) (hty : ∀ x ∈ sel t, x.ty = t) (s : Nat) :
    ∀ x ∈ gatherType S byNum dest t sel s, P x := by
  intro x hx
  rw [mem_gatherType] at hx
  rcases hx with hx | ⟨e, he, hk, ⟨-, hx⟩ | ⟨-, h3, hc, hx⟩⟩
  · exact h s x hx
  · exact hlow e x (h t e he) (by rw [hty e he]; exact ht) hk hx
  · exact hhigh e x (h t e he) ((hty e he).trans h3) hc hk hx

theorem gather_nodup (h : ∀ s, (sel s).Nodup) (s : Nat) : (gather S byNum dest sel s).Nodup :=
  nodup_gatherFold _ _ _ _ _ (fun s => nodup_gatherFold _ _ _ _ _ (fun s => nodup_gatherFold _ _ _ _ _ h s) s) s

theorem gather_sub (s : Nat) {x : El} (h : x ∈ sel s) : x ∈ gather S byNum dest sel s :=
  gatherType_sub _ _ _ _ _ _ (gatherType_sub _ _ _ _ _ _ (gatherType_sub _ _ _ _ _ _ h))

/-- Everything gathered has a property that passes from elements to what they are built of. -/
theorem gather_ind {cn : Bool} (hr : Reach cn S.T) (hlive : ∀ t, ∀ e ∈ sel t, S.T.alive e = true ∧ e.ty = t)
    {P : El → Prop} (hlow : ∀ e x, P e → 0 < e.ty → S.known byNum dest e = false → x ∈ S.T.low e → P x)
    (hhigh : ∀ e x, P e → e.ty = 3 → S.T.cn = true → S.known byNum dest e = false → x ∈ S.T.high e → P x)
    (h : ∀ s, ∀ x ∈ sel s, P x) (s : Nat) : ∀ x ∈ gather S byNum dest sel s, P x ∧ S.T.alive x = true ∧ x.ty = s := by
  have step : ∀ t, 0 < t → ∀ sel' : Nat → List El, (∀ s, ∀ x ∈ sel' s, P x ∧ S.T.alive x = true ∧ x.ty = s) →
      ∀ s, ∀ x ∈ gatherType S byNum dest t sel' s, P x ∧ S.T.alive x = true ∧ x.ty = s := by
    intro t ht sel' h' s x hx
    rw [mem_gatherType] at hx
    rcases hx with hx | ⟨e, he, hk, ⟨hs, hx⟩ | ⟨hs, h3, hc, hx⟩⟩
    · exact h' s x hx
    · obtain ⟨h1, h2, h3⟩ := h' t e he
      refine ⟨hlow e x h1 (by omega) hk hx, lowAlive hr hx, ?_⟩
      have := lowTy hr (e := e) (by omega) hx
      omega
    · obtain ⟨h1, h2, h4⟩ := h' t e he
      refine ⟨hhigh e x h1 (by omega) hc hk hx, highAlive hr hx, ?_⟩
      have := highTy hr (e := e) (by omega) hx
      omega
  exact step 1 (by omega) _ (step 2 (by omega) _ (step 3 (by omega) _ fun s x hx =>
    ⟨h s x hx, hlive s x hx⟩)) s

/-- What the elements gathered are built of is gathered. -/
theorem gather_closed : Closed S byNum dest (gather S byNum dest sel) := by
  constructor
  · intro t h0 h4 e he hk x hx
    rcases (by omega : t = 1 ∨ t = 2 ∨ t = 3) with rfl | rfl | rfl
    · refine (mem_gatherType _ _ _ _ _ _ _).2 (Or.inr ⟨e, (gatherType_up _ _ _ _ (by omega) (by omega) _).1 he, hk,
        Or.inl ⟨rfl, hx⟩⟩)
    · refine gatherType_sub _ _ _ _ _ _ ((mem_gatherType _ _ _ _ _ _ _).2 (Or.inr ⟨e, ?_, hk, Or.inl ⟨rfl, hx⟩⟩))
      exact (gatherType_up _ _ _ _ (t := 2) (by omega) (by omega) _).1
        ((gatherType_up _ _ _ _ (t := 1) (by omega) (by omega) _).1 he)
    · refine gatherType_sub _ _ _ _ _ _ (gatherType_sub _ _ _ _ _ _
        ((mem_gatherType _ _ _ _ _ _ _).2 (Or.inr ⟨e, ?_, hk, Or.inl ⟨rfl, hx⟩⟩)))
      exact (gatherType_up _ _ _ _ (t := 3) (by omega) (by omega) _).1
        ((gatherType_up _ _ _ _ (t := 2) (by omega) (by omega) _).1
          ((gatherType_up _ _ _ _ (t := 1) (by omega) (by omega) _).1 he))
  · intro hc e he hk x hx
    refine gatherType_sub _ _ _ _ _ _ (gatherType_sub _ _ _ _ _ _
      ((mem_gatherType _ _ _ _ _ _ _).2 (Or.inr ⟨e, ?_, hk, Or.inr ⟨rfl, rfl, hc, hx⟩⟩)))
    exact (gatherType_up _ _ _ _ (t := 3) (by omega) (by omega) _).1
      ((gatherType_up _ _ _ _ (t := 2) (by omega) (by omega) _).1
        ((gatherType_up _ _ _ _ (t := 1) (by omega) (by omega) _).1 he))

/-- What is gathered. -/
theorem gather_iff {cn : Bool} (hr : Reach cn S.T) (hlive : ∀ t, ∀ e ∈ sel t, S.T.alive e = true ∧ e.ty = t)
    {t : Nat} (ht : t < 4) (x : El) :
    x ∈ gather S byNum dest sel t ↔ x.ty = t ∧ Sent S byNum dest sel x := by
  constructor
  · intro hx
    obtain ⟨h1, -, h2⟩ := gather_ind S byNum dest sel hr hlive (P := Sent S byNum dest sel)
      (fun e x h h0 hk hx => .low h h0 hk hx) (fun e x h h3 hc hk hx => .nodes h h3 hc hk hx)
      (fun s x hx => .first (by rw [(hlive s x hx).2]; exact hx)) t x hx
    exact ⟨h2, h1⟩
  · rintro ⟨rfl, h⟩
    clear ht
    have hcl := gather_closed S byNum dest sel
    induction h with
    | first h => exact gather_sub _ _ _ _ _ h
    | @low e x _ h0 hk hx ih =>
      have h4 : e.ty < 4 := by
        have := (gather_ind S byNum dest sel hr hlive (P := fun _ => True) (fun _ _ _ _ _ _ => trivial)
          (fun _ _ _ _ _ _ _ => trivial) (fun _ _ _ => trivial) e.ty e ih).2.1
        exact Nat.lt_of_le_of_lt (tyLe hr this) (by omega)
      have := hcl.low e.ty h0 h4 e ih hk x hx
      rw [show e.ty - 1 = x.ty by have := lowTy hr (e := e) h0 hx; omega] at this
      exact this
    | @nodes e x _ h3 hc hk hx ih =>
      rw [h3] at ih
      have := hcl.nodes hc e ih hk x hx
      rw [highTy hr (e := e) h3 hx]
      exact this

end

/-- Lists gathered depend only on the connectivity and on what is sent by number. -/
theorem gather_congr {S S' : Side V} {byNum : Nat → Bool} {dest : Nat} {sel : Nat → List El} (h1 : S'.T = S.T)
    (h2 : ∀ e, S'.known byNum dest e = S.known byNum dest e) :
    gather S' byNum dest sel = gather S byNum dest sel := by
  have h3 : gatherOne S' byNum dest = gatherOne S byNum dest := by
    funext t sel e
    simp only [gatherOne, h1, h2]
  simp only [gather, gatherType, h3]

end Verif.Transfer
