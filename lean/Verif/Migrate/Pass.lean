import Verif.Migrate.Dense

/-! # Lemmas: processors of faces, edges and nodes from those of cells -/

namespace Verif.Migrate

open Verif.Topology Verif.Transfer Verif.Layers

variable {V : Type} {n : Nat} {cn : Bool} {G : Whole} {S : Side V}

theorem foldUnion_spec {np : El → List Nat} : ∀ (l : List El) (r0 : List Nat), (∀ u ∈ l, (np u).Pairwise (· < ·)) →
    r0.Pairwise (· < ·) → (l.foldl (fun r u => setUnion r (np u)) r0).Pairwise (· < ·) ∧
      ∀ r, r ∈ l.foldl (fun r u => setUnion r (np u)) r0 ↔ r ∈ r0 ∨ ∃ u ∈ l, r ∈ np u
  | [], r0, _, h => ⟨h, by simp⟩
  | u :: l, r0, hl, h => by
    obtain ⟨a1, a2⟩ := setUnion_spec r0 (np u) h (hl u (by simp))
    obtain ⟨b1, b2⟩ := foldUnion_spec (np := np) l (setUnion r0 (np u)) (fun x hx => hl x (by simp [hx])) a1
    refine ⟨b1, fun r => ?_⟩
    rw [List.foldl_cons, b2, a2]
    simp only [List.mem_cons, exists_eq_or_imp, or_assoc]

theorem highProcs_spec {np : El → List Nat} {e : El} (hne : S.T.high e ≠ []) (res : List Nat)
    (hs : ∀ u ∈ S.T.high e, (np u).Pairwise (· < ·)) :
    (highProcs S np res e).Pairwise (· < ·) ∧ ∀ r, r ∈ highProcs S np res e ↔ ∃ u ∈ S.T.high e, r ∈ np u := by
  unfold highProcs
  cases hh : S.T.high e with
  | nil => exact absurd hh hne
  | cons u us =>
    rw [hh] at hs
    obtain ⟨a, b⟩ := foldUnion_spec (np := np) (u :: us) [] hs .nil
    exact ⟨a, fun r => (b r).trans (by simp)⟩

/-- A list of processors that is sorted and not empty. -/
def Fine (l : List Nat) : Prop := l.Pairwise (· < ·) ∧ l ≠ []

/-- The loop over elements of one type. -/
theorem passList_spec (me : Nat) (setOwn : Bool) (P : Piece cn G S) {t : Nat} (ht : t < 3)
    (hc : ∀ e, S.T.alive e = true → e.ty < 3 → S.T.high e ≠ []) :
    ∀ (l : List El) (X : Tags), (∀ e ∈ l, S.T.alive e = true ∧ e.ty = t) →
      (∀ e, S.T.alive e = true → t < e.ty → Fine (X.np e)) →
      let Y := l.foldl (passOne me setOwn S) X
      (∀ e, e ∉ l → Y.np e = X.np e ∧ Y.own e = X.own e) ∧
      (setOwn = false → Y.own = X.own) ∧
      ∀ e ∈ l, Fine (Y.np e) ∧ (∀ r, r ∈ Y.np e ↔ ∃ u ∈ S.T.high e, r ∈ X.np u) ∧ (setOwn = true → Y.own e ∈ Y.np e)
  | [], X, _, _ => ⟨fun _ _ => ⟨rfl, rfl⟩, fun _ => rfl, by simp⟩
  | x :: l, X, hl, hX => by
    obtain ⟨hx, hxt⟩ := hl x (by simp)
    have hne := hc x hx (by omega)
    have hup : ∀ u ∈ S.T.high x, S.T.alive u = true ∧ t < u.ty := fun u hu =>
      ⟨highAlive P.reach hu, by have := ((reach_inv P.reach).1.highTy (fun h => h) hu).1 (by omega); omega⟩
    obtain ⟨a1, a2⟩ := highProcs_spec (np := X.np) hne X.res fun u hu => (hX u (hup u hu).1 (hup u hu).2).1
    have hnn : highProcs S X.np X.res x ≠ [] := by
      obtain ⟨u, hu⟩ := List.exists_mem_of_ne_nil _ hne
      obtain ⟨r, hr⟩ := List.exists_mem_of_ne_nil _ (hX u (hup u hu).1 (hup u hu).2).2
      exact List.ne_nil_of_mem ((a2 r).2 ⟨u, hu, hr⟩)
    have hone : ∃ k res, passOne me setOwn S X x = ⟨if setOwn then set1 X.own x k else X.own,
        set1 X.np x (highProcs S X.np X.res x), res⟩ ∧ k ∈ highProcs S X.np X.res x := by
      unfold passOne
      cases hh : highProcs S X.np X.res x with
      | nil => exact absurd hh hnn
      | cons a m => exact ⟨a, _, rfl, by simp⟩
    obtain ⟨k, res, h1, hk⟩ := hone
    rw [List.foldl_cons, h1]
    generalize hr : highProcs S X.np X.res x = hp at *
    have hX1 : ∀ e, S.T.alive e = true → t < e.ty → set1 X.np x hp e = X.np e := fun e _ h =>
      set1_ne _ _ (by rintro rfl; omega)
    obtain ⟨b1, b2, b3⟩ := passList_spec me setOwn P ht hc l ⟨if setOwn then set1 X.own x k else X.own, set1 X.np x hp, res⟩
      (fun e he => hl e (by simp [he])) (fun e he h => by
        show Fine (set1 X.np x hp e); rw [hX1 e he h]; exact hX e he h)
    refine ⟨fun e he => ?_, fun hf => ?_, fun e he => ?_⟩
    · rw [List.mem_cons, not_or] at he
      refine ⟨(b1 e he.2).1.trans (set1_ne _ _ he.1), (b1 e he.2).2.trans ?_⟩
      show (if setOwn then set1 X.own x k else X.own) e = _
      split
      · exact set1_ne _ _ he.1
      · rfl
    · rw [b2 hf]; show (if setOwn then set1 X.own x k else X.own) = _; rw [hf]; rfl
    · by_cases hel : e ∈ l
      · obtain ⟨c1, c2, c3⟩ := b3 e hel
        refine ⟨c1, fun r => (c2 r).trans ?_, c3⟩
        obtain ⟨he1, he2⟩ := hl e he
        constructor
        · rintro ⟨u, hu, hr⟩
          have h1 : t < u.ty := by have := ((reach_inv P.reach).1.highTy (fun h => h) hu).1 (by omega); omega
          have hr : r ∈ set1 X.np x hp u := hr
          rw [hX1 u (highAlive P.reach hu) h1] at hr
          exact ⟨u, hu, hr⟩
        · rintro ⟨u, hu, hr⟩
          have h1 : t < u.ty := by have := ((reach_inv P.reach).1.highTy (fun h => h) hu).1 (by omega); omega
          exact ⟨u, hu, by show r ∈ set1 X.np x hp u; rw [hX1 u (highAlive P.reach hu) h1]; exact hr⟩
      · have hex : e = x := (List.mem_cons.1 he).resolve_right hel
        subst hex
        obtain ⟨d1, d2⟩ := b1 e hel
        have d1' : _ = hp := d1.trans (set1_same _ _ _)
        rw [d1']
        refine ⟨⟨a1, hnn⟩, a2, fun hs => ?_⟩
        rw [d2]
        show (if setOwn then set1 X.own e k else X.own) e ∈ hp
        rw [hs, if_pos rfl, set1_same]
        exact hk

/-- Faces, edges and nodes get the processors of the cells they belong to. -/
theorem pass_spec (me : Nat) (setOwn : Bool) (P : Piece cn G S) (hc : ∀ e, S.T.alive e = true → e.ty < 3 → S.T.high e ≠ [])
    (X : Tags) (hX : ∀ e, S.T.alive e = true → e.ty = 3 → Fine (X.np e)) :
    let Y := pass me setOwn S X
    (∀ e, 3 ≤ e.ty → Y.np e = X.np e ∧ Y.own e = X.own e) ∧ (setOwn = false → Y.own = X.own) ∧
    (∀ e, S.T.alive e = true → Fine (Y.np e)) ∧
    (∀ e, S.T.alive e = true → e.ty < 3 → (∀ r, r ∈ Y.np e ↔ ∃ u ∈ S.T.high e, r ∈ Y.np u) ∧ (setOwn = true → Y.own e ∈ Y.np e)) := by
  unfold pass
  rw [List.foldl_append, List.foldl_append]
  have hm : ∀ t, ∀ e ∈ elemsOf S.T t, S.T.alive e = true ∧ e.ty = t := fun t e he => (mem_elemsOf P.reach t e).1 he
  have hnm : ∀ t e, e.ty ≠ t → e ∉ elemsOf S.T t := fun t e h he => h (hm t e he).2
  have hl3 : ∀ e, S.T.alive e = true → e.ty ≤ 3 := fun e he => tyLe P.reach he
  have hhi : ∀ e u, e.ty < 3 → u ∈ S.T.high e → u.ty = e.ty + 1 := fun e u h hu => ((reach_inv P.reach).1.highTy (fun h => h) hu).1 h
  obtain ⟨a1, a2, a3⟩ := passList_spec me setOwn P (t := 2) (by omega) hc (elemsOf S.T 2) X (hm 2)
    (fun e he h => hX e he (by have := hl3 e he; omega))
  generalize (elemsOf S.T 2).foldl (passOne me setOwn S) X = X2 at *
  have f2 : ∀ e, S.T.alive e = true → 1 < e.ty → Fine (X2.np e) := by
    intro e he h
    by_cases h2 : e.ty = 2
    · exact (a3 e ((mem_elemsOf P.reach 2 e).2 ⟨he, h2⟩)).1
    · rw [(a1 e (hnm 2 e h2)).1]; exact hX e he (by have := hl3 e he; omega)
  obtain ⟨b1, b2, b3⟩ := passList_spec me setOwn P (t := 1) (by omega) hc (elemsOf S.T 1) X2 (hm 1) f2
  generalize (elemsOf S.T 1).foldl (passOne me setOwn S) X2 = X1 at *
  have f1 : ∀ e, S.T.alive e = true → 0 < e.ty → Fine (X1.np e) := by
    intro e he h
    by_cases h2 : e.ty = 1
    · exact (b3 e ((mem_elemsOf P.reach 1 e).2 ⟨he, h2⟩)).1
    · rw [(b1 e (hnm 1 e h2)).1]; exact f2 e he (by omega)
  obtain ⟨c1, c2, c3⟩ := passList_spec me setOwn P (t := 0) (by omega) hc (elemsOf S.T 0) X1 (hm 0) f1
  generalize (elemsOf S.T 0).foldl (passOne me setOwn S) X1 = X0 at *
  have k2 : ∀ e, 1 < e.ty → X0.np e = X2.np e ∧ X0.own e = X2.own e := fun e h =>
    ⟨((c1 e (hnm 0 e (by omega))).1).trans (b1 e (hnm 1 e (by omega))).1,
      ((c1 e (hnm 0 e (by omega))).2).trans (b1 e (hnm 1 e (by omega))).2⟩
  refine ⟨fun e h => ?_, fun h => (c2 h).trans ((b2 h).trans (a2 h)), fun e he => ?_, fun e he h => ?_⟩
  · exact ⟨(k2 e (by omega)).1.trans (a1 e (hnm 2 e (by omega))).1, (k2 e (by omega)).2.trans (a1 e (hnm 2 e (by omega))).2⟩
  · by_cases h0 : e.ty = 0
    · exact (c3 e ((mem_elemsOf P.reach 0 e).2 ⟨he, h0⟩)).1
    · rw [(c1 e (hnm 0 e h0)).1]; exact f1 e he (by omega)
  · rcases (by omega : e.ty = 2 ∨ e.ty = 1 ∨ e.ty = 0) with h2 | h2 | h2
    · obtain ⟨d1, d2, d3⟩ := a3 e ((mem_elemsOf P.reach 2 e).2 ⟨he, h2⟩)
      rw [(k2 e (by omega)).1, (k2 e (by omega)).2]
      refine ⟨fun r => (d2 r).trans ?_, d3⟩
      constructor
      · rintro ⟨u, hu, hr⟩
        have := hhi e u h hu
        exact ⟨u, hu, by rw [(k2 u (by omega)).1, (a1 u (hnm 2 u (by omega))).1]; exact hr⟩
      · rintro ⟨u, hu, hr⟩
        have := hhi e u h hu
        rw [(k2 u (by omega)).1, (a1 u (hnm 2 u (by omega))).1] at hr
        exact ⟨u, hu, hr⟩
    · obtain ⟨d1, d2, d3⟩ := b3 e ((mem_elemsOf P.reach 1 e).2 ⟨he, h2⟩)
      rw [(c1 e (hnm 0 e (by omega))).1, (c1 e (hnm 0 e (by omega))).2]
      refine ⟨fun r => (d2 r).trans ?_, d3⟩
      constructor
      · rintro ⟨u, hu, hr⟩
        have := hhi e u h hu
        exact ⟨u, hu, by rw [(k2 u (by omega)).1]; exact hr⟩
      · rintro ⟨u, hu, hr⟩
        have := hhi e u h hu
        rw [(k2 u (by omega)).1] at hr
        exact ⟨u, hu, hr⟩
    · obtain ⟨d1, d2, d3⟩ := c3 e ((mem_elemsOf P.reach 0 e).2 ⟨he, h2⟩)
      refine ⟨fun r => (d2 r).trans ?_, d3⟩
      constructor
      · rintro ⟨u, hu, hr⟩
        have := hhi e u h hu
        exact ⟨u, hu, by rw [(c1 u (hnm 0 u (by omega))).1]; exact hr⟩
      · rintro ⟨u, hu, hr⟩
        have := hhi e u h hu
        rw [(c1 u (hnm 0 u (by omega))).1] at hr
        exact ⟨u, hu, hr⟩

/-- The same, by cells. -/
theorem up_cells (P : Piece cn G S) {np : El → List Nat}
    (h : ∀ e, S.T.alive e = true → e.ty < 3 → ∀ r, r ∈ np e ↔ ∃ u ∈ S.T.high e, r ∈ np u) {e : El} (he : S.T.alive e = true) (r : Nat) :
    r ∈ np e ↔ ∃ c, S.T.alive c = true ∧ c.ty = 3 ∧ Part false G (name S.num c) (name S.num e) ∧ r ∈ np c := by
  have I := (reach_inv P.reach).1
  constructor
  · have : ∀ k, ∀ e, S.T.alive e = true → 3 - e.ty = k → r ∈ np e →
        ∃ c, S.T.alive c = true ∧ c.ty = 3 ∧ Part false G (name S.num c) (name S.num e) ∧ r ∈ np c := by
      intro k
      induction k with
      | zero =>
        intro e he hk hr
        have := tyLe P.reach he
        exact ⟨e, he, by omega, .self, hr⟩
      | succ k ih =>
        intro e he hk hr
        obtain ⟨u, hu, hr'⟩ := (h e he (by omega) r).1 hr
        have hut := (I.highTy (fun h => h) hu).1 (show e.ty < 3 by omega)
        have hua := highAlive P.reach hu
        obtain ⟨c, c1, c2, c3, c4⟩ := ih u hua (by omega) hr'
        refine ⟨c, c1, c2, .low c3 (show 0 < u.ty by omega) ?_, c4⟩
        exact (P.fits.low u hua (by omega)).mem_iff.1 (List.mem_map_of_mem ((I.mem (fun h => h)).2 hu))
    exact this _ e he rfl
  · rintro ⟨c, hc, h3, hp, hr⟩
    have : ∀ g, Part false G (name S.num c) g → ∃ x, S.T.alive x = true ∧ name S.num x = g ∧ r ∈ np x := by
      intro g hg
      induction hg with
      | self => exact ⟨c, hc, rfl, hr⟩
      | low _ h0 hk ih =>
        obtain ⟨y, hy, hyn, hyr⟩ := ih
        subst hyn
        have h0 : 0 < y.ty := h0
        obtain ⟨x, hx, hxn⟩ := piece_low P hy h0 hk
        have hxa := lowAlive P.reach hx
        have hxt := lowTy P.reach h0 hx
        have := tyLe P.reach hy
        exact ⟨x, hxa, hxn, (h x hxa (by omega) r).2 ⟨y, (I.mem (fun h => h)).1 hx, hyr⟩⟩
      | nodes _ _ hcn => cases hcn
    obtain ⟨x, hx, hxn, hxr⟩ := this _ hp
    rw [P.fits.inj x e hx he hxn] at hxr
    exact hxr

end Verif.Migrate
