import Verif.Split.CellsSpec
import Verif.Split.CellProps

/-! The state after a call of `UniteCells`. -/

namespace Verif.Split
open Verif.Topology Verif.EdgeLoop

variable {T T' : Topo} {flip : Topo → El → Bool} {unite : List El}

/-! ## Lists -/

theorem visited_count : ∀ {unite : List El}, (∀ c ∈ unite, (facesOf T c).Nodup) → ∀ f : El,
    (visited T unite).count f = visits T unite f
  | [], _, f => rfl
  | c :: cs, h, f => by
    have ih := visited_count (unite := cs) (fun c hc => h c (by simp [hc])) f
    have : visited T (c :: cs) = facesOf T c ++ visited T cs := rfl
    rw [this, List.count_append, ih]
    unfold visits
    rw [List.countP_cons, Nat.add_comm]
    congr 1
    by_cases hf : f ∈ facesOf T c
    · rw [List.count_eq_one_of_mem (h c (by simp)) hf]; simp [hf]
    · rw [List.count_eq_zero.2 hf]; simp [hf]

theorem keyInsert_sorted {n : El} : ∀ {l : List El}, (∀ x ∈ n :: l, ∀ y ∈ n :: l, x.ty = y.ty) →
    l.Pairwise (fun a b => a.id < b.id) → (keyInsert n l).Pairwise (fun a b => a.id < b.id)
  | [], _, _ => by simp [keyInsert]
  | x :: xs, ht, h => by
    unfold keyInsert
    have hx := List.pairwise_cons.1 h
    split
    · next hlt =>
      refine List.pairwise_cons.2 ⟨fun y hy => ?_, h⟩
      rcases List.mem_cons.1 hy with rfl | hy
      · exact hlt
      · exact Nat.lt_trans hlt (hx.1 y hy)
    next hnl =>
    split
    · exact h
    next hne =>
    refine List.pairwise_cons.2 ⟨fun y hy => ?_, keyInsert_sorted (fun a ha b hb => ht a ?_ b ?_) hx.2⟩
    · rcases (mem_keyInsert xs).1 hy with rfl | hy
      · have hty := ht y (by simp) x (by simp)
        refine Nat.lt_of_le_of_ne (Nat.le_of_not_lt hnl) fun hid => hne ?_
        cases x; cases y
        simp only at hid hty
        rw [hid, hty]
      · exact hx.1 y hy
    · rcases List.mem_cons.1 ha with rfl | ha <;> simp [*]
    · rcases List.mem_cons.1 hb with rfl | hb <;> simp [*]

theorem keys_nodup {t : Nat} {l : List El} (h : ∀ x ∈ l, x.ty = t) : (keys l).Nodup := by
  have : ∀ (l m : List El), (∀ x ∈ l, x.ty = t) → (∀ x ∈ m, x.ty = t) → m.Pairwise (fun a b => a.id < b.id) →
      (l.foldl (fun m n => keyInsert n m) m).Pairwise (fun a b => a.id < b.id) := by
    intro l
    induction l with
    | nil => intro m _ _ h; exact h
    | cons n ns ih =>
      intro m hl hm h
      rw [List.foldl_cons]
      refine ih _ (fun x hx => hl x (by simp [hx])) (fun x hx => ?_) (keyInsert_sorted ?_ h)
      · rcases (mem_keyInsert m).1 hx with rfl | hx
        · exact hl x (by simp)
        · exact hm x hx
      · have : ∀ x ∈ n :: m, x.ty = t := by
          intro x hx
          rcases List.mem_cons.1 hx with rfl | hx
          · exact hl x (by simp)
          · exact hm x hx
        intro x hx y hy
        rw [this x hx, this y hy]
  have := this l [] h (by simp) .nil
  unfold keys
  exact this.imp fun hlt => by rintro rfl; exact Nat.lt_irrefl _ hlt

theorem mem_visited {f : El} : f ∈ visited T unite ↔ ∃ c ∈ unite, f ∈ facesOf T c := List.mem_flatMap

theorem mem_gather {xs : List El} {y : El} : y ∈ gather T xs ↔ ∃ x ∈ xs, y ∈ T.low x ∧ T.hid y = false := by
  have : ∀ (xs acc : List El), y ∈ xs.foldl (fun acc x => T.collect acc (T.low x)) acc ↔
      y ∈ acc ∨ ∃ x ∈ xs, y ∈ T.low x ∧ T.hid y = false := by
    intro xs
    induction xs with
    | nil => simp
    | cons x xs ih =>
      intro acc
      rw [List.foldl_cons, ih, mem_collect]
      simp only [List.mem_cons, exists_eq_or_imp, or_assoc]
  rw [gather, this]; simp

theorem nodup_gather (xs : List El) : (gather T xs).Nodup := by
  have : ∀ (xs acc : List El), acc.Nodup → (xs.foldl (fun acc x => T.collect acc (T.low x)) acc).Nodup := by
    intro xs
    induction xs with
    | nil => intro acc h; exact h
    | cons x xs ih => intro acc h; rw [List.foldl_cons]; exact ih _ (nodup_collect _ _ h)
  exact this xs [] .nil

theorem mem_unused {rem xs : List El} {x : El} :
    x ∈ unused T rem xs ↔ x ∈ xs ∧ ∀ u ∈ T.high x, T.hid u = false → u ∈ rem := by
  unfold unused
  rw [List.mem_filter, List.all_eq_true]
  refine and_congr_right fun _ => ⟨fun h u hu hh => ?_, fun h u hu => ?_⟩
  · have := h u hu
    simpa [hh] using this
  · cases hh : T.hid u with
    | true => simp
    | false => simpa using h u hu hh

theorem mem_facesOf {x f : El} : f ∈ facesOf T x ↔ f ∈ T.low x ∧ T.hid f = false := by simp [facesOf]

theorem mem_cellsOf' {x f : El} : f ∈ T.cellsOf x ↔ f ∈ T.high x ∧ T.hid f = false := by simp [Topo.cellsOf]

section
variable (A : UniteArgs T unite)
include A

theorem mem_outerFaces {f : El} : f ∈ outerFaces T unite ↔ visits T unite f = 1 := by
  unfold outerFaces
  rw [List.mem_filter, mem_keys, decide_eq_true_iff, visited_count A.once, ← List.count_pos_iff, visited_count A.once]
  omega

theorem mem_innerFaces {f : El} : f ∈ innerFaces T unite ↔ FaceVanish T unite f := by
  unfold innerFaces FaceVanish
  rw [List.mem_filter, mem_keys, decide_eq_true_iff, visited_count A.once, ← List.count_pos_iff, visited_count A.once]
  omega

theorem mem_remEdges {e : El} : e ∈ remEdges T unite ↔ EdgeVanish T unite e := by
  unfold remEdges EdgeVanish
  rw [mem_unused, mem_gather]
  simp only [mem_innerFaces A]
  refine and_congr_left fun _ => exists_congr fun f => and_congr_right fun _ => ?_
  unfold edgesOf
  simp

theorem mem_remNodes {n : El} : n ∈ remNodes T unite ↔ NodeVanish T unite n := by
  unfold remNodes NodeVanish
  rw [mem_unused, mem_gather]
  simp only [mem_remEdges A, mem_gather, mem_innerFaces A]
  refine and_congr_left fun _ => ⟨?_, ?_⟩
  · rintro ⟨e, ⟨f, h1, h2, h3⟩, h4, h5⟩
    exact ⟨f, e, h1, by simp [edgesOf, h2, h3], h4, h5⟩
  · rintro ⟨f, e, h1, h2, h4, h5⟩
    simp only [edgesOf, List.mem_filter, Bool.not_eq_true'] at h2
    exact ⟨e, ⟨f, h1, h2.1, h2.2⟩, h4, h5⟩

theorem visits_pos {f : El} (h : 0 < visits T unite f) : ∃ c ∈ unite, f ∈ facesOf T c := by
  obtain ⟨c, h1, h2⟩ := List.countP_pos_iff.1 h
  exact ⟨c, h1, by simpa using h2⟩

/-- The cells of an inner face are united. -/
theorem cells_of_inner (I : Inv T (fun _ => False)) {f c : El} (h : FaceVanish T unite f) (hc : c ∈ T.cellsOf f) : c ∈ unite := by
  by_contra hn
  have hsub : (unite.filter fun c => decide (f ∈ facesOf T c)) ⊆ T.cellsOf f := by
    intro d hd
    obtain ⟨h1, h2⟩ := List.mem_filter.1 hd
    have h2 : f ∈ facesOf T d := by simpa using h2
    exact mem_cellsOf'.2 ⟨(I.mem (fun h => h)).1 (mem_facesOf.1 h2).1, (A.cell d h1).2.2⟩
  have hlen : 2 ≤ (unite.filter fun c => decide (f ∈ facesOf T c)).length := by
    rw [← List.countP_eq_length_filter]; exact h
  obtain ⟨d, hd, hfd⟩ := visits_pos A (Nat.lt_of_lt_of_le Nat.zero_lt_two h)
  have h2 := A.two d hd f hfd
  have hnd : (c :: unite.filter fun c => decide (f ∈ facesOf T c)).Nodup :=
    List.nodup_cons.2 ⟨fun hm => hn (List.mem_filter.1 hm).1, A.nodup.filter _⟩
  have := (List.subperm_of_subset hnd (List.cons_subset.2 ⟨hc, hsub⟩)).length_le
  rw [List.length_cons] at this
  omega

end

/-! ## Removals -/

/-- The visible elements of the list `R` are removed. -/
structure Cut (T : Topo) (R : List El) (T' : Topo) : Prop where
  inv : Inv T' (fun _ => False)
  cn : T'.cn = T.cn
  hide : T'.hide = T.hide
  mono : ∀ x, T'.alive x = true → T.alive x = true
  vis : ∀ x, Visible T' x ↔ Visible T x ∧ x ∉ R
  keep : ∀ x, T.alive x = true → x ∉ R → T'.alive x = true ∧ T'.hid x = T.hid x
  mem : ∀ x y, T'.alive x = true → (y ∈ T'.low x ↔ y ∈ T.low x ∧ T'.alive y = true)
  low : ∀ x, Visible T' x → (facesOf T' x).Perm ((facesOf T x).filter fun y => decide (y ∉ R))
  high : ∀ x, Visible T' x → (T'.cellsOf x).Perm ((T.cellsOf x).filter fun y => decide (y ∉ R))

theorem Cut.refl (I : Inv T (fun _ => False)) : Cut T [] T :=
  ⟨I, rfl, rfl, fun _ h => h, by simp, fun x h _ => ⟨h, rfl⟩, fun x y _ => ⟨fun h => ⟨h, (I.lowLive h).1⟩, fun h => h.1⟩,
    by simp, by simp⟩

theorem filter_notMem (l R R' : List El) : ((l.filter fun y => decide (y ∉ R)).filter fun y => decide (y ∉ R')) =
    l.filter fun y => decide (y ∉ R ++ R') := by
  rw [List.filter_filter]
  refine List.filter_congr fun y _ => ?_
  rw [Bool.eq_iff_iff]
  simp only [Bool.and_eq_true, decide_eq_true_iff, List.mem_append, not_or]
  tauto

theorem Cut.trans {T1 T2 : Topo} {R R' : List El} (h : Cut T R T1) (h' : Cut T1 R' T2) : Cut T (R ++ R') T2 where
  inv := h'.inv
  cn := h'.cn.trans h.cn
  hide := h'.hide.trans h.hide
  mono x hx := h.mono x (h'.mono x hx)
  vis x := by rw [h'.vis, h.vis, List.mem_append, not_or, and_assoc]
  keep x h1 h2 := by
    rw [List.mem_append, not_or] at h2
    obtain ⟨k1, k2⟩ := h.keep x h1 h2.1
    obtain ⟨k3, k4⟩ := h'.keep x k1 h2.2
    exact ⟨k3, k4.trans k2⟩
  mem x y hx := by
    rw [h'.mem x y hx, h.mem x y (h'.mono x hx), and_assoc]
    exact and_congr_right fun _ => ⟨fun q => q.2, fun q => ⟨h'.mono y q, q⟩⟩
  low x hx := by
    rw [← filter_notMem]
    exact (h'.low x hx).trans ((h.low x ((h'.vis x).1 hx).1).filter _)
  high x hx := by
    rw [← filter_notMem]
    exact (h'.high x hx).trans ((h.high x ((h'.vis x).1 hx).1).filter _)

theorem above_top {x y : El} (h : x.ty < 3 → T.high x = []) : Above T x y ↔ y = x := by
  constructor
  · intro a
    induction a with
    | refl => rfl
    | step _ ht hm ih =>
      rw [ih] at ht hm
      rw [h ht] at hm
      cases hm
  · rintro rfl; exact .refl

theorem remove_cut {x : El} (I : Inv T (fun _ => False)) (ha : T.alive x = true) (hx : x.ty < 3 → T.cellsOf x = []) :
    ∃ T', remove flip T x = some T' ∧ Cut T [x] T' ∧ ∀ {cn : Bool}, Reach cn T → Reach cn T' := by
  unfold remove
  cases hh : T.hide with
  | true =>
    rw [if_pos rfl]
    obtain ⟨T', e, P, hi, -⟩ := hideEl_spec (flip := flip) I ha
    have hv : ∀ y, T'.hid y = true ↔ T.hid y = true ∨ y = x := by
      intro y
      unfold Topo.hid
      rw [P.hide, hh, Bool.true_and, Bool.true_and]
      exact hi y
    have hvf : ∀ y, T'.hid y = false ↔ T.hid y = false ∧ y ≠ x := by
      intro y
      rw [← Bool.not_eq_true, hv, not_or, Bool.not_eq_true]
    have hfil : ∀ l l' : List El, l'.Perm l → (l'.filter fun y => !T'.hid y).Perm
        ((l.filter fun y => !T.hid y).filter fun y => decide (y ∉ [x])) := by
      intro l l' hp
      rw [List.filter_filter]
      have : (fun y => !T'.hid y) = fun y => decide (y ∉ [x]) && !T.hid y := by
        funext y
        rw [Bool.eq_iff_iff]
        have := hvf y
        simp only [Bool.and_eq_true, decide_eq_true_iff, List.mem_singleton, Bool.not_eq_true', this]
        tauto
      rw [this]
      exact hp.filter _
    refine ⟨T', e, ⟨?_, P.cn, P.hide, fun y hy => by rwa [P.alive] at hy, fun y => ?_, fun y h1 h2 => ⟨by rw [P.alive]; exact h1, ?_⟩,
      fun y z _ => by rw [(P.low y).mem_iff, P.alive]; exact ⟨fun h => ⟨h, (I.lowLive h).1⟩, fun h => h.1⟩,
      fun y _ => hfil _ _ (P.low y), fun y _ => hfil _ _ (P.high y)⟩, fun r => ?_⟩
    · refine I.permH P fun y hy => ?_
      cases h2 : T'.hidden y with
      | false => rfl
      | true =>
        rcases (hi y).1 h2 with h2 | rfl
        · rw [(I.dead y hy).2.2] at h2; cases h2
        · rw [ha] at hy; cases hy
    · unfold Visible
      rw [P.alive, hvf, List.mem_singleton, and_assoc]
    · rw [List.mem_singleton] at h2
      rw [Bool.eq_iff_iff, hv]
      simp [h2]
    · exact .hideOp flip x r (by unfold Topo.hideOp; rw [if_pos hh]; exact e)
  | false =>
    rw [if_neg (by simp)]
    have hnil : x.ty < 3 → T.high x = [] := by
      intro h3
      have := hx h3
      unfold Topo.cellsOf at this
      rw [List.filter_eq_self.2 (fun y _ => by unfold Topo.hid; rw [hh]; rfl)] at this
      exact this
    obtain ⟨T', e, R⟩ := delete_spec (flip := flip) 5 T _ x I hh ha (fun _ h => h.elim) (by omega)
    have hal : ∀ y, T'.alive y = true ↔ T.alive y = true ∧ y ≠ x := by
      intro y
      rw [R.alive, above_top hnil]
    have hv : ∀ y, T.hid y = false := fun y => by unfold Topo.hid; rw [hh]; rfl
    have hv' : ∀ y, T'.hid y = false := fun y => by unfold Topo.hid; rw [R.hide, hh]; rfl
    have hfil : ∀ l l' : List El, l'.Perm (l.filter T'.alive) → (∀ y ∈ l, T.alive y = true) → (l'.filter fun y => !T'.hid y).Perm
        ((l.filter fun y => !T.hid y).filter fun y => decide (y ∉ [x])) := by
      intro l l' hp hl
      have k1 : (l'.filter fun y => !T'.hid y) = l' := List.filter_eq_self.2 fun y _ => by rw [hv']; rfl
      have k2 : (l.filter fun y => !T.hid y) = l := List.filter_eq_self.2 fun y _ => by rw [hv]; rfl
      rw [k1, k2]
      have : l.filter T'.alive = l.filter fun y => decide (y ∉ [x]) := by
        refine List.filter_congr fun y hy => ?_
        rw [Bool.eq_iff_iff, hal]
        simp [hl y hy]
      rwa [← this]
    refine ⟨T', e, ⟨R.inv, R.cn, R.hide, fun y hy => ((hal y).1 hy).1, fun y => ?_, fun y h1 h2 => ⟨?_, by rw [hv, hv']⟩,
      fun y z hy => by rw [(R.low y hy).mem_iff, List.mem_filter],
      fun y hy => hfil _ _ (R.low y hy.1) fun z hz => (I.lowLive hz).1,
      fun y hy => hfil _ _ (R.high y hy.1 (fun h => h)) fun z hz => (I.highLive (fun h => h) hz).2⟩, fun r => .delete flip x r ha e⟩
    · unfold Visible
      rw [hal, hv, hv', List.mem_singleton]
      simp
    · exact (hal y).2 ⟨h1, by simpa using h2⟩

/-- A list of elements without visible upper elements. -/
theorem removes_cut : ∀ (xs : List El) (T : Topo), Inv T (fun _ => False) → xs.Nodup → (∀ x ∈ xs, Visible T x) →
    (∀ x ∈ xs, x.ty < 3 → T.cellsOf x = []) → ∃ T', forEach (remove flip) xs T = some T' ∧ Cut T xs T' ∧
      ∀ {cn : Bool}, Reach cn T → Reach cn T'
  | [], T, I, _, _, _ => ⟨T, rfl, Cut.refl I, fun r => r⟩
  | x :: xs, T, I, hnd, hv, hc => by
    obtain ⟨T1, e1, C1, r1⟩ := remove_cut (flip := flip) I (hv x (by simp)).1 (hc x (by simp))
    obtain ⟨hx, hxs⟩ := List.nodup_cons.1 hnd
    have hne : ∀ y ∈ xs, y ∉ [x] := fun y hy => by simp; rintro rfl; exact hx hy
    have hv1 : ∀ y ∈ xs, Visible T1 y := fun y hy => (C1.vis y).2 ⟨hv y (by simp [hy]), hne y hy⟩
    obtain ⟨T2, e2, C2, r2⟩ := removes_cut xs T1 C1.inv hxs hv1 (fun y hy h3 => by
      have := C1.high y (hv1 y hy)
      rw [hc y (by simp [hy]) h3] at this
      exact this.eq_nil)
    exact ⟨T2, by unfold forEach; rw [e1]; exact e2, C1.trans C2, fun r => r2 (r1 r)⟩

theorem removeNodes_some : ∀ (xs : List El) (T T' : Topo), forEach (removeNode flip) xs T = some T' →
    forEach (remove flip) xs T = some T'
  | [], T, T', h => h
  | x :: xs, T, T', h => by
    unfold forEach at h ⊢
    split at h
    · cases h
    next T1 e1 =>
    unfold removeNode at e1
    split at e1
    · cases e1
    rw [e1]
    exact removeNodes_some xs T1 T' h

/-- The assertion holds if no visible cell uses the nodes. -/
theorem removeNodes_total : ∀ (xs : List El) (T : Topo), Inv T (fun _ => False) → xs.Nodup → (∀ x ∈ xs, Visible T x) →
    (∀ x ∈ xs, x.ty < 3 → T.cellsOf x = []) → (∀ x ∈ xs, facesOf T x = []) → ∃ T', forEach (removeNode flip) xs T = some T'
  | [], T, I, _, _, _, _ => ⟨T, rfl⟩
  | x :: xs, T, I, hnd, hv, hc, hl => by
    obtain ⟨T1, e1, C1, -⟩ := remove_cut (flip := flip) I (hv x (by simp)).1 (hc x (by simp))
    obtain ⟨hx, hxs⟩ := List.nodup_cons.1 hnd
    have hne : ∀ y ∈ xs, y ∉ [x] := fun y hy => by simp; rintro rfl; exact hx hy
    have hv1 : ∀ y ∈ xs, Visible T1 y := fun y hy => (C1.vis y).2 ⟨hv y (by simp [hy]), hne y hy⟩
    obtain ⟨T2, e2⟩ := removeNodes_total xs T1 C1.inv hxs hv1 (fun y hy h3 => by
      have := C1.high y (hv1 y hy)
      rw [hc y (by simp [hy]) h3] at this
      exact this.eq_nil) (fun y hy => by
      have := C1.low y (hv1 y hy)
      rw [hl y (by simp [hy])] at this
      exact this.eq_nil)
    have e0 : removeNode flip T x = some T1 := by
      unfold removeNode
      rw [if_neg]
      · exact e1
      · rintro ⟨-, h⟩
        obtain ⟨c, h1, h2⟩ := List.any_eq_true.1 h
        have : c ∈ facesOf T x := List.mem_filter.2 ⟨h1, h2⟩
        rw [hl x (by simp)] at this
        cases this
    exact ⟨T2, by unfold forEach; rw [e0]; exact e2⟩

/-! ## All removals -/

section
variable (I : Inv T (fun _ => False)) (A : UniteArgs T unite)
include I A

theorem FaceVanish.ok {f : El} (h : FaceVanish T unite f) : f.ty = 2 ∧ Visible T f := by
  obtain ⟨c, hc, hf⟩ := visits_pos A (Nat.lt_of_lt_of_le Nat.zero_lt_two h)
  obtain ⟨h1, h2⟩ := mem_facesOf.1 hf
  have h3 := (A.cell c hc).1
  have := (I.lowTy c f h1).1 (by omega)
  exact ⟨by omega, (I.lowLive h1).1, h2⟩

theorem EdgeVanish.ok {e : El} (h : EdgeVanish T unite e) : e.ty = 1 ∧ Visible T e := by
  obtain ⟨⟨f, h1, h2⟩, -⟩ := h
  obtain ⟨h2, h3⟩ := mem_facesOf.1 h2
  have h4 := (FaceVanish.ok I A h1).1
  have := (I.lowTy f e h2).1 (by omega)
  exact ⟨by omega, (I.lowLive h2).1, h3⟩

theorem NodeVanish.ok {n : El} (h : NodeVanish T unite n) : n.ty = 0 ∧ Visible T n := by
  obtain ⟨⟨f, e, h1, h2, h5, h6⟩, -⟩ := h
  obtain ⟨h2, h3⟩ := mem_facesOf.1 h2
  have h4 := (FaceVanish.ok I A h1).1
  have := (I.lowTy f e h2).1 (by omega)
  have := (I.lowTy e n h5).1 (by omega)
  exact ⟨by omega, (I.lowLive h5).1, h6⟩

theorem nodup_inner : (innerFaces T unite).Nodup ∧ (outerFaces T unite).Nodup := by
  have : (keys (visited T unite)).Nodup := keys_nodup (t := 2) fun f hf => by
    obtain ⟨c, hc, hf⟩ := mem_visited.1 hf
    have h3 := (A.cell c hc).1
    have := (I.lowTy c f (mem_facesOf.1 hf).1).1 (by omega)
    omega
  exact ⟨this.filter _, this.filter _⟩

/-- The elements that are removed. -/
def removedOf (T : Topo) (unite : List El) : List El :=
  ((unite ++ innerFaces T unite) ++ remEdges T unite) ++ remNodes T unite

omit I in
theorem mem_removedOf {x : El} : x ∈ removedOf T unite ↔ Vanish T unite x := by
  unfold removedOf Vanish
  rw [List.mem_append, List.mem_append, List.mem_append, mem_innerFaces A, mem_remEdges A, mem_remNodes A, or_assoc, or_assoc]

/-- The states after cells, faces and edges are removed. -/
theorem three_cut : ∃ T1 T2 T3, forEach (remove flip) unite T = some T1 ∧
    forEach (remove flip) (innerFaces T unite) T1 = some T2 ∧ forEach (remove flip) (remEdges T unite) T2 = some T3 ∧
    Cut T ((unite ++ innerFaces T unite) ++ remEdges T unite) T3 ∧
    (∀ n ∈ remNodes T unite, Visible T3 n ∧ T3.cellsOf n = []) ∧ ∀ {cn : Bool}, Reach cn T → Reach cn T3 := by
  obtain ⟨T1, e1, C1, r1⟩ := removes_cut (flip := flip) unite T I A.nodup (fun c hc => (A.cell c hc).2)
    (fun c hc h => by have := (A.cell c hc).1; omega)
  have v1 : ∀ f ∈ innerFaces T unite, Visible T1 f := fun f hf => by
    obtain ⟨h1, h2⟩ := FaceVanish.ok I A ((mem_innerFaces A).1 hf)
    exact (C1.vis f).2 ⟨h2, fun hm => by have := (A.cell f hm).1; omega⟩
  obtain ⟨T2, e2, C2, r2⟩ := removes_cut (flip := flip) (innerFaces T unite) T1 C1.inv (nodup_inner I A).1 v1 (fun f hf _ => by
    have := C1.high f (v1 f hf)
    rw [List.filter_eq_nil_iff.2] at this
    · exact this.eq_nil
    · intro c hc
      simpa using cells_of_inner A I ((mem_innerFaces A).1 hf) hc)
  have C12 := C1.trans C2
  have v2 : ∀ e ∈ remEdges T unite, Visible T2 e := fun e he => by
    obtain ⟨h1, h2⟩ := EdgeVanish.ok I A ((mem_remEdges A).1 he)
    refine (C12.vis e).2 ⟨h2, fun hm => ?_⟩
    rcases List.mem_append.1 hm with hm | hm
    · have := (A.cell e hm).1; omega
    · have := (FaceVanish.ok I A ((mem_innerFaces A).1 hm)).1; omega
  obtain ⟨T3, e3, C3, r3⟩ := removes_cut (flip := flip) (remEdges T unite) T2 C2.inv ((nodup_gather _).filter _) v2 (fun e he _ => by
    have := C12.high e (v2 e he)
    rw [List.filter_eq_nil_iff.2] at this
    · exact this.eq_nil
    · intro f hf
      obtain ⟨h1, h2⟩ := mem_cellsOf'.1 hf
      have := (mem_innerFaces A).2 (((mem_remEdges A).1 he).2 f h1 h2)
      simp [this])
  have C := C12.trans C3
  refine ⟨T1, T2, T3, e1, e2, e3, C, fun n hn => ?_, fun r => r3 (r2 (r1 r))⟩
  have v3 : Visible T3 n := by
    obtain ⟨h1, h2⟩ := NodeVanish.ok I A ((mem_remNodes A).1 hn)
    refine (C.vis n).2 ⟨h2, fun hm => ?_⟩
    rcases List.mem_append.1 hm with hm | hm
    · rcases List.mem_append.1 hm with hm | hm
      · have := (A.cell n hm).1; omega
      · have := (FaceVanish.ok I A ((mem_innerFaces A).1 hm)).1; omega
    · have := (EdgeVanish.ok I A ((mem_remEdges A).1 hm)).1; omega
  refine ⟨v3, ?_⟩
  have := C.high n v3
  rw [List.filter_eq_nil_iff.2] at this
  · exact this.eq_nil
  · intro e he
    obtain ⟨h1, h2⟩ := mem_cellsOf'.1 he
    have := (mem_remEdges A).2 (((mem_remNodes A).1 hn).2 e h1 h2)
    simp [this]

theorem removeAll_cut {T4 : Topo}
    (h : removeAll flip T unite (innerFaces T unite) (remEdges T unite) (remNodes T unite) = some T4) :
    Cut T (removedOf T unite) T4 ∧ ∀ {cn : Bool}, Reach cn T → Reach cn T4 := by
  obtain ⟨T1, T2, T3, e1, e2, e3, C, hn, r⟩ := three_cut (flip := flip) I A
  unfold removeAll at h
  rw [e1] at h
  simp only [e2, e3] at h
  obtain ⟨T4', e4, C4, r4⟩ := removes_cut (flip := flip) (remNodes T unite) T3 C.inv ((nodup_gather _).filter _)
    (fun n hm => (hn n hm).1) (fun n hm _ => (hn n hm).2)
  rw [removeNodes_some _ _ _ h] at e4
  cases e4
  exact ⟨C.trans C4, fun q => r4 (r q)⟩

theorem removeAll_total (hN : NodesOfFaces T) :
    ∃ T4, removeAll flip T unite (innerFaces T unite) (remEdges T unite) (remNodes T unite) = some T4 := by
  obtain ⟨T1, T2, T3, e1, e2, e3, C, hn, r⟩ := three_cut (flip := flip) I A
  unfold removeAll
  rw [e1]
  simp only [e2, e3]
  refine removeNodes_total (flip := flip) (remNodes T unite) T3 C.inv ((nodup_gather _).filter _)
    (fun n hm => (hn n hm).1) (fun n hm _ => (hn n hm).2) (fun n hm => ?_)
  have hv := (mem_remNodes A).1 hm
  have hty := (NodeVanish.ok I A hv).1
  have := C.low n (hn n hm).1
  rw [List.filter_eq_nil_iff.2] at this
  · exact this.eq_nil
  · intro c hc
    obtain ⟨h1, h2⟩ := mem_facesOf.1 hc
    have h3 := ((I.lowTy n c h1).2 hty).2
    obtain ⟨f, hf, e, he, hne⟩ := hN c n h3 ⟨(I.lowLive h1).1, h2⟩ ((I.mem (fun h => h)).1 h1)
    obtain ⟨q1, q2⟩ := mem_facesOf.1 he
    have he' := hv.2 e ((I.mem (fun h => h)).1 hne) q2
    obtain ⟨p1, p2⟩ := mem_facesOf.1 hf
    have hf' := he'.2 f ((I.mem (fun h => h)).1 q1) p2
    have := cells_of_inner A I hf' (mem_cellsOf'.2 ⟨(I.mem (fun h => h)).1 p1, h2⟩)
    simp [this]

end
end Verif.Split
