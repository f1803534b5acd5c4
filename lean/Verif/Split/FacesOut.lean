import Verif.Split.FacesLemmas

/-! What a call of `UniteFaces` does. -/

namespace Verif.Split
open Verif.Topology Verif.EdgeLoop

variable {cn : Bool} {T T' : Topo} {flip : Topo → El → Bool} {unite : List El} {dup : Bool} {prot : El → Bool} {id : Nat}

/-- The elements of the list `R` are removed, the other arrays lose these elements. -/
structure Cleared (T : Topo) (R : List El) (T' : Topo) : Prop where
  inv : Inv T' (fun _ => False)
  cn : T'.cn = T.cn
  hide : T'.hide = T.hide
  mono : ∀ x, T'.alive x = true → T.alive x = true
  keep : ∀ x, T.alive x = true → x ∉ R → T'.alive x = true ∧ T'.hid x = T.hid x
  gone : ∀ x ∈ R, ¬ Visible T' x
  low : ∀ x, x ∉ R → facesOf T' x = (facesOf T x).filter fun y => decide (y ∉ R)
  high : ∀ x, x ∉ R → T'.cellsOf x = (T.cellsOf x).filter fun y => decide (y ∉ R)
  sub : ∀ x y, x ∉ R → y ∈ T'.low x → y ∈ T.low x

theorem Cleared.vis {R : List El} (C : Cleared T R T') (x : El) : Visible T' x ↔ Visible T x ∧ x ∉ R := by
  constructor
  · intro h
    have hx : x ∉ R := fun hm => C.gone x hm h
    have ha := C.mono x h.1
    exact ⟨⟨ha, by rw [← (C.keep x ha hx).2]; exact h.2⟩, hx⟩
  · rintro ⟨h, hx⟩
    obtain ⟨k1, k2⟩ := C.keep x h.1 hx
    exact ⟨k1, by rw [k2]; exact h.2⟩

theorem hide_cleared (I : Inv T (fun _ => False)) {R : List El} (hh : T.hide = true) (ha : ∀ x ∈ R, T.alive x = true) :
    Cleared T R { T with hidden := fun x => if x ∈ R then true else T.hidden x } := by
  have hh' : ∀ x, Topo.hid { T with hidden := fun x => if x ∈ R then true else T.hidden x } x =
      if x ∈ R then true else T.hid x := by
    intro x
    unfold Topo.hid
    simp only [hh, Bool.true_and]
  have hf : ∀ l : List El, (l.filter fun y => !Topo.hid { T with hidden := fun x => if x ∈ R then true else T.hidden x } y) =
      (l.filter fun y => !T.hid y).filter fun y => decide (y ∉ R) := by
    intro l
    rw [List.filter_filter]
    refine List.filter_congr fun y _ => ?_
    rw [hh']
    split
    · next h => simp [h]
    · next h => simp [h]
  refine ⟨hiddens_inv I ha, rfl, rfl, fun _ h => h, fun x h hx => ⟨h, by rw [hh', if_neg hx]⟩, fun x hx h => ?_, fun x _ => hf _,
    fun x _ => hf _, fun _ _ _ hy => hy⟩
  have := h.2
  rw [hh', if_pos hx] at this
  cases this

theorem gone_cleared (I : Inv T (fun _ => False)) {R : List El} (hh : T.hide = false) (G : Topology.Gone T R T') : Cleared T R T' := by
  have h1 : ∀ x, T.hid x = false := hid_false hh
  have h2 : ∀ x, T'.hid x = false := hid_false (by rw [G.hide]; exact hh)
  have e1 : ∀ l : List El, (l.filter fun y => !T.hid y) = l := fun l => List.filter_eq_self.2 fun y _ => by simp [h1]
  have e2 : ∀ l : List El, (l.filter fun y => !T'.hid y) = l := fun l => List.filter_eq_self.2 fun y _ => by simp [h2]
  refine ⟨G.inv I, G.cn, G.hide, fun x h => ?_, fun x h hx => ?_, fun x hx h => ?_, fun x hx => ?_, fun x hx => ?_,
    fun x y hx hy => ?_⟩
  · rw [G.alive] at h
    split at h
    · cases h
    · exact h
  · rw [G.alive, if_neg hx, h1, h2]; exact ⟨h, rfl⟩
  · have := h.1
    rw [G.alive, if_pos hx] at this
    cases this
  · unfold facesOf
    rw [e1, e2, G.low, if_neg hx]
  · unfold Topo.cellsOf
    rw [e1, e2, G.high, if_neg hx]
  · rw [G.low, if_neg hx, List.mem_filter] at hy
    exact hy.1

/-- No visible face had an inner edge when it was removed. -/
theorem inner_clear : ∀ (l : List El) (T T' : Topo), Inv T (fun _ => False) → (∀ x ∈ l, x.ty = 1) →
    forEach (Topo.remInner flip) l T = some T' → ∀ e ∈ l, ∀ u ∈ T.high e, T.hid u = true
  | [], _, _, _, _, _, _, he, _, _ => by cases he
  | x :: xs, T, T', I, ht, h, e, he, u, hu => by
    unfold forEach at h
    split at h
    · cases h
    next T1 h1 =>
    have hx1 := ht x (by simp)
    have hhead : ∀ u ∈ T.high x, T.hid u = true := by
      intro u hu
      unfold Topo.remInner at h1
      split at h1
      · cases h1
      next hn =>
      cases hv : T.hid u with
      | true => rfl
      | false => exact absurd (List.any_eq_true.2 ⟨u, hu, by simp [hv]⟩) hn
    by_cases hex : e = x
    · subst hex; exact hhead u hu
    have he' : e ∈ xs := (List.mem_cons.1 he).resolve_left hex
    have het := ht e he
    have hut := (I.highTy (fun h => h) hu).1 (by omega)
    have hux : u ≠ x := by rintro rfl; omega
    cases hh : T.hide with
    | true =>
      obtain ⟨ha, rfl⟩ := remInner_hide hh (by omega) h1
      have := inner_clear xs _ T' (hidden_inv I ha true) (fun y hy => ht y (by simp [hy])) h e he' u hu
      unfold Topo.hid at this ⊢
      simpa [set1, hux] using this
    | false =>
      have G := remInner_gone I hx1 hh h1
      have hm : u ∈ T1.high e := by
        rw [G.high, if_neg (by simpa using hex)]
        exact List.mem_filter.2 ⟨hu, by simpa using hux⟩
      have := inner_clear xs T1 T' (G.inv I) (fun y hy => ht y (by simp [hy])) h e he' u hm
      rw [hid_false (by rw [G.hide]; exact hh)] at this
      cases this

/-- If the removals succeed, then no other visible face has an inner edge. -/
theorem remParts_clear {faces cells inner nodes : List El} (I : Inv T (fun _ => False))
    (hF : ∀ x ∈ faces, x.ty = 2) (hnd : faces.Nodup) (hC : ∀ c, c ∈ cells ↔ ∃ f ∈ faces, c ∈ T.cellsOf f)
    (hE : ∀ x ∈ inner, x.ty = 1) (h : T.remParts flip faces cells inner nodes = some T') :
    ∀ e ∈ inner, ∀ u ∈ T.high e, T.hid u = false → u ∈ faces := by
  unfold Topo.remParts at h
  split at h
  · cases h
  next T1 h1 =>
  split at h
  · cases h
  next T2 h2 =>
  split at h
  · cases h
  next T3 h3 =>
  have h0 : T.remParts flip faces cells [] [] = some T2 := by
    unfold Topo.remParts
    rw [h1]; simp only; rw [h2]; rfl
  intro e he u hu hv
  by_contra hnf
  have het := hE e he
  have hef : e ∉ faces := fun hm => by have := hF e hm; omega
  rcases remParts_spec I hF hnd hC (by simp) (by simp) h0 with ⟨hh, ha, rfl⟩ | ⟨hh, G⟩
  · have := inner_clear inner _ T3 (hiddens_inv I ha) hE h3 e he u hu
    unfold Topo.hid at this hv
    simp only [List.append_nil, if_neg hnf] at this
    rw [hv] at this
    cases this
  · have := inner_clear inner T2 T3 (G.inv I) hE h3 e he u (by
      rw [G.high, if_neg (by simpa using hef)]
      exact List.mem_filter.2 ⟨hu, by simpa using hnf⟩)
    rw [hid_false (by rw [G.hide]; exact hh)] at this
    cases this

theorem mem_unitedCells {c : El} : c ∈ unitedCells T unite ↔ ∃ f ∈ unite, c ∈ T.cellsOf f := by
  unfold unitedCells
  suffices h : ∀ (l acc : List El), c ∈ l.foldl (fun acc f => T.collect acc (T.high f)) acc ↔
      c ∈ acc ∨ ∃ f ∈ l, c ∈ T.cellsOf f by simpa using h unite []
  intro l
  induction l with
  | nil => simp
  | cons x xs ih =>
    intro acc
    rw [List.foldl_cons, ih, mem_collect]
    simp only [List.mem_cons, exists_eq_or_imp, mem_cellsOf']
    tauto

theorem nodup_unitedCells : (unitedCells T unite).Nodup := by
  unfold unitedCells
  suffices h : ∀ (l acc : List El), acc.Nodup → (l.foldl (fun acc f => T.collect acc (T.high f)) acc).Nodup from
    h unite [] (by simp)
  intro l
  induction l with
  | nil => exact fun _ h => h
  | cons x xs ih => exact fun acc h => ih _ (collect_nodup _ _ h)

/-- The removed elements. -/
def absorbed (T : Topo) (unite : List El) : List El := unite ++ innerEdges T unite ++ innerCorners T unite

theorem mem_absorbed (A : FacesArgs T unite) {x : El} : x ∈ absorbed T unite ↔ Absorbed T unite x := by
  unfold absorbed Absorbed
  rw [List.mem_append, List.mem_append, mem_innerEdges A, mem_innerCorners A, or_assoc]

/-- The steps of a call that is not refused. -/
theorem uniteFaces_parts {r : El} (A : FacesArgs T unite) (h : uniteFaces flip T dup prot unite id = some (T', some r)) :
    ∃ es, unite ≠ [] ∧ (∀ x, Absorbed T unite x → prot x = false) ∧ (unitedCells T unite).length ≤ 2 ∧
      (∀ e, visits T unite e ≤ 2) ∧ orderEdges T unite = some es ∧
      T.uniteFacesRun flip dup unite (unitedCells T unite) (innerEdges T unite) (innerCorners T unite) es id = some (T', r) := by
  unfold uniteFaces at h
  split at h
  · cases h
  split at h
  · cases h
  next hne =>
  split at h
  · cases h
  next hp1 =>
  split at h
  · cases h
  next hc =>
  split at h
  · cases h
  next hv =>
  split at h
  · cases h
  next hp2 =>
  split at h
  · cases h
  next es ho =>
  split at h
  · cases h
  next T1 r1 hr =>
  cases h
  refine ⟨es, hne, fun x hx => ?_, by omega, fun e => Nat.le_of_not_lt fun hlt => ?_, ho, hr⟩
  · cases hpx : prot x with
    | false => rfl
    | true =>
      exfalso
      rcases hx with hx | hx | hx
      · exact hp1 (List.any_eq_true.2 ⟨x, hx, hpx⟩)
      · exact hp2 (List.any_eq_true.2 ⟨x, List.mem_append_left _ ((mem_innerEdges A).2 hx), hpx⟩)
      · exact hp2 (List.any_eq_true.2 ⟨x, List.mem_append_right _ ((mem_innerCorners A).2 hx), hpx⟩)
  · refine hv (List.any_eq_true.2 ⟨e, (mem_keys _).2 (List.count_pos_iff.1 ?_), decide_eq_true ?_⟩)
    · rw [visited_visits A]; omega
    · rw [visited_visits A]; exact hlt

theorem absorbed_ok (I : Inv T (fun _ => False)) (A : FacesArgs T unite) : (∀ e ∈ innerEdges T unite, e.ty = 1) ∧
    ∀ n ∈ innerCorners T unite, n.ty = 0 := by
  refine ⟨fun e he => (visits_ok I A (by rw [(mem_innerEdges A).1 he]; omega)).1, fun n hn => ?_⟩
  obtain ⟨⟨e, he, hne, -⟩, -⟩ := (mem_innerCorners A).1 hn
  have h1 := (visits_ok I A (by rw [he]; omega)).1
  have := (I.lowTy e n hne).1 (by omega)
  omega

theorem run_ok (I : Inv T (fun _ => False)) (A : FacesArgs T unite) {es : List El} (h2 : ∀ e, visits T unite e ≤ 2)
    (ho : orderEdges T unite = some es) :
    UniteFacesOk T unite (unitedCells T unite) (innerEdges T unite) (innerCorners T unite) es := by
  obtain ⟨-, hm, -⟩ := orderEdges_sound I A h2 ho
  refine ⟨fun f hf => (A.face f hf).1, A.nodup, fun c => mem_unitedCells, (absorbed_ok I A).1, (absorbed_ok I A).2, fun e he => ?_⟩
  have hv := (hm e).1 he
  obtain ⟨k1, k2⟩ := visits_ok I A (e := e) (by omega)
  exact ⟨k2.1, k1, fun hi => by have := (mem_innerEdges A).1 hi; omega⟩

/-- The state after a call. -/
structure FacesOut (T : Topo) (unite : List El) (r : El) (T' : Topo) : Prop where
  two : ∀ e, visits T unite e ≤ 2
  cellsLe : (unitedCells T unite).length ≤ 2
  clear : ∀ e, visits T unite e = 2 → ∀ u ∈ T.high e, T.hid u = false → u ∈ unite
  ty : r.ty = 2
  fresh : T.alive r = true → r ∈ unite
  run : ∃ es ns T1, Cleared T (absorbed T unite) T1 ∧ es.Nodup ∧ (∀ e, e ∈ es ↔ visits T unite e = 1) ∧ Loop T es ns ∧
    T1.alive r = false ∧ T'.cn = T.cn ∧ (∀ x, T'.alive x = true ↔ x = r ∨ T1.alive x = true) ∧ (∀ x, T'.hid x = T1.hid x) ∧
    (∀ x, T'.low x = if x = r then es else T1.low x ++ List.replicate ((unitedCells T unite).count x) r) ∧
    (∀ x, T'.high x = if x = r then unitedCells T unite else T1.high x ++ List.replicate (es.count x) r) ∧
    ∀ c ∈ unitedCells T unite, 4 ≤ (facesOf T' c).length

theorem faces_out (I : Inv T (fun _ => False)) (A : FacesArgs T unite) {r : El}
    (h : uniteFaces flip T false prot unite id = some (T', some r)) : FacesOut T unite r T' := by
  obtain ⟨es, hne, hp, hc, h2, ho, hr⟩ := uniteFaces_parts A h
  obtain ⟨s1, s2, ns, s3⟩ := orderEdges_sound I A h2 ho
  have U := run_ok I A h2 ho
  obtain ⟨T1, T2, new, h1, hcr, ht, h4⟩ := uniteFacesRun_parts hr
  have hes : es ≠ [] := by rintro rfl; have := s3.three; simp at this
  have C : Cleared T (absorbed T unite) T1 := by
    rcases remParts_spec I U.face U.nodup U.cellsOk U.innerOk U.nodesOk h1 with ⟨hh, ha, rfl⟩ | ⟨hh, G⟩
    · exact hide_cleared I hh ha
    · exact gone_cleared I hh G
  rcases createFace_cases hes hcr with ⟨-, hd, -, -⟩ | ⟨-, rfl, hd, -, -, rfl⟩
  · cases hd
  have hct : ∀ c ∈ unitedCells T unite, c.ty = 3 := by
    intro c hc
    obtain ⟨f, hf, hm⟩ := mem_unitedCells.1 hc
    have h2 := (A.face f hf).1
    have := (I.highTy (fun h => h) (mem_cellsOf'.1 hm).1).1 (by omega)
    omega
  obtain ⟨F, -, -, t3, t4⟩ := tieCells_spec _ _ T' (fun h => by have := hct _ h; simp at this) ht
  have hrc : (⟨2, id⟩ : El) ∉ unitedCells T unite := fun h => by have := hct _ h; simp at this
  have hre : (⟨2, id⟩ : El) ∉ es := fun h => by
    have := (s2 _).1 h
    have := (visits_ok I A (e := ⟨2, id⟩) (by omega)).1
    simp at this
  obtain ⟨d1, d2, d3⟩ := C.inv.dead _ hd
  refine ⟨h2, hc, fun e he u hu hv => ?_, rfl, fun ha => ?_, es, ns, T1, C, s1, s2, s3, hd, ?_, fun x => ?_, fun x => ?_, fun x => ?_,
    fun x => ?_, h4⟩
  · exact remParts_clear I U.face U.nodup U.cellsOk U.innerOk h1 e ((mem_innerEdges A).2 he) u hu hv
  · by_contra hn
    have : (⟨2, id⟩ : El) ∉ absorbed T unite := by
      rw [mem_absorbed A]
      rintro (q | q | q)
      · exact hn q
      · have := (visits_ok I A (e := ⟨2, id⟩) (by omega)).1
        simp at this
      · have := (absorbed_ok I A).2 _ ((mem_innerCorners A).2 q)
        simp at this
    rw [(C.keep _ ha this).1] at hd
    cases hd
  · exact F.cn.trans C.cn
  · rw [F.alive]
    show set1 T1.alive ⟨2, id⟩ true x = true ↔ _
    by_cases hx : x = ⟨2, id⟩
    · subst hx; simp [set1]
    · simp [set1, hx]
  · rw [F.hid]
    show (T1.hide && set1 T1.hidden ⟨2, id⟩ false x) = _
    unfold Topo.hid
    by_cases hx : x = ⟨2, id⟩
    · subst hx; rw [set1_same, d3]
    · rw [set1_ne _ _ hx]
  · rw [t3]
    by_cases hx : x = ⟨2, id⟩
    · subst hx
      simp [set1, List.count_eq_zero.2 hrc]
    · simp [set1, hx]
  · rw [t4]
    by_cases hx : x = ⟨2, id⟩
    · subst hx
      simp [Topo.tie, set1, List.count_eq_zero.2 hre]
    · simp [Topo.tie, set1, hx]

end Verif.Split
