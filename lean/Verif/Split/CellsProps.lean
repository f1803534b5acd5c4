import Verif.Split.CellsLemmas

/-!
# Property C89: uniting cells

`UniteCells` replaces cells by one cell.  `uniteCells flip T dup prot unite id nodes` is the call for the state `T`; the
result is the new state and the returned cell.  `prot` are the elements with the marker `del_protect`, `id` is the number
of the new cell and `nodes` are its nodes; `dup` is the topology check `DUPLICATE_CELL`, which is not set by default.
-/

namespace Verif.Split
open Verif.Topology Verif.EdgeLoop

variable {cn : Bool} {T T' : Topo} {flip : Topo → El → Bool} {dup : Bool} {prot : El → Bool} {unite nodes : List El} {id : Nat}
  {ret : Option El}

/-- The nodes of the new cell are nodes of its faces. -/
def NodesFrom (T : Topo) (unite nodes : List El) : Prop :=
  ∀ n ∈ nodes, ∃ f e, visits T unite f = 1 ∧ e ∈ edgesOf T f ∧ n ∈ T.low e

/-- C89: nothing happens if there are no cells or a protected element would have to be removed. -/
theorem C89_refuse (A : UniteArgs T unite) (h : uniteCells flip T dup prot unite id nodes = some (T', ret))
    (hp : unite = [] ∨ ∃ x, Vanish T unite x ∧ prot x = true) : T' = T ∧ ret = none := by
  unfold uniteCells at h
  split at h
  · cases h
  split at h
  · cases h; exact ⟨rfl, rfl⟩
  next hne =>
  split at h
  · cases h; exact ⟨rfl, rfl⟩
  next hc =>
  split at h
  · cases h; exact ⟨rfl, rfl⟩
  next hr =>
  exfalso
  rcases hp with hp | ⟨x, hx, hpx⟩
  · exact hne hp
  rcases List.mem_append.1 ((mem_removedOf A).2 hx) with hx | hx
  · rcases List.mem_append.1 hx with hx | hx
    · rcases List.mem_append.1 hx with hx | hx
      · exact hc (List.any_eq_true.2 ⟨x, hx, hpx⟩)
      · exact hr (List.any_eq_true.2 ⟨x, by simp [hx], hpx⟩)
    · exact hr (List.any_eq_true.2 ⟨x, by simp [hx], hpx⟩)
  · exact hr (List.any_eq_true.2 ⟨x, by simp [hx], hpx⟩)

section
variable (r : Reach cn T) (A : UniteArgs T unite) (hn : NodesFrom T unite nodes) (hne : unite ≠ [])
  (hp : ∀ x, Vanish T unite x → prot x = false)
include r A hn hne hp

omit hn hne hp in
/-- Edges and nodes of faces that stay do stay. -/
theorem stay_edge {f e : El} (hf : Visible T f) (hv : ¬ FaceVanish T unite f) (h2 : f.ty = 2) (he : e ∈ T.low f) :
    T.alive e = true ∧ e.ty = 1 ∧ ¬ Vanish T unite e := by
  have I := (reach_inv r).1
  have ht := (I.lowTy f e he).1 (by omega)
  refine ⟨(I.lowLive he).1, by omega, ?_⟩
  rintro (h | h | h | h)
  · have := (A.cell e h).1; omega
  · have := (FaceVanish.ok I A h).1; omega
  · exact hv (h.2 f ((I.mem (fun h => h)).1 he) hf.2)
  · have := (NodeVanish.ok I A h).1; omega

omit hn hne hp in
theorem stay_node {e n : El} (hE : Visible T e) (hv : ¬ EdgeVanish T unite e) (h2 : e.ty = 1) (hn : n ∈ T.low e) :
    T.alive n = true ∧ n.ty = 0 ∧ ¬ Vanish T unite n := by
  have I := (reach_inv r).1
  have ht := (I.lowTy e n hn).1 (by omega)
  refine ⟨(I.lowLive hn).1, by omega, ?_⟩
  rintro (h | h | h | h)
  · have := (A.cell n h).1; omega
  · have := (FaceVanish.ok I A h).1; omega
  · have := (EdgeVanish.ok I A h).1; omega
  · exact hv (h.2 e ((I.mem (fun h => h)).1 hn) hE.2)

omit hn hne hp in
theorem outer_ok {f : El} (h : visits T unite f = 1) : f.ty = 2 ∧ Visible T f ∧ ¬ FaceVanish T unite f ∧ ¬ Vanish T unite f := by
  have I := (reach_inv r).1
  obtain ⟨c, hc, hf⟩ := visits_pos A (Nat.lt_of_lt_of_eq Nat.zero_lt_one h.symm)
  obtain ⟨h1, h2⟩ := mem_facesOf.1 hf
  have h3 := (A.cell c hc).1
  have h4 := (I.lowTy c f h1).1 (by omega)
  have h5 : ¬ FaceVanish T unite f := fun hv => by unfold FaceVanish at hv; omega
  refine ⟨by omega, ⟨(I.lowLive h1).1, h2⟩, h5, ?_⟩
  rintro (h | h | h | h)
  · have := (A.cell f h).1; omega
  · exact h5 h
  · have := (EdgeVanish.ok I A h).1; omega
  · have := (NodeVanish.ok I A h).1; omega

theorem unite_out (h : uniteCells flip T dup prot unite id nodes = some (T', ret)) : ∃ T4 b,
    Cut T (removedOf T unite) T4 ∧ Reach cn T4 ∧ CreateArgs T4 3 (outerFaces T unite) nodes ∧
    T4.create dup 3 id (outerFaces T unite) nodes = some (T', ret, b) := by
  unfold uniteCells at h
  split at h
  · cases h
  rw [if_neg (by
    intro h
    obtain ⟨c, h1, h2⟩ := List.any_eq_true.1 h
    rw [hp c (Or.inl h1)] at h2
    cases h2), if_neg (by
    intro h
    obtain ⟨c, h1, h2⟩ := List.any_eq_true.1 h
    rw [hp c ((mem_removedOf A).1 (by
      unfold removedOf
      simp only [List.mem_append] at h1 ⊢
      tauto))] at h2
    cases h2)] at h
  split at h
  · cases h
  next T4 e4 =>
  obtain ⟨C, hr⟩ := removeAll_cut (reach_inv r).1 A e4
  split at h
  · cases h
  next T5 c b e5 =>
  cases h
  refine ⟨T4, b, C, hr r, ⟨by simp, fun f hf => ?_, fun n hnm => ?_⟩, e5⟩
  · obtain ⟨h1, h2, -, h4⟩ := outer_ok r A ((mem_outerFaces A).1 hf)
    exact ⟨(C.keep f h2.1 (fun hm => h4 ((mem_removedOf A).1 hm))).1, by omega⟩
  · obtain ⟨f, e, hf, he, hne⟩ := hn n hnm
    obtain ⟨h1, h2, h3, h4⟩ := outer_ok r A hf
    obtain ⟨he, hh⟩ := mem_facesOf.1 he
    obtain ⟨q1, q2, q3⟩ := stay_edge r A h2 h3 h1 he
    obtain ⟨p1, p2, p3⟩ := stay_node r A ⟨q1, hh⟩ (fun h => q3 (Or.inr (Or.inr (Or.inl h)))) q2 hne
    exact ⟨(C.keep n p1 (fun hm => p3 ((mem_removedOf A).1 hm))).1, p2⟩

/-- C89: the connections stay consistent. -/
theorem C89_reach (h : uniteCells flip T dup prot unite id nodes = some (T', ret)) : Reach cn T' := by
  obtain ⟨T4, b, -, r4, A4, e⟩ := unite_out r A hn hne hp h
  exact .create dup 3 id _ _ r4 A4 e

variable (h : uniteCells flip T false prot unite id nodes = some (T', ret))
include h

/-- The state after the removals and after the creation. -/
theorem unite_facts : ∃ T4, Cut T (removedOf T unite) T4 ∧
    ((outerFaces T unite = [] ∧ ret = none ∧ T' = T4) ∨
     (outerFaces T unite ≠ [] ∧ ∃ g, ret = some g ∧ g.ty = 3 ∧ T4.alive g = false ∧ T4.hidden g = false ∧
      T'.hide = T4.hide ∧ T'.hidden = T4.hidden ∧ T'.alive = set1 T4.alive g true ∧
      (∀ x, x.ty ≠ 0 → T'.low x = if x = g then outerFaces T unite else T4.low x) ∧
      (∀ x, x.ty = 3 → T'.high x = if x = g then (if T.cn = true then nodes else []) else T4.high x))) := by
  obtain ⟨T4, b, C, r4, A4, e⟩ := unite_out r A hn hne hp h
  refine ⟨T4, C, ?_⟩
  by_cases ho : outerFaces T unite = []
  · left
    unfold Topo.create at e
    rw [if_pos ho] at e
    cases e
    exact ⟨ho, rfl, rfl⟩
  · right
    refine ⟨ho, ?_⟩
    cases hret : ret with
    | none =>
      exfalso
      rw [hret] at e
      unfold Topo.create at e
      rw [if_neg ho] at e
      simp only [Bool.false_eq_true, if_false] at e
      split at e
      · cases e
      split at e
      · cases e
      · cases e
    | some g =>
      rw [hret] at e
      obtain ⟨k0, k1, k2, k3, k4, k5, k6, k7⟩ := createCell_facts C.inv A4 ho e
      refine ⟨g, rfl, by rw [k0], k1, (C.inv.dead g k1).2.2, k3, k4, k5, k6, fun x hx => ?_⟩
      rw [k7 x hx, C.cn]

/-- C89: the cells, the faces between them, and the edges and nodes that are left without faces and edges disappear, a new
cell is added, and nothing else happens to the set of elements. -/
theorem C89_elements (x : El) : Visible T' x ↔ (Visible T x ∧ ¬ Vanish T unite x) ∨ ret = some x := by
  obtain ⟨T4, C, h | h⟩ := unite_facts r A hn hne hp h
  · obtain ⟨h1, h2, rfl⟩ := h
    rw [C.vis, mem_removedOf A, h2]
    simp
  · obtain ⟨h1, g, rfl, h3, h4, h5, h6, h7, h8, -⟩ := h
    rw [← mem_removedOf A, ← C.vis, Option.some.injEq]
    have hh : ∀ y, T'.hid y = T4.hid y := fun y => by unfold Topo.hid; rw [h6, h7]
    unfold Visible
    rw [h8, hh]
    by_cases hx : g = x
    · subst hx
      rw [set1_same]
      simp [h4, Topo.hid, h5]
    · rw [set1_ne _ _ (fun q => hx q.symm)]
      simp [hx]

/-- C89: the new cell has the faces that exactly one of the cells has, each once.  At an edge it has the faces that
the cells have there, without the faces that disappear. -/
theorem C89_cell (hout : ∃ f, visits T unite f = 1) : ∃ g, ret = some g ∧ g.ty = 3 ∧ Visible T' g ∧ (T.alive g = false ∨ g ∈ unite) ∧
    (T'.low g).Nodup ∧ (∀ f, f ∈ T'.low g ↔ visits T unite f = 1) ∧ (∀ f ∈ T'.low g, Visible T' f ∧ g ∈ T'.high f) ∧
    ∀ (e : El) (F : List El), F.Nodup → (∀ f, f ∈ F ↔ FaceVanish T unite f ∧ e ∈ T.low f) →
      facesAt T' g e + 2 * F.length = (unite.map fun c => facesAt T c e).sum := by
  have I := (reach_inv r).1
  have I' := (reach_inv (C89_reach r A hn hne hp h)).1
  have hel := C89_elements r A hn hne hp h
  obtain ⟨T4, C, h | h⟩ := unite_facts r A hn hne hp h
  · obtain ⟨f, hf⟩ := hout
    have := (mem_outerFaces A).2 hf
    rw [h.1] at this
    cases this
  obtain ⟨h1, g, rfl, h3, h4, h5, h6, h7, h8, h9, -⟩ := h
  have hlow : T'.low g = outerFaces T unite := by rw [h9 g (by omega), if_pos rfl]
  have hfv : ∀ f ∈ T'.low g, Visible T' f := by
    intro f hf
    rw [hlow, mem_outerFaces A] at hf
    obtain ⟨q1, q2, q3, q4⟩ := outer_ok r A hf
    exact (hel f).2 (Or.inl ⟨q2, q4⟩)
  refine ⟨g, rfl, h3, (hel g).2 (Or.inr rfl), ?_, ?_, fun f => ?_, fun f hf => ⟨hfv f hf, (I'.mem (fun h => h)).1 hf⟩, fun e F hF hm => ?_⟩
  · cases hg : T.alive g with
    | false => exact Or.inl rfl
    | true =>
      right
      by_contra hgu
      have : g ∉ removedOf T unite := by
        rw [mem_removedOf A]
        rintro (q | q | q | q)
        · exact hgu q
        · have := (FaceVanish.ok I A q).1; omega
        · have := (EdgeVanish.ok I A q).1; omega
        · have := (NodeVanish.ok I A q).1; omega
      rw [(C.keep g hg this).1] at h4
      cases h4
  · rw [hlow]; exact (nodup_inner I A).2
  · rw [hlow, mem_outerFaces A]
  · have hsum : (unite.map fun c => facesAt T c e).sum = (visited T unite).countP fun f => decide (e ∈ T.low f) := by
      unfold visited
      rw [List.countP_flatMap]
      rfl
    have hcount : ∀ f, visits T unite f ≤ 2 := by
      intro f
      by_cases h0 : visits T unite f = 0
      · omega
      obtain ⟨c, hc, hf⟩ := visits_pos A (Nat.pos_of_ne_zero h0)
      refine le_trans ?_ (A.two c hc f hf)
      unfold visits
      rw [List.countP_eq_length_filter]
      refine (List.subperm_of_subset (A.nodup.filter _) fun d hd => ?_).length_le
      obtain ⟨h1, h2⟩ := List.mem_filter.1 hd
      have h2 : f ∈ facesOf T d := by simpa using h2
      exact mem_cellsOf'.2 ⟨(I.mem (fun h => h)).1 (mem_facesOf.1 h2).1, (A.cell d h1).2.2⟩
    have hperm : (visited T unite).Perm (outerFaces T unite ++ (innerFaces T unite ++ innerFaces T unite)) := by
      rw [List.perm_iff_count]
      intro f
      rw [visited_count A.once, List.count_append, List.count_append]
      have c1 : (outerFaces T unite).count f = if visits T unite f = 1 then 1 else 0 := by
        split
        · next hv => exact List.count_eq_one_of_mem (nodup_inner I A).2 ((mem_outerFaces A).2 hv)
        · next hv => exact List.count_eq_zero.2 fun hm => hv ((mem_outerFaces A).1 hm)
      have c2 : (innerFaces T unite).count f = if 2 ≤ visits T unite f then 1 else 0 := by
        split
        · next hv => exact List.count_eq_one_of_mem (nodup_inner I A).1 ((mem_innerFaces A).2 hv)
        · next hv => exact List.count_eq_zero.2 fun hm => hv ((mem_innerFaces A).1 hm)
      have := hcount f
      rw [c1, c2]
      split <;> split <;> omega
    have hFl : F.length = (innerFaces T unite).countP fun f => decide (e ∈ T.low f) := by
      rw [List.countP_eq_length_filter]
      refine ((List.perm_ext_iff_of_nodup hF ((nodup_inner I A).1.filter _)).2 fun f => ?_).length_eq
      rw [hm f, List.mem_filter, mem_innerFaces A, decide_eq_true_iff]
    have hat : facesAt T' g e = (outerFaces T unite).countP fun f => decide (e ∈ T.low f) := by
      unfold facesAt
      rw [List.filter_eq_self.2 (fun f hf => by rw [(hfv f hf).2]; rfl), hlow]
      refine List.countP_congr fun f hf => ?_
      obtain ⟨q1, q2, q3, q4⟩ := outer_ok r A ((mem_outerFaces A).1 hf)
      rw [decide_eq_true_iff, decide_eq_true_iff, h9 f (by omega), if_neg (by rintro rfl; omega), C.mem f e
        (C.keep f q2.1 (fun hm => q4 ((mem_removedOf A).1 hm))).1]
      refine ⟨fun q => q.1, fun q => ⟨q, ?_⟩⟩
      obtain ⟨p1, p2, p3⟩ := stay_edge r A q2 q3 q1 q
      exact (C.keep e p1 (fun hm => p3 ((mem_removedOf A).1 hm))).1
    rw [hsum, hperm.countP_eq, List.countP_append, List.countP_append, hat, hFl]
    omega

/-- C89: if the boundaries of the cells are closed, then the new cell has an even number of faces at every edge. -/
theorem C89_even (g : El) (hg : ret = some g) (e : El) (hc : ∀ c ∈ unite, facesAt T c e = 0 ∨ facesAt T c e = 2) :
    facesAt T' g e % 2 = 0 := by
  have I := (reach_inv r).1
  have hout : ∃ f, visits T unite f = 1 := by
    obtain ⟨T4, C, q | q⟩ := unite_facts r A hn hne hp h
    · rw [q.2.1] at hg; cases hg
    · obtain ⟨f, hf⟩ := List.exists_mem_of_ne_nil _ q.1
      exact ⟨f, (mem_outerFaces A).1 hf⟩
  obtain ⟨g', q1, -, -, -, -, -, -, q8⟩ := C89_cell r A hn hne hp h hout
  rw [hg] at q1
  cases q1
  have := q8 e ((innerFaces T unite).filter fun f => decide (e ∈ T.low f)) ((nodup_inner I A).1.filter _) (fun f => by
    rw [List.mem_filter, mem_innerFaces A, decide_eq_true_iff])
  have hs : (unite.map fun c => facesAt T c e).sum % 2 = 0 := by
    clear * - hc
    induction unite with
    | nil => rfl
    | cons c cs ih =>
      rw [List.map_cons, List.sum_cons]
      have := ih fun d hd => hc d (by simp [hd])
      have := hc c (by simp)
      omega
  omega

/-- C89: the elements that stay keep their boundaries, and cells keep their nodes. -/
theorem C89_rest (x : El) (hx : Visible T x) (hv : ¬ Vanish T unite x) :
    (x.ty ≠ 0 → (facesOf T' x).Perm (facesOf T x)) ∧
    (x.ty = 3 → NodesOfFaces T → (T'.cellsOf x).Perm (T.cellsOf x)) := by
  have I := (reach_inv r).1
  have hvR : x ∉ removedOf T unite := fun hm => hv ((mem_removedOf A).1 hm)
  have hlowv : x.ty ≠ 0 → ∀ y ∈ T.low x, ¬ Vanish T unite y := by
    intro h0 y hy
    have hty := (I.lowTy x y hy).1 h0
    have h3 := I.tyLe x hx.1
    have : x.ty = 1 ∨ x.ty = 2 ∨ x.ty = 3 := by omega
    rcases this with h1 | h1 | h1
    · exact (stay_node r A hx (fun q => hv (Or.inr (Or.inr (Or.inl q)))) h1 hy).2.2
    · exact (stay_edge r A hx (fun q => hv (Or.inr (Or.inl q))) h1 hy).2.2
    · rintro (q | q | q | q)
      · have := (A.cell y q).1; omega
      · exact hv (Or.inl (cells_of_inner A I q (mem_cellsOf'.2 ⟨(I.mem (fun h => h)).1 hy, hx.2⟩)))
      · have := (EdgeVanish.ok I A q).1; omega
      · have := (NodeVanish.ok I A q).1; omega
  obtain ⟨T4, C, hT⟩ := unite_facts r A hn hne hp h
  have hv4 : Visible T4 x := (C.vis x).2 ⟨hx, hvR⟩
  have hlow4 : x.ty ≠ 0 → (facesOf T4 x).Perm (facesOf T x) := by
    intro h0
    have := C.low x hv4
    rw [List.filter_eq_self.2] at this
    · exact this
    · intro y hy
      rw [decide_eq_true_iff]
      exact fun hm => hlowv h0 y (mem_facesOf.1 hy).1 ((mem_removedOf A).1 hm)
  have hhigh4 : x.ty = 3 → NodesOfFaces T → (T4.cellsOf x).Perm (T.cellsOf x) := by
    intro h3 hN
    have := C.high x hv4
    rw [List.filter_eq_self.2] at this
    · exact this
    · intro n hnm
      rw [decide_eq_true_iff]
      intro hm
      obtain ⟨f, hf, e, he, hne'⟩ := hN x n h3 hx (mem_cellsOf'.1 hnm).1
      obtain ⟨f1, f2⟩ := mem_facesOf.1 hf
      obtain ⟨e1, e2⟩ := mem_facesOf.1 he
      have hty := (I.lowTy x f f1).1 (by omega)
      obtain ⟨p1, p2, p3⟩ := stay_edge r A ⟨(I.lowLive f1).1, f2⟩ (fun q => hlowv (by omega) f f1 (Or.inr (Or.inl q))) (by omega) e1
      exact (stay_node r A ⟨p1, e2⟩ (fun q => p3 (Or.inr (Or.inr (Or.inl q)))) p2 hne').2.2 ((mem_removedOf A).1 hm)
  rcases hT with hT | hT
  · obtain ⟨-, -, rfl⟩ := hT
    exact ⟨hlow4, hhigh4⟩
  · obtain ⟨h1, g, -, h3, h4, h5, h6, h7, h8, h9, h10⟩ := hT
    have hne' : x ≠ g := by rintro rfl; rw [hv4.1] at h4; cases h4
    have hh : ∀ y, T'.hid y = T4.hid y := fun y => by unfold Topo.hid; rw [h6, h7]
    refine ⟨fun h0 => ?_, fun q1 q2 => ?_⟩
    · have : facesOf T' x = facesOf T4 x := by
        unfold facesOf
        rw [h9 x h0, if_neg hne']
        exact List.filter_congr fun y _ => by rw [hh]
      rw [this]; exact hlow4 h0
    · have : T'.cellsOf x = T4.cellsOf x := by
        unfold Topo.cellsOf
        rw [h10 x q1, if_neg hne']
        exact List.filter_congr fun y _ => by rw [hh]
      rw [this]; exact hhigh4 q1 q2

/-- C89: the nodes of the new cell. -/
theorem C89_nodes (g : El) (hg : ret = some g) : T'.high g = if T.cn = true then nodes else [] := by
  obtain ⟨T4, C, q | q⟩ := unite_facts r A hn hne hp h
  · rw [q.2.1] at hg; cases hg
  · obtain ⟨h1, g', h2, h3, h4, h5, h6, h7, h8, h9, h10⟩ := q
    rw [hg] at h2
    cases h2
    rw [h10 g h3, if_pos rfl]

end

/-- C89: protected elements are never removed. -/
theorem C89_protect (r : Reach cn T) (A : UniteArgs T unite) (hn : NodesFrom T unite nodes)
    (h : uniteCells flip T false prot unite id nodes = some (T', ret)) (x : El) (hx : Visible T x) (hpx : prot x = true) :
    Visible T' x := by
  by_cases hq : unite = [] ∨ ∃ x, Vanish T unite x ∧ prot x = true
  · rw [(C89_refuse A h hq).1]
    exact hx
  · rw [not_or] at hq
    have hp : ∀ y, Vanish T unite y → prot y = false := fun y hy => by
      cases hpy : prot y with
      | false => rfl
      | true => exact absurd ⟨y, hy, hpy⟩ hq.2
    refine (C89_elements r A hn hq.1 hp h x).2 (Or.inl ⟨hx, fun hv => ?_⟩)
    rw [hp x hv] at hpx
    cases hpx

/-- C89: the call succeeds, if the nodes stored for cells are nodes of the faces of the cells. -/
theorem C89_defined (r : Reach cn T) (A : UniteArgs T unite) (hn : NodesFrom T unite nodes) (hN : NodesOfFaces T)
    (hid : T.alive ⟨3, id⟩ = false) : ∃ T' ret, uniteCells flip T false prot unite id nodes = some (T', ret) := by
  have I := (reach_inv r).1
  unfold uniteCells
  rw [if_neg (by
    intro h
    obtain ⟨c, h1, h2⟩ := List.any_eq_true.1 h
    rw [(A.cell c h1).2.1] at h2
    cases h2)]
  split
  · exact ⟨_, _, rfl⟩
  split
  · exact ⟨_, _, rfl⟩
  split
  · exact ⟨_, _, rfl⟩
  obtain ⟨T4, e4⟩ := removeAll_total (flip := flip) I A hN
  obtain ⟨C, -⟩ := removeAll_cut I A e4
  rw [e4]
  simp only
  by_cases ho : outerFaces T unite = []
  · unfold Topo.create
    rw [if_pos ho]
    exact ⟨_, _, rfl⟩
  · have A4 : CreateArgs T4 3 (outerFaces T unite) nodes := by
      refine ⟨by simp, fun f hf => ?_, fun n hnm => ?_⟩
      · obtain ⟨h1, h2, -, h4⟩ := outer_ok r A ((mem_outerFaces A).1 hf)
        exact ⟨(C.keep f h2.1 (fun hm => h4 ((mem_removedOf A).1 hm))).1, by omega⟩
      · obtain ⟨f, e, hf, he, hne⟩ := hn n hnm
        obtain ⟨h1, h2, h3, h4⟩ := outer_ok r A hf
        obtain ⟨he, hh⟩ := mem_facesOf.1 he
        obtain ⟨q1, q2, q3⟩ := stay_edge r A h2 h3 h1 he
        obtain ⟨p1, p2, p3⟩ := stay_node r A ⟨q1, hh⟩ (fun h => q3 (Or.inr (Or.inr (Or.inl h)))) q2 hne
        exact ⟨(C.keep n p1 (fun hm => p3 ((mem_removedOf A).1 hm))).1, p2⟩
    obtain ⟨T5, e5, -⟩ := createCell_total (T := T4) A4 ho (id := id) (by
      cases h : T4.alive ⟨3, id⟩ with
      | false => rfl
      | true => rw [C.mono _ h] at hid; cases hid)
    rw [e5]
    exact ⟨_, _, rfl⟩

/-- C89: the test succeeds if no cell, face or edge that has to be removed is protected. -/
theorem C89_test (r : Reach cn T) (A : UniteArgs T unite) : ∃ b, testUniteCells T prot unite = some b ∧
    (b = true ↔ unite ≠ [] ∧ ∀ x, x ∈ unite ∨ FaceVanish T unite x ∨ EdgeVanish T unite x → prot x = false) := by
  have I := (reach_inv r).1
  unfold testUniteCells
  split
  · next he => exact ⟨false, rfl, by simp [he]⟩
  next hne =>
  rw [if_neg (by
    intro h
    obtain ⟨c, h1, h2⟩ := List.any_eq_true.1 h
    rw [(A.cell c h1).2.1] at h2
    cases h2)]
  split
  · next hc =>
    refine ⟨false, rfl, ?_⟩
    obtain ⟨c, h1, h2⟩ := List.any_eq_true.1 hc
    simp only [Bool.false_eq_true, false_iff, not_and]
    intro _ h
    rw [h c (Or.inl h1)] at h2
    cases h2
  next hc =>
  have htest : ∀ (ns : List El) (i : Nat), (∀ n ∈ ns, ∃ u ∈ T.high n, T.hid u = false) →
      testNodes T prot (gather T (innerFaces T unite)) i ns = some true := by
    intro ns
    induction ns with
    | nil => intro i _; rfl
    | cons n ns ih =>
      intro i hns
      unfold testNodes
      rw [if_neg]
      · exact ih (i + 1) fun m hm => hns m (by simp [hm])
      · intro hall
        obtain ⟨u, h1, h2⟩ := hns n (by simp)
        have := List.all_eq_true.1 hall u h1
        rw [h2] at this
        cases this
  rw [htest _ 0 (fun n hn => by
    obtain ⟨e, h1, h2, -⟩ := mem_gather.1 hn
    obtain ⟨f, -, -, h3⟩ := mem_gather.1 h1
    exact ⟨e, (I.mem (fun h => h)).1 h2, h3⟩)]
  refine ⟨_, rfl, ?_⟩
  simp only [Bool.true_and, Bool.and_eq_true, Bool.not_eq_true', List.any_eq_false]
  simp only [mem_innerFaces A, mem_remEdges A, Bool.not_eq_true]
  have hc' : ∀ c ∈ unite, prot c = false := by
    intro c h1
    cases h2 : prot c with
    | false => rfl
    | true => exact absurd (List.any_eq_true.2 ⟨c, h1, h2⟩) hc
  constructor
  · rintro ⟨h1, h2⟩
    exact ⟨hne, fun x hx => hx.elim (hc' x) (fun q => q.elim (h1 x) (h2 x))⟩
  · rintro ⟨-, q⟩
    exact ⟨fun x hx => q x (Or.inr (Or.inl hx)), fun x hx => q x (Or.inr (Or.inr hx))⟩

end Verif.Split
