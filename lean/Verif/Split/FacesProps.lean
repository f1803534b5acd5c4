import Verif.Split.FacesOut

/-!
# Property C90: uniting faces

`UniteFaces` replaces faces by one face.  `uniteFaces flip T dup prot unite id` is the call for the state `T`; the result is
the new state and the returned face.  `prot` are the elements with the marker `del_protect`, `id` is the number of the new
face, `dup` is the topology check `DUPLICATE_FACE`, which is not set by default.
-/

namespace Verif.Split
open Verif.Topology Verif.EdgeLoop

variable {cn : Bool} {T T' : Topo} {flip : Topo → El → Bool} {dup : Bool} {prot : El → Bool} {unite : List El} {id : Nat}
  {ret : Option El} {g : El}

/-- C90: nothing happens if there are no faces or a protected element would have to be removed. -/
theorem C90_refuse (A : FacesArgs T unite) (h : uniteFaces flip T dup prot unite id = some (T', ret))
    (hp : unite = [] ∨ ∃ x, Absorbed T unite x ∧ prot x = true) : T' = T ∧ ret = none := by
  cases ret with
  | some g =>
    obtain ⟨_, hne, hpr, -⟩ := uniteFaces_parts A h
    rcases hp with hp | ⟨x, hx, hpx⟩
    · exact absurd hp hne
    · rw [hpr x hx] at hpx; cases hpx
  | none =>
    refine ⟨?_, rfl⟩
    unfold uniteFaces at h
    split at h
    · cases h
    split at h
    · cases h; rfl
    split at h
    · cases h; rfl
    split at h
    · cases h
    split at h
    · cases h
    split at h
    · cases h; rfl
    split at h
    · cases h
    split at h <;> cases h

/-- C90: in every other case there is a new face. -/
theorem C90_new (A : FacesArgs T unite) (h : uniteFaces flip T dup prot unite id = some (T', ret)) (hne : unite ≠ [])
    (hp : ∀ x, Absorbed T unite x → prot x = false) : ∃ g, ret = some g := by
  unfold uniteFaces at h
  split at h
  · cases h
  rw [if_neg (by
    intro h
    obtain ⟨c, h1, h2⟩ := List.any_eq_true.1 h
    rw [hp c (Or.inl h1)] at h2
    cases h2)] at h
  split at h
  · cases h
  split at h
  · cases h
  rw [if_neg (by
    intro h
    obtain ⟨c, h1, h2⟩ := List.any_eq_true.1 h
    rw [hp c (Or.inr ((List.mem_append.1 h1).imp (mem_innerEdges A).1 (mem_innerCorners A).1))] at h2
    cases h2)] at h
  split at h
  · cases h
  split at h
  · cases h
  cases h
  exact ⟨_, rfl⟩

/-- C90: the connections stay consistent. -/
theorem C90_reach (r : Reach cn T) (A : FacesArgs T unite) (h : uniteFaces flip T dup prot unite id = some (T', some g)) :
    Reach cn T' := by
  obtain ⟨es, -, -, -, h2, ho, hr⟩ := uniteFaces_parts A h
  exact .uniteFaces _ _ _ _ _ _ _ _ r (run_ok (reach_inv r).1 A h2 ho) hr

section
variable (r : Reach cn T) (A : FacesArgs T unite) (h : uniteFaces flip T false prot unite id = some (T', some g))
include r A h

/-- C90: the faces, the edges between them and the nodes that would be left without edges disappear; the only new
element is the returned face. -/
theorem C90_elements (x : El) : Visible T' x ↔ (Visible T x ∧ ¬ Absorbed T unite x) ∨ x = g := by
  obtain ⟨-, -, -, -, -, es, ns, T1, C, -, -, -, hd, -, ha, hh, -⟩ := faces_out (reach_inv r).1 A h
  rw [← mem_absorbed A, ← C.vis x]
  unfold Visible
  rw [ha, hh]
  constructor
  · rintro ⟨rfl | h1, h2⟩
    · exact Or.inr rfl
    · exact Or.inl ⟨h1, h2⟩
  · rintro (⟨h1, h2⟩ | rfl)
    · exact ⟨Or.inr h1, h2⟩
    · refine ⟨Or.inl rfl, ?_⟩
      unfold Topo.hid
      rw [(C.inv.dead _ hd).2.2, Bool.and_false]

omit h in
theorem absorbed_ty {x : El} (hx : Absorbed T unite x) : (x.ty = 2 ∧ x ∈ unite) ∨ (x.ty = 1 ∧ visits T unite x = 2) ∨
    (x.ty = 0 ∧ Enclosed T unite x) := by
  have I := (reach_inv r).1
  rcases hx with hx | hx | hx
  · exact Or.inl ⟨(A.face x hx).1, hx⟩
  · exact Or.inr (Or.inl ⟨(visits_ok I A (by omega)).1, hx⟩)
  · exact Or.inr (Or.inr ⟨(absorbed_ok I A).2 x ((mem_innerCorners A).2 hx), hx⟩)

theorem g_facts : ∃ es ns, es.Nodup ∧ (∀ e, e ∈ es ↔ visits T unite e = 1) ∧ Loop T es ns ∧ g.ty = 2 ∧ T'.hid g = false ∧
    edgesOf T' g = es ∧ T'.cellsOf g = unitedCells T unite ∧ (∀ x, x ≠ g → ¬ Absorbed T unite x →
      facesOf T' x = (facesOf T x).filter (fun y => decide (y ∉ absorbed T unite)) ++
        (List.replicate ((unitedCells T unite).count x) g) ∧
      T'.cellsOf x = (T.cellsOf x).filter (fun y => decide (y ∉ absorbed T unite)) ++ (List.replicate (es.count x) g)) := by
  have I := (reach_inv r).1
  have E := C90_elements r A h
  obtain ⟨-, -, -, ht, -, es, ns, T1, C, s1, s2, s3, hd, -, ha, hh, hl, hu, -⟩ := faces_out I A h
  have hg : T'.hid g = false := ((E g).2 (Or.inr rfl)).2
  have hrep : ∀ n, ((List.replicate n g).filter fun x => !T1.hid x) = List.replicate n g := fun n =>
    List.filter_eq_self.2 fun y hy => by rw [(List.mem_replicate.1 hy).2, ← hh, hg]; rfl
  have hh' : (fun x => !T'.hid x) = fun x => !T1.hid x := by funext x; rw [hh]
  refine ⟨es, ns, s1, s2, s3, ht, hg, ?_, ?_, fun x hx hn => ⟨?_, ?_⟩⟩
  · unfold edgesOf
    rw [hl, if_pos rfl]
    refine List.filter_eq_self.2 fun e he => ?_
    have hv := (s2 e).1 he
    have := (E e).2 (Or.inl ⟨(visits_ok I A (by omega)).2, fun hab => ?_⟩)
    · rw [this.2]; rfl
    · rcases absorbed_ty r A hab with h | h | h
      · have := (visits_ok I A (e := e) (by omega)).1; omega
      · omega
      · have := (visits_ok I A (e := e) (by omega)).1; omega
  · unfold Topo.cellsOf
    rw [hu, if_pos rfl]
    refine List.filter_eq_self.2 fun c hc => ?_
    obtain ⟨f, hf, hm⟩ := mem_unitedCells.1 hc
    obtain ⟨h1, h2⟩ := mem_cellsOf'.1 hm
    have h3 := (A.face f hf).1
    have h4 := (I.highTy (fun h => h) h1).1 (by omega)
    have := (E c).2 (Or.inl ⟨⟨(I.highLive (fun h => h) h1).2, h2⟩, fun hab => ?_⟩)
    · rw [this.2]; rfl
    · rcases absorbed_ty r A hab with h | h | h <;> omega
  · have := C.low x (fun hm => hn ((mem_absorbed A).1 hm))
    unfold facesOf at this ⊢
    rw [hl, if_neg hx, hh', List.filter_append, hrep, this]
  · have := C.high x (fun hm => hn ((mem_absorbed A).1 hm))
    unfold Topo.cellsOf at this ⊢
    rw [hu, if_neg hx, hh', List.filter_append, hrep, this]

theorem not_g {x : El} (hx : Visible T x) (hn : ¬ Absorbed T unite x) : x ≠ g := by
  rintro rfl
  exact hn (Or.inl ((faces_out (reach_inv r).1 A h).fresh hx.1))

/-- C90: what stays keeps its nodes, edges and faces, except that the new face is inserted: a face that stays has the same
edges and cells; an edge that stays has the same nodes, and the new face instead of its united face; a node that stays has the same edges that stay. -/
theorem C90_rest (x : El) (hx : Visible T x) (hn : ¬ Absorbed T unite x) :
    (x.ty = 2 → edgesOf T' x = edgesOf T x ∧ T'.cellsOf x = T.cellsOf x) ∧
    (x.ty = 1 → facesOf T' x = facesOf T x ∧ T'.cellsOf x = (T.cellsOf x).filter (fun f => decide (f ∉ unite)) ++
      if visits T unite x = 1 then [g] else []) ∧
    (x.ty = 0 → T'.cellsOf x = (T.cellsOf x).filter fun e => decide (visits T unite e ≠ 2)) := by
  have I := (reach_inv r).1
  have hxg := not_g r A h hx hn
  have O := faces_out I A h
  obtain ⟨es, ns, s1, s2, s3, ht, hg, -, -, hrest⟩ := g_facts r A h
  obtain ⟨q1, q2⟩ := hrest x hxg hn
  have hmem := fun y => mem_absorbed A (x := y)
  have hcells : x.ty ≠ 3 → (unitedCells T unite).count x = 0 := by
    intro h3
    refine List.count_eq_zero.2 fun hc => ?_
    obtain ⟨f, hf, hm⟩ := mem_unitedCells.1 hc
    have h1 := (A.face f hf).1
    have := (I.highTy (fun h => h) (mem_cellsOf'.1 hm).1).1 (by omega)
    omega
  have hes : x.ty ≠ 1 → es.count x = 0 := by
    intro h3
    refine List.count_eq_zero.2 fun hc => ?_
    have := (s2 x).1 hc
    exact h3 (visits_ok I A (by omega)).1
  refine ⟨fun h2 => ⟨?_, ?_⟩, fun h1 => ⟨?_, ?_⟩, fun h0 => ?_⟩
  · show facesOf T' x = facesOf T x
    rw [q1, hcells (by omega), List.replicate_zero, List.append_nil]
    refine List.filter_eq_self.2 fun y hy => decide_eq_true fun hm => ?_
    obtain ⟨y1, y2⟩ := mem_facesOf.1 hy
    have := (I.lowTy x y y1).1 (by omega)
    rcases absorbed_ty r A ((hmem y).1 hm) with h | h | h
    · omega
    · exact hn (Or.inl (O.clear y h.2 x ((I.mem (fun h => h)).1 y1) hx.2))
    · omega
  · rw [q2, hes (by omega), List.replicate_zero, List.append_nil]
    refine List.filter_eq_self.2 fun y hy => decide_eq_true fun hm => ?_
    have := (I.highTy (fun h => h) (mem_cellsOf'.1 hy).1).1 (by omega)
    rcases absorbed_ty r A ((hmem y).1 hm) with h | h | h <;> omega
  · rw [q1, hcells (by omega), List.replicate_zero, List.append_nil]
    refine List.filter_eq_self.2 fun y hy => decide_eq_true fun hm => ?_
    obtain ⟨y1, y2⟩ := mem_facesOf.1 hy
    have := (I.lowTy x y y1).1 (by omega)
    rcases absorbed_ty r A ((hmem y).1 hm) with h | h | h
    · omega
    · omega
    · exact hn (Or.inr (Or.inl (h.2.2 x ((I.mem (fun h => h)).1 y1) hx.2)))
  · rw [q2]
    congr 1
    · refine List.filter_congr fun y hy => decide_eq_decide.2 (not_congr ?_)
      rw [hmem]
      refine ⟨fun hm => ?_, Or.inl⟩
      have := (I.highTy (fun h => h) (mem_cellsOf'.1 hy).1).1 (by omega)
      rcases absorbed_ty r A hm with h | h | h
      · exact h.2
      · omega
      · omega
    · split
      · next hv => rw [List.count_eq_one_of_mem s1 ((s2 x).2 hv)]; rfl
      · next hv => rw [List.count_eq_zero.2 fun hm => hv ((s2 x).1 hm)]; rfl
  · rw [q2, hes (by omega), List.replicate_zero, List.append_nil]
    refine List.filter_congr fun y hy => decide_eq_decide.2 (not_congr ?_)
    rw [hmem]
    refine ⟨fun hm => ?_, fun hm => Or.inr (Or.inl hm)⟩
    have := (I.highTy (fun h => h) (mem_cellsOf'.1 hy).1).1 (by omega)
    rcases absorbed_ty r A hm with h | h | h
    · omega
    · exact h.2
    · omega

/-- C90: the new face is a closed polygon; its edges are the edges that exactly one of the united faces had, its cells are
those of the united faces, at most two. -/
theorem C90_face : g.ty = 2 ∧ (T.alive g = false ∨ g ∈ unite) ∧ (edgesOf T' g).Nodup ∧ (∃ ns, Loop T' (edgesOf T' g) ns) ∧
    (∀ e, e ∈ edgesOf T' g ↔ visits T unite e = 1) ∧ (T'.cellsOf g).Nodup ∧ (T'.cellsOf g).length ≤ 2 ∧
    ∀ c, c ∈ T'.cellsOf g ↔ ∃ f ∈ unite, c ∈ T.cellsOf f := by
  have I := (reach_inv r).1
  have O := faces_out I A h
  obtain ⟨es, ns, s1, s2, s3, ht, hg, e1, e2, -⟩ := g_facts r A h
  refine ⟨ht, ?_, by rw [e1]; exact s1, ⟨ns, ?_⟩, by rw [e1]; exact s2, by rw [e2]; exact nodup_unitedCells, by rw [e2]; exact O.cellsLe,
    fun c => by rw [e2]; exact mem_unitedCells⟩
  · cases ha : T.alive g with
    | false => exact Or.inl rfl
    | true => exact Or.inr (O.fresh ha)
  · rw [e1]
    refine ⟨s3.three, s3.corners, fun i e a b h1 h2 h3 => ?_⟩
    have hj := s3.joins i e a b h1 h2 h3
    have hv := (s2 e).1 (List.mem_of_getElem? h1)
    obtain ⟨k1, k2⟩ := visits_ok I A (e := e) (by omega)
    have := ((C90_rest r A h e k2 (fun hab => by
      rcases absorbed_ty r A hab with h | h | h <;> omega)).2.1 k1).1
    unfold facesOf at this
    unfold Joins at hj ⊢
    rw [this]; exact hj

/-- C90: the faces of a cell: the united faces are replaced by the new one, if the cell had one of them.  Then the cell has at least four faces. -/
theorem C90_cells (c : El) (hc : Visible T c) (h3 : c.ty = 3) :
    facesOf T' c = (facesOf T c).filter (fun f => decide (f ∉ unite)) ++ (if ∃ f ∈ unite, f ∈ facesOf T c then [g] else []) ∧
    ((∃ f ∈ unite, f ∈ facesOf T c) → 4 ≤ (facesOf T' c).length) := by
  have I := (reach_inv r).1
  have O := faces_out I A h
  have hn : ¬ Absorbed T unite c := fun hab => by rcases absorbed_ty r A hab with h | h | h <;> omega
  have hcg := not_g r A h hc hn
  obtain ⟨es, ns, s1, s2, s3, ht, hg, e1, e2, hrest⟩ := g_facts r A h
  obtain ⟨q1, -⟩ := hrest c hcg hn
  have hiff : c ∈ unitedCells T unite ↔ ∃ f ∈ unite, f ∈ facesOf T c := by
    rw [mem_unitedCells]
    refine exists_congr fun f => and_congr_right fun hf => ?_
    rw [mem_cellsOf', mem_facesOf, ← I.mem (fun h => h)]
    exact ⟨fun k => ⟨k.1, (A.face f hf).2.2⟩, fun k => ⟨k.1, hc.2⟩⟩
  constructor
  · rw [q1]
    congr 1
    · refine List.filter_congr fun y hy => decide_eq_decide.2 (not_congr ?_)
      rw [mem_absorbed A]
      refine ⟨fun hm => ?_, Or.inl⟩
      have := (I.lowTy c y (mem_facesOf.1 hy).1).1 (by omega)
      rcases absorbed_ty r A hm with h | h | h
      · exact h.2
      · omega
      · omega
    · split
      · next hv => rw [List.count_eq_one_of_mem nodup_unitedCells (hiff.2 hv)]; rfl
      · next hv => rw [List.count_eq_zero.2 fun hm => hv (hiff.1 hm)]; rfl
  · intro hv
    obtain ⟨-, -, -, -, -, -, -, -, -, -, -, -, -, -, -, -, -, -, h4⟩ := O
    exact h4 c (hiff.2 hv)

/-- C90: the nodes stored for a cell: only the nodes that disappear are taken away. -/
theorem C90_nodes (c : El) (hc : Visible T c) (h3 : c.ty = 3) :
    (T'.cellsOf c).Sublist (T.cellsOf c) ∧ ∀ n, n ∈ T'.cellsOf c ↔ n ∈ T.cellsOf c ∧ ¬ Absorbed T unite n := by
  have I := (reach_inv r).1
  have hn : ¬ Absorbed T unite c := fun hab => by rcases absorbed_ty r A hab with h | h | h <;> omega
  obtain ⟨es, ns, s1, s2, s3, ht, hg, e1, e2, hrest⟩ := g_facts r A h
  obtain ⟨-, q2⟩ := hrest c (not_g r A h hc hn) hn
  have : es.count c = 0 := by
    refine List.count_eq_zero.2 fun hm => ?_
    have := (s2 c).1 hm
    have := (visits_ok I A (e := c) (by omega)).1
    omega
  rw [q2, this, List.replicate_zero, List.append_nil]
  refine ⟨List.filter_sublist, fun n => ?_⟩
  rw [List.mem_filter, decide_eq_true_iff, mem_absorbed A]

/-- C90: let a cell have all the united faces, each once, or none of them.  Then at an edge between united faces it has no
faces any more, at every other edge it has as many faces as before; so a closed cell stays closed. -/
theorem C90_closed (c e : El) (hc : Visible T c) (h3 : c.ty = 3) (he : Visible T e) (he1 : e.ty = 1)
    (hall : (∀ f ∈ unite, (facesOf T c).count f = 1) ∨ ∀ f ∈ unite, f ∉ facesOf T c) :
    facesAt T' c e = if visits T unite e = 2 then 0 else facesAt T c e := by
  have I := (reach_inv r).1
  have O := faces_out I A h
  obtain ⟨hfc, -⟩ := C90_cells r A h c hc h3
  obtain ⟨ht, -, -, -, hge, -⟩ := C90_face r A h
  have hg := ((C90_elements r A h g).2 (Or.inr rfl)).2
  -- the faces of the cell that stay
  have hst : ∀ y ∈ (facesOf T c).filter (fun f => decide (f ∉ unite)), visits T unite e ≠ 2 → (e ∈ T'.low y ↔ e ∈ T.low y) := by
    intro y hy hv
    obtain ⟨hy1, hy2⟩ := List.mem_filter.1 hy
    obtain ⟨y1, y2⟩ := mem_facesOf.1 hy1
    have yt := (I.lowTy c y y1).1 (by omega)
    have hya : ¬ Absorbed T unite y := fun hab => by
      rcases absorbed_ty r A hab with h | h | h
      · exact of_decide_eq_true hy2 h.2
      · omega
      · omega
    have := ((C90_rest r A h y ⟨(I.lowLive y1).1, y2⟩ hya).1 (by omega)).1
    have hev := (C90_elements r A h e).2 (Or.inl ⟨he, fun hab => by
      rcases absorbed_ty r A hab with h | h | h
      · omega
      · exact hv h.2
      · omega⟩)
    have h1 : e ∈ facesOf T' y ↔ e ∈ T'.low y := by rw [mem_facesOf]; exact ⟨fun k => k.1, fun k => ⟨k, hev.2⟩⟩
    have h2 : e ∈ facesOf T y ↔ e ∈ T.low y := by rw [mem_facesOf]; exact ⟨fun k => k.1, fun k => ⟨k, he.2⟩⟩
    rw [← h1, ← h2]
    show e ∈ edgesOf T' y ↔ e ∈ edgesOf T y
    rw [this]
  have hout : ∀ y, facesAt T' y e = (facesOf T' y).countP fun f => decide (e ∈ T'.low f) := fun _ => rfl
  have hin : ∀ y, facesAt T y e = (facesOf T y).countP fun f => decide (e ∈ T.low f) := fun _ => rfl
  -- the new face
  have hnew : e ∈ T'.low g ↔ visits T unite e = 1 := by
    rw [← hge e]
    show _ ↔ e ∈ facesOf T' g
    rw [mem_facesOf]
    refine ⟨fun k => ⟨k, ?_⟩, fun k => k.1⟩
    obtain ⟨es, ns, T1, -, -, s2, -, -, -, ha, hh, hl, -⟩ := O.run
    have hev : visits T unite e = 1 := by
      rw [hl, if_pos rfl] at k
      exact (s2 e).1 k
    exact ((C90_elements r A h e).2 (Or.inl ⟨he, fun hab => by
      rcases absorbed_ty r A hab with h | h | h <;> omega⟩)).2
  have hsplit : (facesOf T c).countP (fun f => decide (e ∈ T.low f)) =
      ((facesOf T c).filter (fun f => decide (f ∉ unite))).countP (fun f => decide (e ∈ T.low f)) +
      ((facesOf T c).filter (fun f => decide (f ∈ unite))).countP (fun f => decide (e ∈ T.low f)) := by
    rw [← List.countP_append]
    refine List.Perm.countP_eq _ ?_
    have := List.filter_append_perm (fun f => decide (f ∉ unite)) (facesOf T c)
    refine (this.symm).trans (List.Perm.of_eq ?_)
    congr 1
    refine List.filter_congr fun y _ => ?_
    by_cases hy : y ∈ unite <;> simp [hy]
  have hnone : visits T unite e = 2 →
      ((facesOf T c).filter (fun f => decide (f ∉ unite))).countP (fun f => decide (e ∈ T.low f)) = 0 := by
    intro hv
    rw [List.countP_eq_zero]
    intro y hy hey
    obtain ⟨hy1, hy2⟩ := List.mem_filter.1 hy
    exact of_decide_eq_true hy2 (O.clear e hv y ((I.mem (fun h => h)).1 (of_decide_eq_true hey)) (mem_facesOf.1 hy1).2)
  have hnone' : visits T unite e = 2 →
      ((facesOf T c).filter (fun f => decide (f ∉ unite))).countP (fun f => decide (e ∈ T'.low f)) = 0 := by
    intro hv
    rw [List.countP_eq_zero]
    intro y hy hey
    obtain ⟨hy1, hy2⟩ := List.mem_filter.1 hy
    obtain ⟨y1, y2⟩ := mem_facesOf.1 hy1
    have yt := (I.lowTy c y y1).1 (by omega)
    have hyn : y ∉ unite := of_decide_eq_true hy2
    obtain ⟨es, ns, T1, C, -, s2, -, -, -, ha, hh, hl, -⟩ := O.run
    have hyg : y ≠ g := by
      rintro rfl
      exact hyn (O.fresh (I.lowLive y1).1)
    have hey' : e ∈ T'.low y := of_decide_eq_true hey
    have hcount : (unitedCells T unite).count y = 0 := by
      refine List.count_eq_zero.2 fun hc => ?_
      obtain ⟨f, hf, hm⟩ := mem_unitedCells.1 hc
      have h1 := (A.face f hf).1
      have := (I.highTy (fun h => h) (mem_cellsOf'.1 hm).1).1 (by omega)
      omega
    rw [hl, if_neg hyg, hcount, List.replicate_zero, List.append_nil] at hey'
    have hyR : y ∉ absorbed T unite := fun hm => by
      rcases absorbed_ty r A ((mem_absorbed A).1 hm) with h | h | h
      · exact hyn h.2
      · omega
      · omega
    exact hyn (O.clear e hv y ((I.mem (fun h => h)).1 (C.sub y e hyR hey')) y2)
  have hmain : ((facesOf T c).filter (fun f => decide (f ∉ unite))).countP (fun f => decide (e ∈ T'.low f)) =
      ((facesOf T c).filter (fun f => decide (f ∉ unite))).countP (fun f => decide (e ∈ T.low f)) := by
    by_cases hv : visits T unite e = 2
    · rw [hnone hv, hnone' hv]
    · exact List.countP_congr fun y hy => by simpa using hst y hy hv
  have hgc : [g].countP (fun f => decide (e ∈ T'.low f)) = if visits T unite e = 1 then 1 else 0 := by
    rw [List.countP_singleton]
    simp only [hnew, decide_eq_true_eq]
  have hv2 := O.two e
  rw [hout, hfc, List.countP_append, hmain, hin, hsplit]
  rcases hall with hall | hall
  · obtain ⟨es, hne, -⟩ := uniteFaces_parts A h
    have hperm : ((facesOf T c).filter (fun f => decide (f ∈ unite))).Perm unite := by
      rw [List.perm_iff_count]
      intro f
      by_cases hf : f ∈ unite
      · rw [List.count_filter (by simpa using hf), hall f hf, List.count_eq_one_of_mem A.nodup hf]
      · rw [List.count_eq_zero.2 hf, List.count_eq_zero]
        exact fun hm => hf (of_decide_eq_true (List.mem_filter.1 hm).2)
    have hvis : unite.countP (fun f => decide (e ∈ T.low f)) = visits T unite e :=
      List.countP_congr fun f _ => by
        simp only [decide_eq_true_eq]
        rw [mem_facesOf]
        exact ⟨fun k => ⟨k, he.2⟩, fun k => k.1⟩
    have hex : ∃ f ∈ unite, f ∈ facesOf T c := by
      obtain ⟨f, hf⟩ := List.exists_mem_of_ne_nil _ hne
      exact ⟨f, hf, List.count_pos_iff.1 (by rw [hall f hf]; omega)⟩
    rw [hperm.countP_eq, hvis, if_pos hex, hgc]
    by_cases hv : visits T unite e = 2
    · rw [hnone hv]; simp [hv]
    · rw [if_neg hv]; split <;> omega
  · rw [if_neg (fun ⟨f, hf, hm⟩ => hall f hf hm)]
    have : (facesOf T c).filter (fun f => decide (f ∈ unite)) = [] :=
      List.filter_eq_nil_iff.2 fun f hf hm => hall f (of_decide_eq_true hm) hf
    rw [this]
    split
    · next hv => rw [hnone hv]; rfl
    · rfl

/-- A closed cell that has one of two neighbouring united faces has the other one. -/
theorem next_cell {c f f' e : El} (hc : Visible T c) (h3 : c.ty = 3) (hn : (facesOf T c).Nodup)
    (hcl : ∀ e, facesAt T c e = 0 ∨ facesAt T c e = 2) (hf : f ∈ unite) (hf' : f' ∈ unite) (he : e ∈ edgesOf T f) (he' : e ∈ edgesOf T f')
    (hm : f ∈ facesOf T c) : f' ∈ facesOf T c := by
  have I := (reach_inv r).1
  have O := faces_out I A h
  by_cases hff : f = f'
  · exact hff ▸ hm
  have hin : ∀ x, facesAt T x e = (facesOf T x).countP fun f => decide (e ∈ T.low f) := fun _ => rfl
  have hv2 : visits T unite e = 2 := by
    have h2 := O.two e
    have : [f, f'].length ≤ (unite.filter fun x => decide (e ∈ facesOf T x)).length :=
      (List.subperm_of_subset (by simpa using hff) fun x hx => by
        simp only [List.mem_cons, List.not_mem_nil, or_false] at hx
        rcases hx with rfl | rfl
        · exact List.mem_filter.2 ⟨hf, decide_eq_true he⟩
        · exact List.mem_filter.2 ⟨hf', decide_eq_true he'⟩).length_le
    rw [← List.countP_eq_length_filter] at this
    unfold visits at h2 ⊢
    simp at this
    omega
  have hev : T.hid e = false := ((mem_facesOf (x := f)).1 he).2
  have hpos : 0 < facesAt T c e := by
    rw [hin]
    exact List.countP_pos_iff.2 ⟨f, hm, decide_eq_true ((mem_facesOf (x := f)).1 he).1⟩
  have h2 : ((facesOf T c).filter fun f => decide (e ∈ T.low f)).length = 2 := by
    rw [← List.countP_eq_length_filter]
    have := hcl e
    rw [hin] at this hpos
    omega
  have hsub : ∀ x ∈ (facesOf T c).filter (fun f => decide (e ∈ T.low f)), x ∈ unite.filter fun x => decide (e ∈ facesOf T x) := by
    intro x hx
    obtain ⟨x1, x2⟩ := List.mem_filter.1 hx
    have x3 : e ∈ T.low x := of_decide_eq_true x2
    exact List.mem_filter.2 ⟨O.clear e hv2 x ((I.mem (fun h => h)).1 x3) (mem_facesOf.1 x1).2,
      decide_eq_true (mem_facesOf.2 ⟨x3, hev⟩)⟩
  have hp : ((facesOf T c).filter fun f => decide (e ∈ T.low f)).Perm (unite.filter fun x => decide (e ∈ facesOf T x)) :=
    (List.subperm_of_subset (hn.filter _) hsub).perm_of_length_le (by
      rw [h2, ← List.countP_eq_length_filter]
      exact Nat.le_of_eq hv2)
  exact (List.mem_filter.1 (hp.mem_iff.2 (List.mem_filter.2 ⟨hf', decide_eq_true he'⟩))).1

/-- C90: if the united faces are one piece, then every closed cell is closed afterwards. -/
theorem C90_together (c e : El) (hc : Visible T c) (h3 : c.ty = 3) (hn : (facesOf T c).Nodup)
    (hcl : ∀ e, facesAt T c e = 0 ∨ facesAt T c e = 2) (hj : Joined T unite) (he : Visible T e) (he1 : e.ty = 1) :
    facesAt T' c e = 0 ∨ facesAt T' c e = 2 := by
  rw [C90_closed r A h c e hc h3 he he1 ?_]
  · split
    · exact Or.inl rfl
    · exact hcl e
  · by_cases hex : ∃ f ∈ unite, f ∈ facesOf T c
    · left
      obtain ⟨f, hf, hm⟩ := hex
      intro g' hg
      refine List.count_eq_one_of_mem hn ?_
      have ch := hj f hf g' hg
      clear hg
      induction ch with
      | refl => exact hm
      | step _ k1 k2 k3 k4 ih => exact next_cell r A h hc h3 hn hcl k1 k2 k3 k4 ih
    · right
      exact fun f hf hm => hex ⟨f, hf, hm⟩

end

end Verif.Split
