import Verif.CellNodes.Type

/-! The computed types of hexahedra, prisms, pyramids, tetrahedra and polygons. -/

namespace Verif.CellNodes
open Verif.Topology Verif.EdgeLoop

variable {T : Topo} {gt : El → Nat} {c : El} {F : List (List El)}

theorem vis_open (hh : T.hide = false) (l : List El) : vis T l = l := by
  unfold vis
  rw [List.filter_eq_self]
  intro x _
  unfold Topo.hid
  simp [hh]

theorem edges_open (hh : T.hide = false) (f : El) : edgesOf T f = T.low f := vis_open hh _

theorem shape_lengths {A : Type} {F G : List (List A)} (h : Shape F G) : (F.map List.length).Perm (G.map List.length) := by
  obtain ⟨F', h1, h2⟩ := h
  refine List.Perm.trans ?_ (h2.map _)
  clear h2
  induction h1 with
  | nil => exact .refl _
  | cons h _ ih =>
    rw [List.map_cons, List.map_cons, h.perm.length_eq]
    exact ih.cons _

theorem dims_const {lc : List El} {d : Int} (h0 : vis T lc ≠ []) (hd : ∀ f ∈ vis T lc, geomDim (gt f) = d) (h1 : -1 ≤ d) (h2 : d ≤ 4) :
    dims T gt lc = (d, d) := by
  unfold dims
  have e : (vis T lc).map (fun x => geomDim (gt x)) = (vis T lc).map fun _ => d := List.map_congr_left hd
  simp only
  rw [e]
  clear e hd
  generalize vis T lc = l at *
  cases l with
  | nil => exact absurd rfl h0
  | cons x l =>
    rw [List.map_cons, List.foldl_cons, List.foldl_cons, max_eq_right h1, min_eq_right h2]
    have : ∀ l : List El, (l.map fun _ => d).foldl max d = d ∧ (l.map fun _ => d).foldl min d = d := by
      intro l
      induction l with
      | nil => exact ⟨rfl, rfl⟩
      | cons y l ih => rw [List.map_cons, List.foldl_cons, List.foldl_cons, max_self, min_self]; exact ih
    rw [(this l).1, (this l).2]

theorem count_types {k t : Nat} : ∀ {fs : List El} {F : List (List El)}, List.Forall₂ (Poly T) fs F →
    (∀ f ∈ fs, (gt f = t ↔ (edgesOf T f).length = k)) → (fs.filter fun x => decide (gt x = t)).length = (F.map List.length).count k
  | [], _, .nil, _ => rfl
  | f :: fs, P :: F, .cons h hs, hk => by
    have ih := count_types hs (fun g hg => hk g (List.mem_cons_of_mem _ hg))
    have hf := hk f (List.mem_cons_self ..)
    rw [← h.1.corners] at hf
    rw [List.map_cons, List.count_cons]
    by_cases hP : P.length = k
    · rw [List.filter_cons_of_pos (by simpa using hf.2 hP), List.length_cons, ih]
      simp [hP]
    · rw [List.filter_cons_of_neg (by simpa using fun h => hP (hf.1 h)), ih]
      simp [hP]

/-- All that is needed about the type of a solid. -/
theorem solid_type (hh : T.hide = false) (hF : Polygons T c F) (hu : OneEdge T c) (ht : FaceTypes T gt c) (need : Bool)
    {G : List (List El)} (hs : Shape F G) (h0 : G ≠ []) (h34 : ∀ P ∈ G, P.length = 3 ∨ P.length = 4)
    (hc : ∀ k ∈ G.flatMap sym, (G.flatMap sym).count k = 2) (hp : G.Pairwise Thin) :
    computeType T gt need 3 (T.low c) =
      (let tris := (G.map List.length).count 3
       let quads := (G.map List.length).count 4
       if tris = 4 && G.length = 4 then 8
       else if quads = 6 && G.length = 6 then 9
       else if tris = 4 && quads = 1 && G.length = tris + quads then 11
       else if quads = 3 && tris = 2 && G.length = tris + quads then 10
       else 12) := by
  have hFp : List.Forall₂ (Poly T) (facesOf T c) F := hF
  have hfo : facesOf T c = T.low c := vis_open hh _
  have hlen : F.length = G.length := hs.length
  have hfl : (T.low c).length = G.length := by rw [← hfo, hFp.length_eq, hlen]
  have hG0 : G.length ≠ 0 := fun h => h0 (List.length_eq_zero_iff.1 h)
  have hcv : T.countVis (T.low c) = G.length := by rw [countVis_eq, vis_open hh, hfl]
  have hsz : ∀ f ∈ T.low c, (edgesOf T f).length = 3 ∨ (edgesOf T f).length = 4 := by
    intro f hf
    rw [← hfo] at hf
    have : ∀ {fs : List El} {F : List (List El)}, List.Forall₂ (Poly T) fs F → ∀ g ∈ fs, ∃ Q ∈ F, Poly T g Q := by
      intro fs F h
      induction h with
      | nil => simp
      | cons h _ ih =>
        intro g hg
        rcases List.mem_cons.1 hg with rfl | hg
        · exact ⟨_, by simp, h⟩
        · obtain ⟨q, hq, hc⟩ := ih g hg
          exact ⟨q, by simp [hq], hc⟩
    obtain ⟨Q, hQ, hfQ⟩ := this hFp f hf
    obtain ⟨q, hq, hcy⟩ := hs.mem hQ
    rw [← hfQ.1.corners, hcy.perm.length_eq]
    exact h34 q hq
  have htri : ∀ f ∈ T.low c, (gt f = 4 ↔ (edgesOf T f).length = 3) := fun f hf => by
    obtain ⟨h3, h4⟩ := ht f hf
    rcases hsz f hf with h | h
    · exact ⟨fun _ => h, fun _ => h3 h⟩
    · exact ⟨fun e => (by rw [h4 h] at e; cases e), fun e => (by omega)⟩
  have hquad : ∀ f ∈ T.low c, (gt f = 5 ↔ (edgesOf T f).length = 4) := fun f hf => by
    obtain ⟨h3, h4⟩ := ht f hf
    rcases hsz f hf with h | h
    · exact ⟨fun e => (by rw [h3 h] at e; cases e), fun e => (by omega)⟩
    · exact ⟨fun _ => h, fun _ => h4 h⟩
  have hFp' : List.Forall₂ (Poly T) (T.low c) F := hfo ▸ hFp
  have e1 := count_types (gt := gt) hFp' htri
  have e2 := count_types (gt := gt) hFp' hquad
  rw [(shape_lengths hs).count_eq] at e1 e2
  have hdim : dims T gt (T.low c) = (2, 2) := by
    refine dims_const ?_ ?_ (by omega) (by omega)
    · rw [vis_open hh]
      intro h
      rw [h] at hfl
      exact hG0 hfl.symm
    · intro f hf
      rw [vis_open hh] at hf
      obtain ⟨h3, h4⟩ := ht f hf
      rcases hsz f hf with h | h
      · rw [h3 h]; rfl
      · rw [h4 h]; rfl
  have hcl := closed_solid hF hu hs hc
  have hso := shareOne_of (edges_open hh) hFp' (thin_shape hs hp)
  unfold computeType
  simp only [hcv, hdim]
  rw [if_neg (by simp [hG0]), if_neg (by simp), if_neg (by simp)]
  unfold solidType
  rw [hcl, Bool.or_true, if_pos rfl, ← hfl, List.take_length, hso, if_pos rfl, vis_open hh, hfl, e1, e2]

theorem hex_dec : (∀ y ∈ (hexFaces [(0 : Fin 8), 1, 2, 3, 4, 5, 6, 7]).flatMap sym, ((hexFaces [(0 : Fin 8), 1, 2, 3, 4, 5, 6, 7]).flatMap sym).count y = 2) ∧
    (hexFaces [(0 : Fin 8), 1, 2, 3, 4, 5, 6, 7]).Pairwise Thin := by decide +kernel

theorem prism_dec : (∀ y ∈ (prismFaces [(0 : Fin 6), 1, 2, 3, 4, 5]).flatMap sym, ((prismFaces [(0 : Fin 6), 1, 2, 3, 4, 5]).flatMap sym).count y = 2) ∧
    (prismFaces [(0 : Fin 6), 1, 2, 3, 4, 5]).Pairwise Thin := by decide +kernel

theorem pyramid_dec : (∀ y ∈ (pyramidFaces [(0 : Fin 5), 1, 2, 3, 4]).flatMap sym, ((pyramidFaces [(0 : Fin 5), 1, 2, 3, 4]).flatMap sym).count y = 2) ∧
    (pyramidFaces [(0 : Fin 5), 1, 2, 3, 4]).Pairwise Thin := by decide +kernel

theorem tet_dec : (∀ y ∈ (tetFaces [(0 : Fin 4), 1, 2, 3]).flatMap sym, ((tetFaces [(0 : Fin 4), 1, 2, 3]).flatMap sym).count y = 2) ∧
    (tetFaces [(0 : Fin 4), 1, 2, 3]).Pairwise Thin := by decide +kernel

section
variable {ns : List El}

theorem hex_facts (hl : ns.length = 8) (hn : ns.Nodup) :
    (∀ k ∈ (hexFaces ns).flatMap sym, ((hexFaces ns).flatMap sym).count k = 2) ∧ (hexFaces ns).Pairwise Thin := by
  obtain ⟨a, b, c, d, e, f, g, k, rfl⟩ := list8 hl
  have hinj := List.nodup_iff_injective_get.1 hn
  have hG : hexFaces [a, b, c, d, e, f, g, k] =
      (hexFaces [(0 : Fin 8), 1, 2, 3, 4, 5, 6, 7]).map (List.map [a, b, c, d, e, f, g, k].get) := rfl
  rw [hG]
  refine ⟨?_, ?_⟩
  · rw [List.flatMap_map]
    simp only [sym_map]
    rw [← List.map_flatMap]
    intro x hx
    obtain ⟨y, hy, rfl⟩ := List.mem_map.1 hx
    rw [List.count_map_of_injective _ _ (Sym2.map.injective hinj)]
    exact hex_dec.1 y hy
  · rw [List.pairwise_map]
    refine List.Pairwise.imp (R := Thin) (fun h => thin_map hinj h) ?_
    exact hex_dec.2

theorem prism_facts (hl : ns.length = 6) (hn : ns.Nodup) :
    (∀ k ∈ (prismFaces ns).flatMap sym, ((prismFaces ns).flatMap sym).count k = 2) ∧ (prismFaces ns).Pairwise Thin := by
  obtain ⟨a, b, c, d, e, f, rfl⟩ := list6 hl
  have hinj := List.nodup_iff_injective_get.1 hn
  have hG : prismFaces [a, b, c, d, e, f] =
      (prismFaces [(0 : Fin 6), 1, 2, 3, 4, 5]).map (List.map [a, b, c, d, e, f].get) := rfl
  rw [hG]
  refine ⟨?_, ?_⟩
  · rw [List.flatMap_map]
    simp only [sym_map]
    rw [← List.map_flatMap]
    intro x hx
    obtain ⟨y, hy, rfl⟩ := List.mem_map.1 hx
    rw [List.count_map_of_injective _ _ (Sym2.map.injective hinj)]
    exact prism_dec.1 y hy
  · rw [List.pairwise_map]
    refine List.Pairwise.imp (R := Thin) (fun h => thin_map hinj h) ?_
    exact prism_dec.2

theorem pyramid_facts (hl : ns.length = 5) (hn : ns.Nodup) :
    (∀ k ∈ (pyramidFaces ns).flatMap sym, ((pyramidFaces ns).flatMap sym).count k = 2) ∧ (pyramidFaces ns).Pairwise Thin := by
  obtain ⟨a, b, c, d, e, rfl⟩ := list5 hl
  have hinj := List.nodup_iff_injective_get.1 hn
  have hG : pyramidFaces [a, b, c, d, e] =
      (pyramidFaces [(0 : Fin 5), 1, 2, 3, 4]).map (List.map [a, b, c, d, e].get) := rfl
  rw [hG]
  refine ⟨?_, ?_⟩
  · rw [List.flatMap_map]
    simp only [sym_map]
    rw [← List.map_flatMap]
    intro x hx
    obtain ⟨y, hy, rfl⟩ := List.mem_map.1 hx
    rw [List.count_map_of_injective _ _ (Sym2.map.injective hinj)]
    exact pyramid_dec.1 y hy
  · rw [List.pairwise_map]
    refine List.Pairwise.imp (R := Thin) (fun h => thin_map hinj h) ?_
    exact pyramid_dec.2

theorem tet_facts (hl : ns.length = 4) (hn : ns.Nodup) :
    (∀ k ∈ (tetFaces ns).flatMap sym, ((tetFaces ns).flatMap sym).count k = 2) ∧ (tetFaces ns).Pairwise Thin := by
  obtain ⟨a, b, c, d, rfl⟩ := list4 hl
  have hinj := List.nodup_iff_injective_get.1 hn
  have hG : tetFaces [a, b, c, d] = (tetFaces [(0 : Fin 4), 1, 2, 3]).map (List.map [a, b, c, d].get) := rfl
  rw [hG]
  refine ⟨?_, ?_⟩
  · rw [List.flatMap_map]
    simp only [sym_map]
    rw [← List.map_flatMap]
    intro x hx
    obtain ⟨y, hy, rfl⟩ := List.mem_map.1 hx
    rw [List.count_map_of_injective _ _ (Sym2.map.injective hinj)]
    exact tet_dec.1 y hy
  · rw [List.pairwise_map]
    refine List.Pairwise.imp (R := Thin) (fun h => thin_map hinj h) ?_
    exact tet_dec.2

end

theorem hex_type (hh : T.hide = false) (hF : Polygons T c F) (hu : OneEdge T c) (ht : FaceTypes T gt c) (need : Bool) {ns : List El}
    (hN : Numbered F hexFaces 8 ns) : computeType T gt need 3 (T.low c) = 9 := by
  obtain ⟨h1, h2⟩ := hex_facts hN.length hN.nodup
  have hs := hN.shape
  obtain ⟨a, b, c', d, e, f, g, k, rfl⟩ := list8 hN.length
  rw [solid_type hh hF hu ht need hs (by simp [hexFaces]) (by simp [hexFaces]) h1 h2]
  rfl

theorem prism_type (hh : T.hide = false) (hF : Polygons T c F) (hu : OneEdge T c) (ht : FaceTypes T gt c) (need : Bool) {ns : List El}
    (hN : Numbered F prismFaces 6 ns) : computeType T gt need 3 (T.low c) = 10 := by
  obtain ⟨h1, h2⟩ := prism_facts hN.length hN.nodup
  have hs := hN.shape
  obtain ⟨a, b, c', d, e, f, rfl⟩ := list6 hN.length
  rw [solid_type hh hF hu ht need hs (by simp [prismFaces]) (by simp [prismFaces]) h1 h2]
  rfl

theorem pyramid_type (hh : T.hide = false) (hF : Polygons T c F) (hu : OneEdge T c) (ht : FaceTypes T gt c) (need : Bool) {ns : List El}
    (hN : Numbered F pyramidFaces 5 ns) : computeType T gt need 3 (T.low c) = 11 := by
  obtain ⟨h1, h2⟩ := pyramid_facts hN.length hN.nodup
  have hs := hN.shape
  obtain ⟨a, b, c', d, e, rfl⟩ := list5 hN.length
  rw [solid_type hh hF hu ht need hs (by simp [pyramidFaces]) (by simp [pyramidFaces]) h1 h2]
  rfl

theorem tet_type (hh : T.hide = false) (hF : Polygons T c F) (hu : OneEdge T c) (ht : FaceTypes T gt c) (need : Bool) {ns : List El}
    (hN : Numbered F tetFaces 4 ns) : computeType T gt need 3 (T.low c) = 8 := by
  obtain ⟨h1, h2⟩ := tet_facts hN.length hN.nodup
  have hs := hN.shape
  obtain ⟨a, b, c', d, rfl⟩ := list4 hN.length
  rw [solid_type hh hF hu ht need hs (by simp [tetFaces]) (by simp [tetFaces]) h1 h2]
  rfl

/-! ### Polygons -/

theorem closed_polygon {ns : List El} {f : El} (h : Poly T f ns) : testClosure T (T.low f) = true := by
  have h3 := h.1.three
  have hl := h.1.corners
  unfold testClosure
  simp only [List.all_eq_true, beq_iff_eq]
  change ∀ e ∈ (edgesOf T f).flatMap (edgesOf T), ((edgesOf T f).flatMap (edgesOf T)).count e = 2
  intro x hx
  have hp : ((edgesOf T f).flatMap (edgesOf T)).Perm (ns ++ ns.rotate 1) := by
    have hs := loop_sides h.1
    have hz : (sym ns).length = (edgesOf T f).length := hs.length_eq.symm
    have gen : ∀ {es : List El} {l m : List El}, l.length = m.length → List.Forall₂ (Side T) es (List.zipWith (fun a b => s(a, b)) l m) →
        (es.flatMap (edgesOf T)).Perm (l ++ m) := by
      intro es l
      induction l generalizing es with
      | nil =>
        intro m hm hs
        cases m with
        | nil => simp only [List.zipWith_nil_left] at hs; cases hs; exact .refl _
        | cons _ _ => simp at hm
      | cons a l ih =>
        intro m hm hs
        cases m with
        | nil => simp at hm
        | cons b m =>
          rw [List.zipWith_cons_cons] at hs
          cases hs with
          | @cons e _ _ _ h hs =>
            rw [List.flatMap_cons]
            obtain ⟨u, v, huv, hj⟩ := h
            have : (edgesOf T e).Perm [a, b] := by
              rw [Sym2.eq_iff] at huv
              rcases huv with ⟨rfl, rfl⟩ | ⟨rfl, rfl⟩ <;> rcases hj with hj | hj <;> unfold edgesOf <;> rw [hj] <;>
                first | exact .refl _ | exact List.Perm.swap _ _ _
            refine (this.append (ih (by simpa using hm) hs)).trans ?_
            simp only [List.cons_append, List.nil_append]
            exact (List.perm_middle.symm).cons a
    exact gen (by simp) hs
  rw [hp.count_eq, List.count_append, (List.rotate_perm ns 1).count_eq]
  have : x ∈ ns := by
    have := hp.mem_iff.1 hx
    rw [List.mem_append, List.mem_rotate, or_self] at this
    exact this
  rw [List.count_eq_one_of_mem h.2 this]

theorem polygon_type {ns : List El} {f : El} (h : Poly T f ns) (need : Bool) (hl : ∀ e ∈ edgesOf T f, gt e = 2) (ty : Nat) (h23 : ty = 2 ∨ ty = 3) :
    computeType T gt need ty (T.low f) = if ns.length = 3 then 4 else if ns.length = 4 then 5 else 6 := by
  have h3 := h.1.three
  have hc := poly_edges h
  have h0 : ns.length ≠ 0 := by rw [h.1.corners]; omega
  have hdim : dims T gt (T.low f) = (1, 1) := by
    refine dims_const ?_ (fun e he => ?_) (by omega) (by omega)
    · intro e
      change edgesOf T f = [] at e
      rw [e] at h3
      simp at h3
    · rw [hl e he]; rfl
  unfold computeType polygonType
  rcases h23 with rfl | rfl <;> simp [hdim, hc, h0, closed_polygon h]

end Verif.CellNodes
