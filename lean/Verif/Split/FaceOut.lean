import Verif.Split.FaceRun

/-! The state after a call of `SplitFace`. -/

namespace Verif.Split
open Verif.Topology Verif.EdgeLoop

variable {T T' : Topo} {flip : Topo → El → Bool} {K : Type} {W : Incident.Meas El K} {dup : Bool} {f : El}
  {edges ret cnodes : List El} {ids : List Nat} {ls : List (List El)}

theorem splitFace_parts (h : splitFace W flip T dup false f edges ids = some (T', ret)) (hne : innerOf T f edges ≠ []) :
    T.alive f = true ∧ (∀ e ∈ edges, T.alive e = true) ∧ ∃ cnodes ls, innerNodes T f edges = some cnodes ∧
      Incident.loops W T.low (innerOf T f edges) (edgesOf T f) = some ls ∧
      T.splitFaceRun flip dup f cnodes ls ids = some (T', ret) := by
  unfold splitFace at h
  split at h
  · cases h
  next h0 =>
  rw [not_or] at h0
  split at h
  · next h1 =>
    rcases h1 with rfl | h1
    · exact absurd rfl hne
    · cases h1
  split at h
  · cases h
  next cnodes h2 =>
  split at h
  · cases h
  next ls h3 =>
  refine ⟨by simpa using h0.1, ?_, cnodes, ls, h2, h3, h⟩
  have := h0.2
  simp only [List.any_eq_true, not_exists, not_and, Bool.not_eq_true'] at this
  exact fun e he => by have := this e he; simpa using this

theorem unmarked_spec {marked : List El} : ∀ (l acc : List El), acc.Nodup →
    (unmarked T marked acc l).Nodup ∧
    ∀ n, n ∈ unmarked T marked acc l ↔ n ∈ acc ∨ (n ∈ l ∧ T.hid n = false ∧ n ∉ marked)
  | [], acc, h => by simp [unmarked, h]
  | m :: l, acc, h => by
    unfold unmarked
    split
    · next hm =>
      obtain ⟨k1, k2⟩ := unmarked_spec (marked := marked) l acc h
      refine ⟨k1, fun n => ?_⟩
      rw [k2, List.mem_cons]
      constructor
      · rintro (h | ⟨h1, h2⟩)
        · exact Or.inl h
        · exact Or.inr ⟨Or.inr h1, h2⟩
      · rintro (h | ⟨rfl | h1, h2, h3⟩)
        · exact Or.inl h
        · rcases hm with hm | hm | hm
          · rw [h2] at hm; cases hm
          · exact absurd hm h3
          · exact Or.inl hm
        · exact Or.inr ⟨h1, h2, h3⟩
    · next hm =>
      rw [not_or, not_or] at hm
      obtain ⟨k1, k2⟩ := unmarked_spec (marked := marked) l (acc ++ [m]) (by
        rw [List.nodup_append]
        refine ⟨h, by simp, ?_⟩
        rintro a ha b hb rfl
        exact hm.2.2 (List.mem_singleton.1 hb ▸ ha))
      refine ⟨k1, fun n => ?_⟩
      rw [k2, List.mem_cons, List.mem_append, List.mem_singleton]
      constructor
      · rintro ((h | rfl) | ⟨h1, h2⟩)
        · exact Or.inl h
        · exact Or.inr ⟨Or.inl rfl, by simpa using hm.1, hm.2.1⟩
        · exact Or.inr ⟨Or.inr h1, h2⟩
      · rintro (h | ⟨rfl | h1, h2⟩)
        · exact Or.inl (Or.inl h)
        · exact Or.inl (Or.inr rfl)
        · exact Or.inr ⟨h1, h2⟩

/-- The corners of a polygon are the nodes of its edges. -/
theorem corner_iff {es ns : List El} (h : Loop T es ns) (n : El) : n ∈ ns ↔ ∃ e ∈ es, n ∈ lowv T e := by
  have P := polygon_of h
  constructor
  · intro hn
    obtain ⟨i, hi⟩ := List.mem_iff_getElem?.1 hn
    obtain ⟨hlt, -⟩ := List.getElem?_eq_some_iff.1 hi
    have hlt' : i < es.length := by rw [← h.corners]; exact hlt
    obtain ⟨a, b, ha, hb, hj⟩ := P.symm_low (List.getElem?_eq_getElem hlt')
    refine ⟨_, List.getElem_mem hlt', (hj n).2 (Or.inl ?_)⟩
    exact Option.some.inj (hi.symm.trans ha)
  · rintro ⟨e, he, hn⟩
    obtain ⟨i, hi⟩ := List.mem_iff_getElem?.1 he
    obtain ⟨a, b, ha, hb, hj⟩ := P.symm_low hi
    rcases (hj n).1 hn with rfl | rfl
    · exact List.mem_of_getElem? ha
    · exact List.mem_of_getElem? hb

/-- The nodes that are connected with the cells. -/
theorem FaceArgs.newNodes (A : FaceArgs T dup f edges) (h : innerNodes T f edges = some cnodes) : cnodes.Nodup ∧
    ∀ n, n ∈ cnodes ↔ T.cn = true ∧ (∃ e ∈ edges, n ∈ T.low e) ∧ ∀ e' ∈ edgesOf T f, n ∉ T.low e' := by
  unfold innerNodes at h
  split at h
  · next hcn =>
    obtain ⟨ns, hL, hn⟩ := A.polygon
    rw [getNodes_spec (f := f) hL hn] at h
    cases h
    obtain ⟨k1, k2⟩ := unmarked_spec (T := T) (marked := ns) (edges.flatMap T.low) [] .nil
    refine ⟨k1, fun n => ?_⟩
    rw [k2, corner_iff hL]
    have hb : (∃ e ∈ edgesOf T f, n ∈ Split.lowv T e) ↔ ∃ e ∈ edgesOf T f, n ∈ T.low e :=
      ⟨fun ⟨e, h1, h2⟩ => ⟨e, h1, A.lowv (Or.inr h1) ▸ h2⟩, fun ⟨e, h1, h2⟩ => ⟨e, h1, (A.lowv (Or.inr h1)).symm ▸ h2⟩⟩
    rw [hb]
    simp only [List.not_mem_nil, false_or, List.mem_flatMap, not_exists, not_and]
    constructor
    · rintro ⟨h1, -, h3⟩; exact ⟨hcn, h1, h3⟩
    · rintro ⟨-, ⟨e, h1, h2⟩, h3⟩
      refine ⟨⟨e, h1, h2⟩, ?_, h3⟩
      obtain ⟨a, b, -, k2, k3, k4⟩ := A.ends e (Or.inl h1)
      rw [k2] at h2
      simp only [List.mem_cons, List.not_mem_nil, or_false] at h2
      rcases h2 with rfl | rfl <;> assumption
  · next hcn =>
    cases h
    exact ⟨.nil, fun n => by simp [hcn]⟩

/-- After the removal of the face. -/
theorem drop_facts (I : Inv T (fun _ => False)) (ht : f.ty = 2) {T1 : Topo}
    (h : T.dropFace flip f (T.cellsOf f) = some T1) :
    T1.hide = T.hide ∧ (∀ x, x ≠ f → T1.alive x = T.alive x ∧ T1.hidden x = T.hidden x) ∧
    (T1.alive f = false ∨ (T1.alive f = true ∧ T1.hid f = true)) ∧
    (∀ x, x ≠ f → (x.ty = 3 → f ∉ T.low x ∨ T.hide = true) → T1.low x = T.low x) ∧
    (∀ x, x.ty = 3 → T1.low x = T.low x ∧ T.hide = true ∨ T1.low x = eraseAll f (T.low x) ∧ T.hide = false) ∧
    (∀ x, x.ty = 3 → T1.high x = T.high x) := by
  obtain ⟨ha, ⟨hh, rfl⟩ | ⟨hh, D⟩⟩ := dropFace_spec I ht h
  · refine ⟨rfl, fun x hx => ⟨rfl, set1_ne _ _ hx⟩, Or.inr ⟨ha, ?_⟩, fun _ _ _ => rfl, fun _ _ => Or.inl ⟨rfl, hh⟩, fun _ _ => rfl⟩
    show (T.hide && set1 T.hidden f true f) = true
    rw [set1_same, hh]; rfl
  · refine ⟨D.hide, fun x hx => ?_, Or.inl ?_, fun x hx h3 => ?_, fun x hx => Or.inr ⟨?_, hh⟩, fun x hx => ?_⟩
    · rw [D.alive, D.hidden, set1_ne _ _ hx, set1_ne _ _ hx]; exact ⟨rfl, rfl⟩
    · rw [D.alive, set1_same]
    · rw [D.low, if_neg hx]
      refine eraseAll_none fun hm => ?_
      have h1 := I.lowTy x f hm
      by_cases hx3 : x.ty = 3
      · rcases h3 hx3 with h | h
        · exact h hm
        · rw [hh] at h; cases h
      · by_cases hx0 : x.ty = 0
        · have := (h1.2 hx0).2; omega
        · have := h1.1 hx0; omega
    · rw [D.low, if_neg (by rintro rfl; omega)]
    · rw [D.high, if_neg (by rintro rfl; omega)]
      refine eraseAll_none fun hm => ?_
      have := ((I.highTy (fun h => h) hm).2 hx).2
      omega

/-- The state after the call. -/
structure FaceOut (T : Topo) (dup : Bool) (f : El) (cnodes : List El) (ls : List (List El)) (ret : List El)
    (T' : Topo) : Prop where
  len : ret.length = ls.length
  nodup : ret.Nodup
  keep : ∀ x, x ≠ f → T.alive x = true → T'.alive x = true ∧ T'.hid x = T.hid x ∧
    (x.ty = 1 ∨ x.ty = 2 → T'.low x = T.low x)
  back : ∀ x, T'.alive x = true → (x ≠ f ∧ T.alive x = true) ∨ x ∈ ret ∨ (x = f ∧ T'.hid f = true)
  rets : ∀ g ∈ ret, g.ty = 2 ∧ T'.alive g = true ∧ T'.hid g = false
  pair : ∀ l g, (l, g) ∈ ls.zip ret → ((T.alive g = false ∨ g = f) ∧ T'.low g = l) ∨
    (dup = true ∧ g ≠ f ∧ T.alive g = true ∧ T.hid g = false ∧ T'.low g = T.low g ∧ (∀ e ∈ l, e ∈ edgesOf T g) ∧
      ∀ e ∈ edgesOf T g, e ∈ l)
  cell : ∀ c ∈ T.cellsOf f, ∃ l0, T'.low c = l0 ++ ret ∧
    l0.filter (fun x => !T'.hid x) = (T.low c).filter fun x => !T.hid x && decide (x ≠ f)
  cells : ∀ c, c.ty = 3 → T.alive c = true → c ∉ T.cellsOf f → T'.low c = T.low c
  cnode : ∀ c ∈ T.cellsOf f, T'.high c = T.high c ++ if T.cn = true then cnodes else []
  ok : SplitFaceOk T f cnodes ls ret

theorem zip_snd {α β : Type} {a : List α} {b : List β} (h : b.length = a.length) : (a.zip b).map Prod.snd = b := by
  rw [List.map_snd_zip (by omega)]

theorem zip_fst {α β : Type} {a : List α} {b : List β} (h : b.length = a.length) : (a.zip b).map Prod.fst = a := by
  rw [List.map_fst_zip (by omega)]

theorem pair_unique {ps : List (List El × El)} (h : (ps.map Prod.snd).Nodup) {l l' : List El} {g : El} (h1 : (l, g) ∈ ps)
    (h2 : (l', g) ∈ ps) : l = l' := by
  have := List.inj_on_of_nodup_map h h1 h2 rfl
  exact congrArg Prod.fst this

theorem face_out (I : Inv T (fun _ => False)) (A : FaceArgs T dup f edges)
    (hfar : Incident.Far W (innerOf T f edges) (edgesOf T f))
    (hal : ∀ e ∈ edges, T.alive e = true) (hcn : innerNodes T f edges = some cnodes)
    (hl : Incident.loops W T.low (innerOf T f edges) (edgesOf T f) = some ls)
    (h : T.splitFaceRun flip dup f cnodes ls ids = some (T', ret)) : FaceOut T dup f cnodes ls ret T' := by
  obtain ⟨T1, T2, h1, h2, h3⟩ := splitFaceRun_parts h
  obtain ⟨d1, d2, d3, d4, d5, d6⟩ := drop_facts I A.face h1
  obtain ⟨I1, c1, -⟩ := dropFace_inv I A.face h1
  have hf2 := A.face
  have hid1 : ∀ x, x ≠ f → T1.hid x = T.hid x := fun x hx => by unfold Topo.hid; rw [d1, (d2 x hx).2]
  have hlow1 : ∀ x, x ≠ f → x.ty ≠ 3 → T1.low x = T.low x := fun x hx h3 => d4 x hx fun h => absurd h h3
  -- edges
  have hedge : ∀ e, e ∈ innerOf T f edges ∨ e ∈ edgesOf T f → T.alive e = true ∧ e.ty = 1 ∧ T.hid e = false := by
    rintro e (he | he)
    · have := (mem_innerOf.1 he).1
      exact ⟨hal e this, A.edge e this⟩
    · obtain ⟨k1, k2⟩ := List.mem_filter.1 he
      have := (I.lowTy f e k1).1 (by omega)
      exact ⟨(I.lowLive k1).1, by omega, by simpa using k2⟩
  have hle : ∀ l ∈ ls, ∀ e ∈ l, T.alive e = true ∧ e.ty = 1 ∧ T.hid e = false := fun l hl' e he =>
    hedge e ((Incident.C86_closed hl hl').2.2.1 e he)
  have hle1 : ∀ l ∈ ls, 3 ≤ l.length ∧ ∀ e ∈ l, T1.alive e = true ∧ e.ty = 1 ∧ T1.hid e = false := by
    intro l hl'
    obtain ⟨ns, hL, -⟩ := A.loop hl hfar hl'
    refine ⟨hL.three, fun e he => ?_⟩
    obtain ⟨k1, k2, k3⟩ := hle l hl' e he
    have hef : e ≠ f := by rintro rfl; omega
    exact ⟨(d2 e hef).1.trans k1, k2, (hid1 e hef).trans k3⟩
  have hU : EdgeUp T1 := by
    intro e g he hg
    have := (I1.highTy (fun h => h) hg).1 (by omega)
    exact ⟨(I1.mem (fun h => h)).2 hg, (I1.highLive (fun h => h) hg).2, by omega⟩
  obtain ⟨p1, p2, p3⟩ := makeFaces_pairs ls ids [] T1 T2 ret hU ⟨rfl, fun x hx => ⟨hx, rfl, rfl⟩,
    fun x h1 h2 => (by rw [h1] at h2; cases h2), by simp⟩ hle1 h2
  rw [List.nil_append] at p3
  -- an old face that was found
  have hgf : ∀ g, T1.alive g = true → T1.hid g = false → g ≠ f := by
    rintro g k1 k2 rfl
    rcases d3 with h | ⟨-, h⟩
    · rw [h] at k1; cases k1
    · rw [h] at k2; cases k2
  have hedges : ∀ g, g ≠ f → g.ty = 2 → edgesOf T1 g = edgesOf T g := by
    intro g hg hg2
    unfold edgesOf
    rw [hlow1 g hg (by omega)]
    refine List.filter_congr fun x hx => ?_
    have := (I.lowTy g x hx).1 (by omega)
    rw [hid1 x (by rintro rfl; omega)]
  have hmin : ∀ g, dup = true → T1.alive g = true → T1.hid g = false → g.ty = 2 → Minimal (lowv T) (edgesOf T1 g) := by
    intro g k0 k1 k2 k3
    have hg := hgf g k1 k2
    rw [hedges g hg k3]
    obtain ⟨ns, P, hn⟩ := A.polygons k0 g (by rw [← (d2 g hg).1]; exact k1) k3 (by rw [← hid1 g hg]; exact k2)
    exact fun L a1 a2 a3 a4 => (polygon_of P).minimal hn a1 a4 a3 a2
  have hzl : ∀ p ∈ ls.zip ret, p.1 ∈ ls ∧ p.2 ∈ ret := fun p hp => List.of_mem_zip hp
  have hret2 : ∀ g ∈ ret, ∃ l, (l, g) ∈ ls.zip ret := by
    intro g hg
    rw [← zip_snd p1] at hg
    obtain ⟨⟨l, g'⟩, hp, rfl⟩ := List.mem_map.1 hg
    exact ⟨l, hp⟩
  have hty : ∀ g ∈ ret, T2.alive g = true ∧ g.ty = 2 := by
    intro g hg
    obtain ⟨l, hp⟩ := hret2 g hg
    exact p3.acc _ hp
  have hnd : ret.Nodup := by
    have := (p2.nodup (low := lowv T) (by simp) (by simp) (by rw [List.nil_append, zip_fst p1]; exact A.order hl hfar)
      (by
        intro p hp
        rw [List.nil_append] at hp
        exact ⟨A.poly hl hfar (hzl p hp).1, fun e he => ((hle1 _ (hzl p hp).1).2 e he).2.2⟩)
      (by
        intro g k0 k1 k2 hg
        rw [List.nil_append, zip_snd p1] at hg
        exact hmin g k0 k1 k2 (hty g hg).2)).1
    rw [List.nil_append, zip_snd p1] at this
    exact this
  -- what a found face is
  have hfound : ∀ l g, (l, g) ∈ ls.zip ret → T1.alive g = true → dup = true ∧ g ≠ f ∧ T.alive g = true ∧ T.hid g = false ∧
      (∀ e ∈ l, e ∈ edgesOf T g) ∧ ∀ e ∈ edgesOf T g, e ∈ l := by
    intro l g hp ha
    obtain ⟨q1, q2, q3⟩ := p2.found _ hp ha
    have hg := hgf g ha q2
    have hg2 := (hty g (hzl _ hp).2).2
    have hsub : ∀ e ∈ l, e ∈ edgesOf T g := by
      intro e he
      rw [← hedges g hg hg2]
      exact List.mem_filter.2 ⟨q3 e he, by simp [((hle1 l (hzl _ hp).1).2 e he).2.2]⟩
    refine ⟨q1, hg, by rw [← (d2 g hg).1]; exact ha, by rw [← hid1 g hg]; exact q2, hsub, ?_⟩
    have P := A.poly hl hfar (hzl _ hp).1
    have := hmin g q1 ha q2 hg2 l P.nodup P.ne P.closed (by rw [hedges g hg hg2]; exact hsub)
    rw [hedges g hg hg2] at this
    exact this
  have hcell : ∀ c ∈ T.cellsOf f, c.ty = 3 ∧ T.alive c = true ∧ c ≠ f := by
    intro c hc
    have hm := (List.mem_filter.1 hc).1
    have := (I.highTy (fun h => h) hm).1 (by omega)
    exact ⟨by omega, (I.highLive (fun h => h) hm).2, by rintro rfl; omega⟩
  obtain ⟨cn1, cn2⟩ := A.newNodes hcn
  have ok : SplitFaceOk T f cnodes ls ret := by
    refine ⟨A.face, A.once, fun l hl' e he => ⟨(hle l hl' e he).1, (hle l hl' e he).2.1⟩, ?_, cn1, ?_, hnd, ?_⟩
    · intro n hn
      obtain ⟨-, ⟨e, he, hne⟩, -⟩ := (cn2 n).1 hn
      have := (I.lowTy e n hne).1 (by have := (A.edge e he).1; omega)
      exact ⟨(I.lowLive hne).1, by have := (A.edge e he).1; omega⟩
    · intro k c hc n hn
      obtain ⟨-, ⟨e, he, hne⟩, hb⟩ := (cn2 n).1 hn
      exact A.inside k e he n hne hb c hc
    · intro c hc g hg hgf' hm
      obtain ⟨l, hp⟩ := hret2 g hg
      have ha : T1.alive g = true := by rw [(d2 g hgf').1]; exact (I.lowLive hm).1
      obtain ⟨q1, -, -, q4, -, q6⟩ := hfound l g hp ha
      obtain ⟨e, he, k1, k2⟩ := A.others q1 c hc g hm hgf' q4
      rcases (Incident.C86_closed hl (hzl _ hp).1).2.2.1 e (q6 e he) with h | h
      · exact k1 (mem_innerOf.1 h).1
      · exact k2 h
  -- the faces are made
  have hlow1c : ∀ c ∈ T.cellsOf f, ∀ g ∈ ret, g ∉ T1.low c := by
    intro c hc g hg hm
    obtain ⟨ha, hb⟩ := I1.lowLive hm
    obtain ⟨l, hp⟩ := hret2 g hg
    have hgf' := (hfound l g hp ha).2.1
    refine ok.other c hc g hg hgf' ?_
    rcases d5 c (hcell c hc).1 with ⟨e, -⟩ | ⟨e, -⟩
    · rw [e] at hm; exact hm
    · rw [e] at hm; exact (mem_eraseAll.1 hm).1
  obtain ⟨-, M⟩ := makeFaces_inv (cells := T.cellsOf f) A.once ls ids [] T1 T1 T2 ret
    ⟨.refl _, rfl, by simp⟩ I1 (fun c hc => ⟨by rw [(d2 c (hcell c hc).2.2).1]; exact (hcell c hc).2.1, (hcell c hc).1⟩)
    (fun l hl' e he => ⟨((hle1 l hl').2 e he).1, ((hle1 l hl').2 e he).2.1⟩)
    (by simpa using hnd) hlow1c h2
  have hlown : ∀ n ∈ cnodes, T2.low n = T.low n := by
    intro n hn
    obtain ⟨k1, k2⟩ := ok.nodes n hn
    have hnf : n ≠ f := by rintro rfl; omega
    rw [M.low n (by rw [(d2 n hnf).1]; exact k1), hlow1 n hnf (by omega)]
  have hcn2 : T2.cn = T.cn := M.cn.trans c1
  obtain ⟨b1, b2, F, l3, u3⟩ := linksLoop_spec ok.nodesOnce (T.cellsOf f) T2 T' A.once
    (fun c hc hm => by have := (hcell c hc).1; have := (ok.nodes c hm).2; omega)
    (fun hcn c hc n hn hm => by
      rw [hlown n hn] at hm
      exact ok.fresh (by rw [← hcn2]; exact hcn) c hc n hn ((I.mem (fun h => h)).1 hm)) h3
  have hid2 : ∀ x, T1.alive x = true → T'.hid x = T1.hid x := by
    intro x hx
    unfold Topo.hid
    rw [F.hide, F.hidden, M.hide, M.hidden x hx]
  have hlow2 : ∀ x, x.ty = 1 ∨ x.ty = 2 → T'.low x = T2.low x := by
    intro x hx
    rw [l3, if_neg (fun h => by have := (hcell x h).1; omega), if_neg (fun h => by have := (ok.nodes x h.2).2; omega)]
    simp
  refine ⟨p1, hnd, ?_, ?_, ?_, ?_, ?_, ?_, ?_, ok⟩
  · intro x hx ha
    have ha1 : T1.alive x = true := by rw [(d2 x hx).1]; exact ha
    refine ⟨by rw [F.alive]; exact M.mono x ha1, by rw [hid2 x ha1, hid1 x hx], fun ht => ?_⟩
    rw [hlow2 x ht, M.low x ha1, hlow1 x hx (by omega)]
  · intro x hx
    rw [F.alive] at hx
    rcases M.kinds x hx with hk | hk
    · by_cases hxf : x = f
      · subst hxf
        rcases d3 with k | ⟨k1, k2⟩
        · rw [k] at hk; cases hk
        · exact Or.inr (Or.inr ⟨rfl, by rw [hid2 x hk]; exact k2⟩)
      · exact Or.inl ⟨hxf, by rw [← (d2 x hxf).1]; exact hk⟩
    · exact Or.inr (Or.inl hk.1)
  · intro g hg
    obtain ⟨k1, k2, k3⟩ := M.ret g hg
    refine ⟨k2, by rw [F.alive]; exact k1, ?_⟩
    unfold Topo.hid at k3 ⊢
    rw [F.hide, F.hidden]; exact k3
  · intro l g hp
    cases ha : T1.alive g with
    | false =>
      left
      refine ⟨?_, ?_⟩
      · by_cases hg : g = f
        · exact Or.inr hg
        · exact Or.inl (by rw [← (d2 g hg).1]; exact ha)
      · rw [hlow2 g (Or.inr (hty g (hzl _ hp).2).2)]
        obtain ⟨l', q1, q2⟩ := p3.new g (hty g (hzl _ hp).2).1 ha
        rw [q2]
        exact pair_unique (by rw [zip_snd p1]; exact hnd) q1 hp
    | true =>
      right
      obtain ⟨q1, q2, q3, q4, q5, q6⟩ := hfound l g hp ha
      refine ⟨q1, q2, q3, q4, ?_, q5, q6⟩
      have hg2 := (hty g (hzl _ hp).2).2
      rw [hlow2 g (Or.inr hg2), M.low g ha, hlow1 g q2 (by omega)]
  · intro c hc
    obtain ⟨k1, k2, k3⟩ := hcell c hc
    refine ⟨T1.low c, ?_, ?_⟩
    · rw [l3, if_pos hc, if_neg (fun h => by have := (ok.nodes c h.2).2; omega),
        M.low c (by rw [(d2 c k3).1]; exact k2)]
      simp
    · have e1 : (T1.low c).filter (fun x => !T'.hid x) = (T1.low c).filter fun x => !T1.hid x := by
        refine List.filter_congr fun x hx => ?_
        rw [hid2 x (I1.lowLive hx).1]
      rw [e1]
      rcases d5 c k1 with ⟨e, hh⟩ | ⟨e, hh⟩
      · rw [e]
        refine List.filter_congr fun x hx => ?_
        by_cases hxf : x = f
        · subst hxf
          rcases d3 with k | ⟨-, k⟩
          · exfalso
            have := (I1.lowLive (e ▸ hx : x ∈ T1.low c)).1
            rw [k] at this; cases this
          · simp [k]
        · simp [hid1 x hxf, hxf]
      · rw [e]
        clear e1 e
        induction T.low c with
        | nil => rfl
        | cons x xs ih =>
          by_cases hxf : x = f
          · subst hxf; simp [eraseAll, ih]
          · simp only [eraseAll, if_neg hxf, List.filter_cons, hid1 x hxf, ih]
            simp [hxf]
  · intro c k1 k2 hc
    have k3 : c ≠ f := by rintro rfl; omega
    rw [l3, if_neg hc, if_neg (fun h => by have := (ok.nodes c h.2).2; omega), M.low c (by rw [(d2 c k3).1]; exact k2)]
    simp only [List.append_nil]
    refine d4 c k3 fun _ => ?_
    cases hh : T.hide with
    | true => exact Or.inr rfl
    | false =>
      refine Or.inl fun hm => hc (List.mem_filter.2 ⟨(I.mem (fun h => h)).1 hm, ?_⟩)
      unfold Topo.hid; rw [hh]; rfl
  · intro c hc
    obtain ⟨k1, k2, k3⟩ := hcell c hc
    rw [u3, M.high c (by rw [(d2 c k3).1]; exact k2) (by omega) (fun h => by have := (hty c h).2; omega), d6 c k1, hcn2]
    congr 1
    simp [hc]

end Verif.Split
