import Verif.CellNodes.Side

/-! Hexahedra, prisms, pyramids and tetrahedra. -/

namespace Verif.CellNodes
open Verif.Topology Verif.EdgeLoop

variable {T : Topo} {c : El} {F : List (List El)}

theorem right_none (tops : List El) : Right tops (List.replicate tops.length none) :=
  ⟨by simp, fun i hi => Or.inl (by rw [List.length_replicate] at hi; simp [hi])⟩

theorem cycle_mem {P l : List El} (h : SameCycle P l) (x : El) : x ∈ P ↔ x ∈ l := h.perm.mem_iff

theorem kind_all {base tops P : List El} (h : SameCycle P base) (h2 : base.length ≠ 2) : Kind base tops P := by
  refine .other ?_
  rw [(h.perm.filter _).length_eq, List.filter_eq_self.2 (by simp)]
  exact h2

theorem kind_none {base tops P : List El} (h : SameCycle P tops) (hd : ∀ x ∈ base, ∀ y ∈ tops, x ≠ y) : Kind base tops P := by
  refine .other ?_
  rw [(h.perm.filter _).length_eq, List.filter_eq_nil_iff.2]
  · simp
  · intro y hy
    simp only [decide_eq_true_eq]
    exact fun hb => hd y hb y hy rfl

theorem hex_restore (hF : Polygons T c F) {ns : List El} (h : Numbered F hexFaces 8 ns) :
    ∃ ns' f P, restoreHex T c = some ns' ∧ Numbered F hexFaces 8 ns' ∧ (facesOf T c).head? = some f ∧ F.head? = some P ∧
      Inward T c f P (ns'.take 4) := by
  have hFp : List.Forall₂ (Poly T) (facesOf T c) F := hF
  cases hfs : facesOf T c with
  | nil =>
    rw [hfs] at hFp
    cases hFp
    obtain ⟨a, b, c, d, e, f, g, k, rfl⟩ := list8 h.length
    have := h.shape.length
    simp [hexFaces] at this
  | cons f fs =>
    rw [hfs] at hFp
    cases hFp with
    | cons hf hrest =>
      rename_i P F'
      obtain ⟨g, hg, hPg⟩ := h.shape.mem (List.mem_cons_self ..)
      have hs := seen_poly (c := c) hf
      obtain ⟨hcyc, hinw⟩ := seen_cycle hf hs
      generalize hbase : (if outside T f c then P.reverse else P) = base at *
      obtain ⟨ns', hN, hbe⟩ := hex_base h hg (hcyc.trans hPg)
      refine ⟨ns', f, P, ?_, hN, rfl, rfl, hbe ▸ hinw⟩
      obtain ⟨a, b, c', d, e, f', g', k, rfl⟩ := list8 hN.length
      have hnd := hN.nodup
      rw [show [a, b, c', d, e, f', g', k] = [a, b, c', d] ++ [e, f', g', k] from rfl, List.nodup_append] at hnd
      obtain ⟨hn, -, hd⟩ := hnd
      change [a, b, c', d] = base at hbe
      subst hbe
      have nb : ∀ y ∈ [e, f', g', k], y ∉ [a, b, c', d] := fun y hy hb => hd y hb y hy rfl
      have ne := nb e (by simp)
      have nf := nb f' (by simp)
      have ng := nb g' (by simp)
      have nk := nb k (by simp)
      have hK : ∀ Q ∈ F', Kind [a, b, c', d] [e, f', g', k] Q := by
        intro Q hQ
        obtain ⟨q, hq, hc⟩ := hN.shape.mem (List.mem_cons_of_mem _ hQ)
        simp only [hexFaces, List.mem_cons, List.not_mem_nil, or_false] at hq
        rcases hq with rfl | rfl | rfl | rfl | rfl | rfl
        · exact kind_all hc (by simp)
        · exact kind_none hc hd
        · exact .side 0 1 _ _ _ _ rfl rfl rfl rfl (by decide) nf ne hc
        · exact .side 1 2 _ _ _ _ rfl rfl rfl rfl (by decide) ng nf hc
        · exact .side 2 3 _ _ _ _ rfl rfl rfl rfl (by decide) nk ng hc
        · exact .side 3 0 _ _ _ _ rfl rfl rfl rfl (by decide) ne nk hc
      obtain ⟨us', e1, hR, -, hall⟩ := sides_spec (T := T) (n := 4) (tops := [e, f', g', k]) hn rfl fs F' _ hrest hK
        (right_none [e, f', g', k])
      have rest : ∀ q ∈ hexFaces [a, b, c', d, e, f', g', k], (∃ y ∈ q, y ∉ [a, b, c', d]) → ∃ Q ∈ F', SameCycle Q q := by
        intro q hq hy
        obtain ⟨Q, hQ, hc⟩ := hN.shape.mem' hq
        rcases List.mem_cons.1 hQ with rfl | hQ
        · obtain ⟨y, hy, hyb⟩ := hy
          exact absurd ((cycle_mem hcyc y).2 ((cycle_mem hc y).2 hy)) hyb
        · exact ⟨Q, hQ, hc⟩
      obtain ⟨Q1, m1, c1⟩ := rest [a, b, f', e] (by simp [hexFaces]) ⟨e, by simp, ne⟩
      obtain ⟨Q2, m2, c2⟩ := rest [c', d, k, g'] (by simp [hexFaces]) ⟨k, by simp, nk⟩
      have r1 := hall Q1 m1 0 1 a b f' e rfl rfl rfl rfl (by decide) nf ne c1
      have r2 := hall Q2 m2 2 3 c' d k g' rfl rfl rfl rfl (by decide) nk ng c2
      have hus : us' = [e, f', g', k].map some := by
        refine right_full hR fun i z hz => ?_
        match i, hz with
        | 0, hz => rw [r1.1]; exact congrArg some hz
        | 1, hz => rw [r1.2]; exact congrArg some hz
        | 2, hz => rw [r2.1]; exact congrArg some hz
        | 3, hz => rw [r2.2]; exact congrArg some hz
        | (i + 4), hz => simp at hz
      unfold restoreHex
      rw [hfs]
      simp only [hs, hbase]
      rw [show (8 : Nat) = 4 + 4 from rfl, resize_eq (n := 4) rfl]
      change sides T 4 [a, b, c', d] fs ([a, b, c', d].map some ++ List.replicate 4 none) = _ at e1
      rw [e1, hus, ← List.map_append]
      simp only [allValid_map]
      rfl

theorem forall2_find {A B : Type} {R : A → B → Prop} {p : A → Bool} {q : B → Bool} : ∀ {l : List A} {m : List B},
    List.Forall₂ R l m → (∀ x y, R x y → p x = q y) →
    (l.find? p = none ∧ ∀ y ∈ m, q y = false) ∨ ∃ x y, l.find? p = some x ∧ m.find? q = some y ∧ R x y ∧ q y = true ∧ y ∈ m
  | [], [], .nil, _ => Or.inl ⟨rfl, by simp⟩
  | x :: l, y :: m, .cons h hs, hp => by
    have e := hp x y h
    cases hq : q y with
    | true =>
      right
      exact ⟨x, y, by simp [e, hq], by simp [hq], h, hq, by simp⟩
    | false =>
      rcases forall2_find hs hp with ⟨h1, h2⟩ | ⟨x', y', h1, h2, h3, h4, h5⟩
      · left
        refine ⟨by simp [e, hq, h1], ?_⟩
        intro z hz
        rcases List.mem_cons.1 hz with rfl | hz
        · exact hq
        · exact h2 z hz
      · right
        exact ⟨x', y', by simp [e, hq, h1], by simp [hq, h2], h3, h4, by simp [h5]⟩

/-- The first face with `k` sides. -/
theorem base_of (hF : Polygons T c F) {k : Nat} (he : ∃ Q ∈ F, Q.length = k) :
    ∃ f P base, baseOf T k c = some base ∧ (facesOf T c).find? (fun f => decide ((edgesOf T f).length = k)) = some f ∧
      F.find? (fun P => decide (P.length = k)) = some P ∧ P ∈ F ∧ P.length = k ∧ SameCycle base P ∧ Inward T c f P base := by
  have hFp : List.Forall₂ (Poly T) (facesOf T c) F := hF
  have hpq : ∀ x y, Poly T x y → decide ((edgesOf T x).length = k) = decide (y.length = k) := fun x y h => by
    rw [h.1.corners]
  rcases forall2_find hFp hpq with ⟨-, h⟩ | ⟨f, P, h1, h2, h3, h4, h5⟩
  · obtain ⟨Q, hQ, hl⟩ := he
    exact absurd (h Q hQ) (by simp [hl])
  · have hs := seen_poly (c := c) h3
    obtain ⟨i1, i2⟩ := seen_cycle h3 hs
    refine ⟨f, P, _, ?_, h1, h2, h5, by simpa using h4, i1, i2⟩
    unfold baseOf
    have : (fun f => decide (T.countVis (T.low f) = k)) = fun f => decide ((edgesOf T f).length = k) := by
      funext f; rw [countVis_eq]; rfl
    rw [this, h1]
    exact hs

theorem prism_restore (hF : Polygons T c F) {ns : List El} (h : Numbered F prismFaces 6 ns) :
    ∃ ns' f P, restorePrism T c = some ns' ∧ Numbered F prismFaces 6 ns' ∧
      (facesOf T c).find? (fun f => decide ((edgesOf T f).length = 3)) = some f ∧
      F.find? (fun P => decide (P.length = 3)) = some P ∧ Inward T c f P (ns'.take 3) := by
  have hFp : List.Forall₂ (Poly T) (facesOf T c) F := hF
  obtain ⟨f, P, base, b1, b2, b3, b4, b5, b6, b7⟩ := base_of (k := 3) hF (by
    obtain ⟨a, b, c, d, e, f, rfl⟩ := list6 h.length
    obtain ⟨Q, hQ, hc⟩ := h.shape.mem' (g := [a, b, c]) (by simp [prismFaces])
    exact ⟨Q, hQ, hc.perm.length_eq⟩)
  obtain ⟨g, hg, hPg⟩ := h.shape.mem b4
  obtain ⟨ns', hN, hbe⟩ := prism_base h hg (b6.trans hPg) (by rw [b6.perm.length_eq]; exact b5)
  refine ⟨ns', f, P, ?_, hN, b2, b3, hbe ▸ b7⟩
  obtain ⟨a, b, c', d, e, f', rfl⟩ := list6 hN.length
  have hnd := hN.nodup
  rw [show [a, b, c', d, e, f'] = [a, b, c'] ++ [d, e, f'] from rfl, List.nodup_append] at hnd
  obtain ⟨hn, -, hd⟩ := hnd
  change [a, b, c'] = base at hbe
  subst hbe
  have nb : ∀ y ∈ [d, e, f'], y ∉ [a, b, c'] := fun y hy hb => hd y hb y hy rfl
  have nd := nb d (by simp)
  have ne := nb e (by simp)
  have nf := nb f' (by simp)
  have hK : ∀ Q ∈ F, Kind [a, b, c'] [d, e, f'] Q := by
    intro Q hQ
    obtain ⟨q, hq, hc⟩ := hN.shape.mem hQ
    simp only [prismFaces, List.mem_cons, List.not_mem_nil, or_false] at hq
    rcases hq with rfl | rfl | rfl | rfl | rfl
    · exact kind_all hc (by simp)
    · exact kind_none hc hd
    · exact .side 0 1 _ _ _ _ rfl rfl rfl rfl (by decide) ne nd hc
    · exact .side 1 2 _ _ _ _ rfl rfl rfl rfl (by decide) nf ne hc
    · exact .side 2 0 _ _ _ _ rfl rfl rfl rfl (by decide) nd nf hc
  obtain ⟨us', e1, hR, -, hall⟩ := sides_spec (T := T) (n := 3) (tops := [d, e, f']) hn rfl _ F _ hFp hK (right_none [d, e, f'])
  obtain ⟨Q1, m1, c1⟩ := hN.shape.mem' (g := [a, b, e, d]) (by simp [prismFaces])
  obtain ⟨Q2, m2, c2⟩ := hN.shape.mem' (g := [b, c', f', e]) (by simp [prismFaces])
  have r1 := hall Q1 m1 0 1 a b e d rfl rfl rfl rfl (by decide) ne nd c1
  have r2 := hall Q2 m2 1 2 b c' f' e rfl rfl rfl rfl (by decide) nf ne c2
  have hus : us' = [d, e, f'].map some := by
    refine right_full hR fun i z hz => ?_
    match i, hz with
    | 0, hz => rw [r1.1]; exact congrArg some hz
    | 1, hz => rw [r1.2]; exact congrArg some hz
    | 2, hz => rw [r2.2]; exact congrArg some hz
    | (i + 3), hz => simp at hz
  unfold restorePrism
  rw [b1]
  simp only
  rw [show (6 : Nat) = 3 + 3 from rfl, resize_eq (n := 3) rfl]
  change sides T 3 [a, b, c'] (facesOf T c) ([a, b, c'].map some ++ List.replicate 3 none) = _ at e1
  rw [e1, hus, ← List.map_append]
  simp only [allValid_map]
  rfl

theorem unite_apex {f : El} {P base : List El} {z : El} {n : Nat} (hf : Poly T f P) (hv : OpenEnds T c) (hm : f ∈ facesOf T c)
    (hn : (base ++ [z]).Nodup) (hP : z ∈ P) (hsub : ∀ x ∈ P, x ∈ base ∨ x = z) (hl : base.length + 1 = n) :
    uniteRest T base n f = some (base ++ [z]) := by
  have hz : z ∉ base := by
    rw [List.nodup_append] at hn
    exact fun h => hn.2.2 z h z (by simp) rfl
  have hm' : f ∈ T.low c ∧ T.hid f = false := by
    have := mem_vis.1 hm
    exact ⟨this.1, this.2⟩
  have hmask := getNodesMask_spec (priv := true) (p := fun x => !decide (x ∈ base)) hf.1 hf.2
    (fun e he => hv f hm'.1 hm'.2 e (Or.inl he)) (fun _ e he => hv f hm'.1 hm'.2 e (Or.inr he))
  have hfil : P.filter (fun x => !decide (x ∈ base)) = [z] := by
    have hp : (P.filter (fun x => !decide (x ∈ base))).Perm [z] := by
      rw [List.perm_ext_iff_of_nodup (hf.2.filter _) (by simp)]
      intro x
      rw [List.mem_filter, List.mem_singleton]
      constructor
      · rintro ⟨h1, h2⟩
        rcases hsub x h1 with h | h
        · simp [h] at h2
        · exact h
      · rintro rfl
        exact ⟨hP, by simp [hz]⟩
    exact List.perm_singleton.1 hp
  unfold uniteRest
  rw [hmask, hfil]
  simp only
  rw [distinct_of_nodup hn, if_pos (by simp [hl])]

theorem pyramid_restore (hF : Polygons T c F) (hv : OpenEnds T c) {ns : List El} (h : Numbered F pyramidFaces 5 ns) :
    ∃ ns' f P, restorePyramid T c = some ns' ∧ Numbered F pyramidFaces 5 ns' ∧
      (facesOf T c).find? (fun f => decide ((edgesOf T f).length = 4)) = some f ∧
      F.find? (fun P => decide (P.length = 4)) = some P ∧ Inward T c f P (ns'.take 4) := by
  have hFp : List.Forall₂ (Poly T) (facesOf T c) F := hF
  obtain ⟨f, P, base, b1, b2, b3, b4, b5, b6, b7⟩ := base_of (k := 4) hF (by
    obtain ⟨a, b, c, d, e, rfl⟩ := list5 h.length
    obtain ⟨Q, hQ, hc⟩ := h.shape.mem' (g := [a, b, c, d]) (by simp [pyramidFaces])
    exact ⟨Q, hQ, hc.perm.length_eq⟩)
  obtain ⟨g, hg, hPg⟩ := h.shape.mem b4
  obtain ⟨ns', hN, hbe⟩ := pyramid_base h hg (b6.trans hPg) (by rw [b6.perm.length_eq]; exact b5)
  refine ⟨ns', f, P, ?_, hN, b2, b3, hbe ▸ b7⟩
  obtain ⟨a, b, c', d, e, rfl⟩ := list5 hN.length
  change [a, b, c', d] = base at hbe
  subst hbe
  have hpq : ∀ x y, Poly T x y → decide (nbNodes T (fun _ => true) x = 3) = decide (y.length = 3) := fun x y h => by
    rw [nbNodes_poly h]; simp
  unfold restorePyramid
  rw [b1]
  simp only
  rcases forall2_find hFp hpq with ⟨-, hno⟩ | ⟨g', Q, h1, h2, h3, h4, h5⟩
  · obtain ⟨Q, hQ, hc⟩ := hN.shape.mem' (g := [a, b, e]) (by simp [pyramidFaces])
    exact absurd (hno Q hQ) (by simp [hc.perm.length_eq])
  · rw [h1]
    obtain ⟨q, hq, hc⟩ := hN.shape.mem h5
    have hl : q.length = 3 := by rw [← hc.perm.length_eq]; simpa using h4
    have hmem : g' ∈ facesOf T c := List.mem_of_find?_eq_some h1
    have : e ∈ q ∧ ∀ x ∈ q, x ∈ [a, b, c', d] ∨ x = e := by
      simp only [pyramidFaces, List.mem_cons, List.not_mem_nil, or_false] at hq
      rcases hq with rfl | rfl | rfl | rfl | rfl
      · simp at hl
      all_goals
        refine ⟨by simp, fun x hx => ?_⟩
        simp only [List.mem_cons, List.not_mem_nil, or_false] at hx ⊢
        rcases hx with rfl | rfl | rfl <;> simp
    exact unite_apex h3 hv hmem hN.nodup ((cycle_mem hc e).2 this.1) (fun x hx => this.2 x ((cycle_mem hc x).1 hx)) rfl

theorem tet_restore (hF : Polygons T c F) (hv : OpenEnds T c) {ns : List El} (h : Numbered F tetFaces 4 ns) :
    ∃ ns' f P, restoreTet T c = some ns' ∧ Numbered F tetFaces 4 ns' ∧ (facesOf T c).head? = some f ∧ F.head? = some P ∧
      Inward T c f P (ns'.take 3) := by
  have hFp : List.Forall₂ (Poly T) (facesOf T c) F := hF
  have hlen : F.length = 4 := by
    obtain ⟨a, b, c, d, rfl⟩ := list4 h.length
    exact h.shape.length
  unfold restoreTet
  generalize hfs : facesOf T c = l at *
  match l, F, hFp with
  | [], _, .nil => simp at hlen
  | [_], _, .cons _ .nil => simp at hlen
  | f :: f2 :: fs, P :: P2 :: F', .cons hf (.cons hf2 _) =>
    obtain ⟨g, hg, hPg⟩ := h.shape.mem (List.mem_cons_self ..)
    have hs := seen_poly (c := c) hf
    obtain ⟨hcyc, hinw⟩ := seen_cycle hf hs
    simp only
    rw [hs]
    generalize (if outside T f c then P.reverse else P) = base at *
    obtain ⟨ns', hN, hbe⟩ := tet_base h hg (hcyc.trans hPg)
    refine ⟨ns', f, P, ?_, hN, rfl, rfl, hbe ▸ hinw⟩
    obtain ⟨a, b, c', d, rfl⟩ := list4 hN.length
    change [a, b, c'] = base at hbe
    subst hbe
    have hmem : f2 ∈ facesOf T c := by rw [hfs]; simp
    -- the second face is not the first one
    obtain ⟨F1, hF1, hp1⟩ := hN.shape
    match F1, hF1 with
    | p1 :: p2 :: F1, .cons hp1c (.cons hp2c _) =>
      have hd : d ∉ [a, b, c'] := by
        have hnd := hN.nodup
        rw [show [a, b, c', d] = [a, b, c'] ++ [d] from rfl, List.nodup_append] at hnd
        exact fun h => hnd.2.2 d h d (by simp) rfl
      have hG : tetFaces [a, b, c', d] = [a, b, c'] :: [[a, b, d], [b, c', d], [c', a, d]] := rfl
      rw [hG] at hp1
      have apex : ∀ q ∈ [[a, b, d], [b, c', d], [c', a, d]], d ∈ q ∧ ∀ x ∈ q, x ∈ [a, b, c'] ∨ x = d := by
        intro q hq
        simp only [List.mem_cons, List.not_mem_nil, or_false] at hq
        rcases hq with rfl | rfl | rfl <;>
        · refine ⟨by simp, fun x hx => ?_⟩
          simp only [List.mem_cons, List.not_mem_nil, or_false] at hx ⊢
          rcases hx with rfl | rfl | rfl <;> simp
      have e1 : p1 = [a, b, c'] := by
        rcases List.mem_cons.1 (hp1.mem_iff.1 (List.mem_cons_self ..)) with h | h
        · exact h
        · exact absurd ((cycle_mem hcyc d).2 ((cycle_mem hp1c d).2 (apex p1 h).1)) hd
      rw [e1, List.perm_cons] at hp1
      have := apex p2 (hp1.mem_iff.1 (List.mem_cons_self ..))
      exact unite_apex hf2 hv hmem hN.nodup ((cycle_mem hp2c d).2 this.1) (fun x hx => this.2 x ((cycle_mem hp2c x).1 hx)) rfl

end Verif.CellNodes
