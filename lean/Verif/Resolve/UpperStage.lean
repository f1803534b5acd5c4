import Verif.Resolve.NodeStage
import Verif.Resolve.ListLemmas
import Mathlib.Tactic.Choose

/-!
# The stage of edges, faces and cells
-/

namespace Verif.Resolve

open Verif.Topology (El Topo)

variable {K : Type} [CommRing K] [LinearOrder K] [IsStrictOrderedRing K]
variable {n : Nat} {eps big : K} {dim : Nat} {P : Nat → Part K}

omit [CommRing K] [LinearOrder K] [IsStrictOrderedRing K] in
theorem has_low (H : ∀ p, p < n → Topology.Inv (P p).T fun _ => False) {p t : Nat} (hp : p < n) {e x : El}
    (he : Has P p (t + 1) e) (hx : x ∈ (P p).T.low e) : Has P p t x := by
  have := ((H p hp).lowTy e x hx).1 (by rw [he.1]; omega)
  exact ⟨by have := he.1; omega, ((H p hp).lowLive hx).1⟩

theorem same_refl (h0 : 0 ≤ eps) : ∀ (t p : Nat) (e : El), Same eps P t p e p e
  | 0, _, _ => near_refl h0 _
  | t + 1, p, _ => ⟨fun x hx => ⟨x, hx, same_refl h0 t p x⟩, fun x hx => ⟨x, hx, same_refl h0 t p x⟩⟩

theorem same_symm : ∀ {t p : Nat} {e : El} {q : Nat} {e' : El}, Same eps P t p e q e' → Same eps P t q e' p e
  | 0, _, _, _, _, h => near_symm h
  | _ + 1, _, _, _, _, h =>
    ⟨fun x hx => let ⟨y, hy, h'⟩ := h.2 x hx; ⟨y, hy, same_symm h'⟩,
     fun x hx => let ⟨y, hy, h'⟩ := h.1 x hx; ⟨y, hy, same_symm h'⟩⟩

theorem same_trans (H : ∀ p, p < n → Topology.Inv (P p).T fun _ => False) (W : Tolerance n eps dim P) :
    ∀ {t p q r : Nat} {e e' e'' : El}, p < n → q < n → r < n → Has P p t e → Has P q t e' → Has P r t e'' →
      Same eps P t p e q e' → Same eps P t q e' r e'' → Same eps P t p e r e''
  | 0, p, q, r, e, e', e'', hp, hq, hr, he, he', he'', h1, h2 =>
    near_trans ((ordered_of W).tol _ _ _ ⟨p, e, hp, he, rfl⟩ ⟨q, e', hq, he', rfl⟩ ⟨r, e'', hr, he'', rfl⟩) h1 h2
  | t + 1, p, q, r, e, e', e'', hp, hq, hr, he, he', he'', h1, h2 => by
    constructor
    · intro x hx
      obtain ⟨y, hy, g1⟩ := h1.1 x hx
      obtain ⟨z, hz, g2⟩ := h2.1 y hy
      exact ⟨z, hz, same_trans H W hp hq hr (has_low H hp he hx) (has_low H hq he' hy) (has_low H hr he'' hz) g1 g2⟩
    · intro z hz
      obtain ⟨y, hy, g2⟩ := h2.2 z hz
      obtain ⟨x, hx, g1⟩ := h1.2 y hy
      exact ⟨x, hx, same_trans H W hp hq hr (has_low H hp he hx) (has_low H hq he' hy) (has_low H hr he'' hz) g1 g2⟩

/-- What is known about elements of type `t` when the stage of type `t + 1` begins. -/
structure Known (n : Nat) (eps : K) (P : Nat → Part K) (t : Nat) (pr : Nat → El → List Nat)
    (gid : Nat → El → Int) : Prop where
  listed : ∀ p, p < n → ∀ e, Has P p t e → Listed n eps P p t e (pr p e)
  gid : ∀ p q, p < n → q < n → ∀ e e', Has P p t e → Has P q t e' →
    (gid p e = gid q e' ↔ Same eps P t p e q e')

theorem stage_listed (H : ∀ p, p < n → PartOk (P p)) (W : Tolerance n eps dim P) (D : Distinct n eps P) {t : Nat}
    (ht : t < 3) {pr : Nat → El → List Nat} {gid : Nat → El → Int} (N : Known n eps P t pr gid) {p : Nat} (hp : p < n) :
    ∃ s, stage n P t gid pr p = some s ∧ ∀ e, Has P p (t + 1) e → Listed n eps P p (t + 1) e (s e) := by
  have I : ∀ p, p < n → Topology.Inv (P p).T fun _ => False := fun p hp => (H p hp).inv
  have hlow : ∀ p, p < n → ∀ e, Has P p (t + 1) e → (P p).T.low e ≠ [] := fun p hp e he =>
    (H p hp).filled e he.2 (by rw [he.1]; omega)
  -- the prediction
  have hpred : ∀ p, p < n → ∀ e, Has P p (t + 1) e → (predAt P pr p e).Pairwise (· < ·) ∧
      ∀ q, q ∈ predAt P pr p e ↔ ∀ x, x ∈ (P p).T.low e → q ∈ pr p x := by
    intro p hp e he
    obtain ⟨h1, h2⟩ := lowProcs_spec (pr := pr p) (hlow p hp e he)
      fun x hx => (N.listed p hp x (has_low I hp he hx)).sorted
    have hself : p ∈ lowProcs (pr p) ((P p).T.low e) := (h1 p).2 fun x hx =>
      ((N.listed p hp x (has_low I hp he hx)).mem p).2 ⟨hp, x, has_low I hp he hx, same_refl W.pos.le t p x⟩
    have hne : lowProcs (pr p) ((P p).T.low e) ≠ [] := by
      intro h; rw [h] at hself; cases hself
    unfold predAt predict listOf
    rw [if_neg hne]
    exact ⟨h2, h1⟩
  have hpself : ∀ p, p < n → ∀ e, Has P p (t + 1) e → p ∈ predAt P pr p e := fun p hp e he =>
    ((hpred p hp e he).2 p).2 fun x hx =>
      ((N.listed p hp x (has_low I hp he hx)).mem p).2 ⟨hp, x, has_low I hp he hx, same_refl W.pos.le t p x⟩
  -- neighbours
  have hsh : ∀ p, p < n → ∀ q, q ∈ sharedAt n P t pr p ↔ q < n ∧ q ≠ p ∧ ∃ e, Has P p t e ∧ q ∈ pr p e := by
    intro p hp q
    unfold sharedAt sharedProcs
    rw [List.mem_filter, List.mem_range, Bool.and_eq_true, List.any_eq_true]
    constructor
    · rintro ⟨h1, h2, e, h3, h4⟩
      exact ⟨h1, by simpa using h2, e, (has_els I hp).1 h3, by simpa using h4⟩
    · rintro ⟨h1, h2, e, h3, h4⟩
      exact ⟨h1, by simpa using h2, e, (has_els I hp).2 h3, by simpa using h4⟩
  have hsym : ∀ p q, p < n → q < n → q ∈ sharedAt n P t pr p → p ∈ sharedAt n P t pr q := by
    intro p q hp hq h
    obtain ⟨h1, h2, e, h3, h4⟩ := (hsh p hp q).1 h
    obtain ⟨_, e', he', hs⟩ := ((N.listed p hp e h3).mem q).1 h4
    exact (hsh q hq p).2 ⟨hp, fun h => h2 h.symm, e', he', ((N.listed q hq e' he').mem p).2 ⟨hp, e, h3, same_symm hs⟩⟩
  -- messages
  let recs : Nat → List (List Int) := fun q =>
    (toSend (predAt P pr q) ((P q).els (t + 1)) p).map fun e => ((P q).T.low e).map (gid q)
  have hmemSend : ∀ r q, r < n → ∀ e, e ∈ toSend (predAt P pr r) ((P r).els (t + 1)) q ↔
      Has P r (t + 1) e ∧ q ∈ predAt P pr r e := by
    intro r q hr e
    unfold toSend
    rw [List.mem_filter, has_els I hr]
    simp
  have hmsg : ∀ q, q < n → msgAt P t gid pr q p =
      some (((recs q).length : Int) :: (recs q).flatMap fun ids => (ids.length : Int) :: ids) := by
    intro q hq
    unfold msgAt packMsg
    rw [if_neg ?_]
    · simp only [recs, List.length_map, List.flatMap_map]
    · rw [List.any_eq_true]
      rintro ⟨e, he, h⟩
      have := ((hmemSend q p hq e).1 he).1
      exact hlow q hq e this (by simpa using h)
  -- the search for elements by number
  have hinj : ∀ x y, x ∈ (P p).els t → y ∈ (P p).els t → gid p x = gid p y → x = y := by
    intro x y hx hy h
    have hx := (has_els I hp).1 hx
    have hy := (has_els I hp).1 hy
    exact D.unique p hp t (by omega) x y hx hy ((N.gid p p hp hp x y hx hy).1 h)
  have hfind : ∀ g x, lookup (mapping (gid p) ((P p).els t)) g = some x ↔ Has P p t x ∧ gid p x = g := by
    intro g x
    rw [lookup_spec hinj g x, has_els I hp]
  -- what is found for an element of another processor
  have hsub : ∀ q, q < n → ∀ e', Has P q (t + 1) e' → ∀ sub,
      allFound (lookup (mapping (gid p) ((P p).els t))) (((P q).T.low e').map (gid q)) = some sub →
      (∀ x, x ∈ sub → Has P p t x) ∧ (∀ x, x ∈ sub → ∃ y, y ∈ (P q).T.low e' ∧ Same eps P t p x q y) ∧
      ∀ y, y ∈ (P q).T.low e' → ∃ x, x ∈ sub ∧ Same eps P t p x q y := by
    intro q hq e' he' sub hs
    replace hs := allFound_some hs
    rw [List.forall₂_map_left_iff] at hs
    have hr : ∀ y x, y ∈ (P q).T.low e' → lookup (mapping (gid p) ((P p).els t)) (gid q y) = some x →
        Has P p t x ∧ Same eps P t p x q y := by
      intro y x hy h
      have := (hfind _ _).1 h
      exact ⟨this.1, (N.gid p q hp hq x y this.1 (has_low I hq he' hy)).1 this.2⟩
    have hl : ∀ x, x ∈ sub → ∃ y, y ∈ (P q).T.low e' ∧
        lookup (mapping (gid p) ((P p).els t)) (gid q y) = some x := by
      clear hr
      intro x hx
      generalize hw : (P q).T.low e' = w at hs ⊢
      clear hw
      induction hs with
      | nil => cases hx
      | cons h _ ih =>
        rcases List.mem_cons.1 hx with rfl | hx
        · exact ⟨_, List.mem_cons_self, h⟩
        · obtain ⟨y, hy, h'⟩ := ih hx
          exact ⟨y, List.mem_cons_of_mem _ hy, h'⟩
    have hl' : ∀ y, y ∈ (P q).T.low e' → ∃ x, x ∈ sub ∧
        lookup (mapping (gid p) ((P p).els t)) (gid q y) = some x := by
      clear hr
      intro x hx
      generalize hw : (P q).T.low e' = w at hs hx
      clear hw hl
      induction hs with
      | nil => cases hx
      | cons h _ ih =>
        rcases List.mem_cons.1 hx with rfl | hx
        · exact ⟨_, List.mem_cons_self, h⟩
        · obtain ⟨y, hy, h'⟩ := ih hx
          exact ⟨y, List.mem_cons_of_mem _ hy, h'⟩
    refine ⟨fun x hx => ?_, fun x hx => ?_, fun y hy => ?_⟩
    · obtain ⟨y, hy, h⟩ := hl x hx; exact (hr y x hy h).1
    · obtain ⟨y, hy, h⟩ := hl x hx; exact ⟨y, hy, (hr y x hy h).2⟩
    · obtain ⟨x, hx, h⟩ := hl' y hy; exact ⟨x, hx, (hr y x hy h).2⟩
  have hshared : ∀ q, q < n → ∀ e', Has P q (t + 1) e' → ∀ sub,
      allFound (lookup (mapping (gid p) ((P p).els t))) (((P q).T.low e').map (gid q)) = some sub →
      ∃ r, (P p).T.findShared sub = some r ∧
        (∀ e, r = some e → ∀ x, x ∈ sub → e ∈ (P p).T.high x) ∧
        (r = none → ¬ ∃ e, ∀ x, x ∈ sub → e ∈ (P p).T.high x) := by
    intro q hq e' he' sub hs
    obtain ⟨s1, _, s3⟩ := hsub q hq e' he' sub hs
    obtain ⟨y, hy⟩ := List.exists_mem_of_ne_nil _ (hlow q hq e' he')
    obtain ⟨x, hx, _⟩ := s3 y hy
    obtain ⟨r, h1, h2, h3⟩ := Topology.findShared_spec (T := (P p).T) (arr := sub)
      ⟨x, hx, (H p hp).shown x⟩ fun z hz => ⟨(s1 z hz).2, by rw [(s1 z hz).1]; exact ht⟩
    refine ⟨r, h1, fun e he z hz => (h2 e he).2 z hz ((H p hp).shown z), fun hr => ?_⟩
    rintro ⟨e, he⟩
    exact h3 hr ⟨e, (H p hp).shown e, fun z hz _ => he z hz⟩
  have hup : ∀ e x, e ∈ (P p).T.high x → Has P p t x → Has P p (t + 1) e ∧ x ∈ (P p).T.low e := by
    intro e x he hx
    have hm := ((I p hp).mem (a := x) (b := e) (fun h => h)).2 he
    have hl := (I p hp).lowLive hm
    have hty := (I p hp).lowTy e x hm
    refine ⟨⟨?_, hl.2⟩, hm⟩
    have h3 := (I p hp).tyLe e hl.2
    have hx1 := hx.1
    by_cases h0 : e.ty = 0
    · have := (hty.2 h0).2; omega
    · have := hty.1 h0; omega
  -- the elements read from the messages
  have hread : ∀ q, ∃ R, q < n → readEls (lookup (mapping (gid p) ((P p).els t))) (P p).T (recs q).length
      ((recs q).flatMap fun ids => (ids.length : Int) :: ids) = some R ∧
      ∀ e, Has P p (t + 1) e → (e ∈ R ↔ ∃ e', Has P q (t + 1) e' ∧ Same eps P (t + 1) p e q e') := by
    intro q
    by_cases hq : q < n
    swap
    · exact ⟨[], fun h => absurd h hq⟩
    obtain ⟨R, r1, r2⟩ := readEls_spec (find := lookup (mapping (gid p) ((P p).els t))) (T := (P p).T)
      (recs := recs q) (by
        intro ids hids sub hs
        obtain ⟨e', he', rfl⟩ := List.mem_map.1 hids
        obtain ⟨r, h, _⟩ := hshared q hq e' ((hmemSend q p hq e').1 he').1 sub hs
        rw [h]; simp)
    refine ⟨R, fun _ => ⟨r1, fun e he => ?_⟩⟩
    rw [r2 e]
    constructor
    · rintro ⟨ids, hids, sub, hs, hf⟩
      obtain ⟨e', he', rfl⟩ := List.mem_map.1 hids
      have he' := ((hmemSend q p hq e').1 he').1
      obtain ⟨r, h1, h2, _⟩ := hshared q hq e' he' sub hs
      rw [hf] at h1
      injection h1 with h1
      have h2 := h2 e h1.symm
      refine ⟨e', he', D.whole p q hp hq t ht e e' he he' fun y hy => ?_⟩
      obtain ⟨s1, _, s3⟩ := hsub q hq e' he' sub hs
      obtain ⟨x, hx, hxy⟩ := s3 y hy
      exact ⟨x, (hup e x (h2 x hx) (s1 x hx)).2, hxy⟩
    · rintro ⟨e', he', hs⟩
      have hfound : ∀ g, g ∈ ((P q).T.low e').map (gid q) →
          ∃ x, lookup (mapping (gid p) ((P p).els t)) g = some x := by
        intro g hg
        obtain ⟨y, hy, rfl⟩ := List.mem_map.1 hg
        obtain ⟨x, hx, hxy⟩ := hs.2 y hy
        have hx' := has_low I hp he hx
        exact ⟨x, (hfind _ _).2 ⟨hx', (N.gid p q hp hq x y hx' (has_low I hq he' hy)).2 hxy⟩⟩
      obtain ⟨sub, hsb⟩ := allFound_ex hfound
      have hin : e' ∈ toSend (predAt P pr q) ((P q).els (t + 1)) p := by
        refine (hmemSend q p hq e').2 ⟨he', ((hpred q hq e' he').2 p).2 fun y hy => ?_⟩
        obtain ⟨x, hx, hxy⟩ := hs.2 y hy
        have hy' := has_low I hq he' hy
        exact ((N.listed q hq y hy').mem p).2 ⟨hp, x, has_low I hp he hx, same_symm hxy⟩
      refine ⟨_, List.mem_map.2 ⟨e', hin, rfl⟩, sub, hsb, ?_⟩
      obtain ⟨s1, s2, s3⟩ := hsub q hq e' he' sub hsb
      obtain ⟨r, h1, h2, h3⟩ := hshared q hq e' he' sub hsb
      -- the elements found are below `e`
      have hse : ∀ x, x ∈ sub → e ∈ (P p).T.high x := by
        intro x hx
        obtain ⟨y, hy, hxy⟩ := s2 x hx
        obtain ⟨z, hz, hzy⟩ := hs.2 y hy
        have hz' := has_low I hp he hz
        have : x = z := D.unique p hp t (by omega) x z (s1 x hx) hz'
          (same_trans I W hp hq hp (s1 x hx) (has_low I hq he' hy) hz' hxy (same_symm hzy))
        rw [this]
        exact ((I p hp).mem (a := z) (b := e) (fun h => h)).1 hz
      cases r with
      | none => exact absurd ⟨e, hse⟩ (h3 rfl)
      | some e2 =>
        have h2 := h2 e2 rfl
        obtain ⟨y0, hy0⟩ := List.exists_mem_of_ne_nil _ (hlow q hq e' he')
        obtain ⟨x0, hx0, _⟩ := s3 y0 hy0
        have he2 := (hup e2 x0 (h2 x0 hx0) (s1 x0 hx0)).1
        have hw := D.whole p q hp hq t ht e2 e' he2 he' fun y hy => by
          obtain ⟨x, hx, hxy⟩ := s3 y hy
          exact ⟨x, (hup e2 x (h2 x hx) (s1 x hx)).2, hxy⟩
        have : e2 = e := D.unique p hp (t + 1) (by omega) e2 e he2 he
          (same_trans I W hp hq hp he2 he' he hw (same_symm hs))
        rw [h1, this]
  choose R hR using hread
  -- the loop over processors
  have hnodup : (sharedAt n P t pr p).Nodup := List.nodup_range.sublist List.filter_sublist
  obtain ⟨pr', g1, g2⟩ := replies_spec (find := lookup (mapping (gid p) ((P p).els t))) (T := (P p).T)
    (sent := fun q => toSend (predAt P pr p) ((P p).els (t + 1)) q)
    (msg := fun q => (msgAt P t gid pr q p).getD []) (R := R) (qs := sharedAt n P t pr p) (pr := predAt P pr p)
    hnodup
    (fun q hq => by
      have hq := ((hsh p hp q).1 hq).1
      refine ⟨_, _, by rw [hmsg q hq]; rfl, ?_⟩
      rw [Int.toNat_natCast]
      exact (hR q hq).1)
    (fun e => by
      by_cases he : Has P p (t + 1) e
      · exact Or.inl (hpred p hp e he).1
      · exact Or.inr fun q _ h => he ((hmemSend p q hp e).1 h).1)
    (fun q _ e he => ((hmemSend p q hp e).1 he).2)
  refine ⟨fun e => listOf p (pr' e), ?_, ?_⟩
  · unfold stage
    rw [if_neg, if_neg, g1]
    · rw [List.any_eq_true]
      rintro ⟨q, hq, h⟩
      rw [hmsg q ((hsh p hp q).1 hq).1] at h
      cases h
    · rw [List.any_eq_true]
      rintro ⟨q, hq, h⟩
      have hq := List.mem_range.1 hq
      have : (q ∈ sharedAt n P t pr p) ↔ (p ∈ sharedAt n P t pr q) := ⟨hsym p q hp hq, hsym q p hq hp⟩
      rw [bne_iff_ne] at h
      apply h
      rw [Bool.eq_iff_iff]
      simpa using this
  · intro e he
    obtain ⟨p1, p2⟩ := hpred p hp e he
    have hmem : ∀ x, x ∈ pr' e ↔ x < n ∧ ∃ e', Has P x (t + 1) e' ∧ Same eps P (t + 1) p e x e' := by
      intro x
      rw [(g2 e).2 x p1]
      have hlt : x ∈ predAt P pr p e → x < n := by
        intro h
        obtain ⟨y, hy⟩ := List.exists_mem_of_ne_nil _ (hlow p hp e he)
        exact (((N.listed p hp y (has_low I hp he hy)).mem x).1 ((p2 x).1 h y hy)).1
      by_cases hxp : x = p
      · subst hxp
        refine ⟨fun _ => ⟨hp, e, he, same_refl W.pos.le _ _ _⟩, fun _ => ⟨hpself x hp e he, ?_⟩⟩
        rintro ⟨h, -⟩
        exact ((hsh x hp x).1 h).2.1 rfl
      · constructor
        · rintro ⟨h1, h2⟩
          refine ⟨hlt h1, ((hR x (hlt h1)).2 e he).1 ?_⟩
          by_contra hc
          refine h2 ⟨?_, (hmemSend p x hp e).2 ⟨he, h1⟩, hc⟩
          obtain ⟨y, hy⟩ := List.exists_mem_of_ne_nil _ (hlow p hp e he)
          exact (hsh p hp x).2 ⟨hlt h1, hxp, y, has_low I hp he hy, (p2 x).1 h1 y hy⟩
        · rintro ⟨hx, e', he', hs⟩
          refine ⟨(p2 x).2 fun y hy => ?_, fun h => h.2.2 (((hR x hx).2 e he).2 ⟨e', he', hs⟩)⟩
          obtain ⟨z, hz, hyz⟩ := hs.1 y hy
          exact ((N.listed p hp y (has_low I hp he hy)).mem x).2 ⟨hx, z, has_low I hx he' hz, hyz⟩
    have hne : pr' e ≠ [] := by
      intro h
      have := (hmem p).2 ⟨hp, e, he, same_refl W.pos.le _ _ _⟩
      rw [h] at this; cases this
    show Listed n eps P p (t + 1) e (listOf p (pr' e))
    unfold listOf
    rw [if_neg hne]
    exact ⟨p1.sublist (g2 e).1, hmem⟩

end Verif.Resolve
