import Verif.Resolve.NodeLemmas

/-!
# The stage of nodes: the list of processors of a node
-/

namespace Verif.Resolve

open Verif.Topology (El Topo)

variable {K : Type} [CommRing K] [LinearOrder K] [IsStrictOrderedRing K]

omit [CommRing K] [LinearOrder K] [IsStrictOrderedRing K] in
theorem mem_els {A : Part K} (I : Topology.Inv A.T fun _ => False) {t : Nat} {e : El} :
    e ∈ A.els t ↔ e.ty = t ∧ A.T.alive e = true := by
  unfold Part.els
  rw [List.mem_filter, List.mem_map]
  constructor
  · rintro ⟨⟨i, _, rfl⟩, h⟩; exact ⟨rfl, h⟩
  · rintro ⟨rfl, h⟩
    exact ⟨⟨e.id, List.mem_range.2 (I.lastLt e h), rfl⟩, h⟩

omit [CommRing K] [LinearOrder K] [IsStrictOrderedRing K] in
theorem els_nodup (A : Part K) (t : Nat) : (A.els t).Nodup := by
  unfold Part.els
  refine List.Nodup.sublist List.filter_sublist ?_
  refine (List.nodup_map_iff_inj_on List.nodup_range).2 fun i _ j _ h => ?_
  injection h

/-- Order of the nodes of one or two processors behaves as an order. -/
structure Ordered (eps : K) (S : List K → Prop) : Prop where
  nonneg : 0 ≤ eps
  len : ∀ a b, S a → S b → a.length = b.length
  tol : ∀ a b c, S a → S b → S c → Tol eps a b c

theorem Ordered.lt_trans {eps : K} {S : List K → Prop} (O : Ordered eps S) {a b c : List K} (ha : S a) (hb : S b)
    (hc : S c) (h1 : cmp eps a b = .lt) (h2 : cmp eps b c = .lt) : cmp eps a c = .lt := by
  have := cmp_trans O.nonneg (O.len a b ha hb) (O.len b c hb hc) (O.tol a b c ha hb hc) (O.tol b a c hb ha hc)
    (O.tol a c b ha hc hb) h1 h2 (by decide) (by decide)
  simpa using this

theorem Ordered.eq_lt {eps : K} {S : List K → Prop} (O : Ordered eps S) {a b c : List K} (ha : S a) (hb : S b)
    (hc : S c) (h1 : cmp eps a b = .eq) (h2 : cmp eps b c = .lt) : cmp eps a c = .lt := by
  have := cmp_trans O.nonneg (O.len a b ha hb) (O.len b c hb hc) (O.tol a b c ha hb hc) (O.tol b a c hb ha hc)
    (O.tol a c b ha hc hb) h1 h2 (by decide) (by decide)
  simpa using this

theorem Ordered.lt_eq {eps : K} {S : List K → Prop} (O : Ordered eps S) {a b c : List K} (ha : S a) (hb : S b)
    (hc : S c) (h1 : cmp eps a b = .lt) (h2 : cmp eps b c = .eq) : cmp eps a c = .lt := by
  have := cmp_trans O.nonneg (O.len a b ha hb) (O.len b c hb hc) (O.tol a b c ha hb hc) (O.tol b a c hb ha hc)
    (O.tol a c b ha hc hb) h1 h2 (by decide) (by decide)
  simpa using this

omit [IsStrictOrderedRing K] in
theorem mem_insertNode {eps : K} {A : Part K} {e x : El} : ∀ {l : List El},
    x ∈ insertNode eps A e l ↔ x = e ∨ x ∈ l
  | [] => by simp [insertNode]
  | y :: l => by
    simp only [insertNode]
    split
    · rw [List.mem_cons, mem_insertNode, List.mem_cons]
      constructor
      · rintro (h | h | h)
        · exact Or.inr (Or.inl h)
        · exact Or.inl h
        · exact Or.inr (Or.inr h)
      · rintro (h | h | h)
        · exact Or.inr (Or.inl h)
        · exact Or.inl h
        · exact Or.inr (Or.inr h)
    · simp

omit [IsStrictOrderedRing K] in
theorem mem_sortNodes {eps : K} {A : Part K} {x : El} : ∀ {l : List El}, x ∈ sortNodes eps A l ↔ x ∈ l
  | [] => by simp [sortNodes]
  | y :: l => by rw [sortNodes, mem_insertNode, mem_sortNodes, List.mem_cons]

theorem insertNode_sorted {eps : K} {A : Part K} {S : List K → Prop} (O : Ordered eps S) {e : El} (he : S (A.coord e)) :
    ∀ {l : List El}, (∀ x, x ∈ l → S (A.coord x) ∧ cmp eps (A.coord x) (A.coord e) ≠ .eq) →
      l.Pairwise (fun x y => cmp eps (A.coord x) (A.coord y) = .lt) →
      (insertNode eps A e l).Pairwise (fun x y => cmp eps (A.coord x) (A.coord y) = .lt)
  | [], _, _ => by simp [insertNode]
  | x :: l, hl, hp => by
    obtain ⟨h1, h2⟩ := List.pairwise_cons.1 hp
    obtain ⟨hx, hne⟩ := hl x List.mem_cons_self
    simp only [insertNode]
    split
    · rename_i h
      refine List.pairwise_cons.2 ⟨fun y hy => ?_, insertNode_sorted O he
        (fun y hy => hl y (List.mem_cons_of_mem _ hy)) h2⟩
      rcases mem_insertNode.1 hy with rfl | hy
      · exact h
      · exact h1 y hy
    · rename_i h
      have hlt : cmp eps (A.coord e) (A.coord x) = .lt := by
        rw [cmp_swap O.nonneg]
        cases hc : cmp eps (A.coord x) (A.coord e) with
        | lt => exact absurd hc h
        | eq => exact absurd hc hne
        | gt => rfl
      refine List.pairwise_cons.2 ⟨fun y hy => ?_, hp⟩
      rcases List.mem_cons.1 hy with rfl | hy
      · exact hlt
      · exact O.lt_trans he hx (hl y (List.mem_cons_of_mem _ hy)).1 hlt (h1 y hy)

theorem sortNodes_sorted {eps : K} {A : Part K} {S : List K → Prop} (O : Ordered eps S) :
    ∀ {l : List El}, l.Nodup → (∀ x, x ∈ l → S (A.coord x)) →
      (∀ x y, x ∈ l → y ∈ l → cmp eps (A.coord x) (A.coord y) = .eq → x = y) →
      (sortNodes eps A l).Pairwise (fun x y => cmp eps (A.coord x) (A.coord y) = .lt)
  | [], _, _, _ => by simp [sortNodes]
  | e :: l, hn, hs, hu => by
    rw [List.nodup_cons] at hn
    refine insertNode_sorted O (hs e List.mem_cons_self) (fun x hx => ?_) (sortNodes_sorted O hn.2
      (fun x hx => hs x (List.mem_cons_of_mem _ hx))
      (fun x y hx hy => hu x y (List.mem_cons_of_mem _ hx) (List.mem_cons_of_mem _ hy)))
    have hx := mem_sortNodes.1 hx
    refine ⟨hs x (List.mem_cons_of_mem _ hx), fun h => hn.1 ?_⟩
    have := hu x e (List.mem_cons_of_mem _ hx) List.mem_cons_self h
    rw [← this]; exact hx

theorem meet_spec {eps : K} {S : List K → Prop} (O : Ordered eps S) : ∀ {A : List (El × List K)} {B : List (List K)},
    (∀ x, x ∈ A → S x.2) → (∀ b, b ∈ B → S b) → A.Pairwise (fun x y => cmp eps x.2 y.2 = .lt) →
    B.Pairwise (fun x y => cmp eps x y = .lt) →
    (∀ e, e ∈ meet eps A B ↔ ∃ a, (e, a) ∈ A ∧ ∃ b, b ∈ B ∧ cmp eps a b = .eq) ∧
      (meet eps A B).Sublist (A.map Prod.fst)
  | [], B, _, _, _, _ => by
    rw [meet]
    · simp
    · intro _ _ _ _ h h'; first | (cases h; done) | (cases h'; done)
  | ea :: A, [], _, _, _, _ => by
    rw [meet]
    · simp
    · intro _ _ _ _ h h'; first | (cases h; done) | (cases h'; done)
  | ea :: A, b :: B, hA, hB, pA, pB => by
    obtain ⟨a1, a2⟩ := List.pairwise_cons.1 pA
    obtain ⟨b1, b2⟩ := List.pairwise_cons.1 pB
    have hea := hA ea List.mem_cons_self
    have hb := hB b List.mem_cons_self
    have hA' : ∀ x, x ∈ A → S x.2 := fun x hx => hA x (List.mem_cons_of_mem _ hx)
    have hB' : ∀ x, x ∈ B → S x := fun x hx => hB x (List.mem_cons_of_mem _ hx)
    rw [meet]
    cases hc : cmp eps ea.2 b with
    | lt =>
      obtain ⟨i1, i2⟩ := meet_spec O (A := A) (B := b :: B) hA' hB a2 pB
      refine ⟨fun e => (i1 e).trans ⟨?_, ?_⟩, i2.trans (List.sublist_cons_self _ _)⟩
      · rintro ⟨a, ha, h⟩; exact ⟨a, List.mem_cons_of_mem _ ha, h⟩
      · rintro ⟨a, ha, b', hb', h⟩
        rcases List.mem_cons.1 ha with h' | ha
        · exfalso
          have : ea.2 = a := by rw [← h']
          rw [← this] at h
          rcases List.mem_cons.1 hb' with rfl | hb'
          · rw [hc] at h; cases h
          · rw [O.lt_trans hea hb (hB' _ hb') hc (b1 _ hb')] at h; cases h
        · exact ⟨a, ha, b', hb', h⟩
    | gt =>
      obtain ⟨i1, i2⟩ := meet_spec O (A := ea :: A) (B := B) hA hB' pA b2
      refine ⟨fun e => (i1 e).trans ⟨?_, ?_⟩, i2⟩
      · rintro ⟨a, ha, b', hb', h⟩; exact ⟨a, ha, b', List.mem_cons_of_mem _ hb', h⟩
      · rintro ⟨a, ha, b', hb', h⟩
        rcases List.mem_cons.1 hb' with rfl | hb'
        · exfalso
          have hba : cmp eps b' ea.2 = .lt := by rw [cmp_swap O.nonneg, hc]; rfl
          rcases List.mem_cons.1 ha with h' | ha
          · have : ea.2 = a := by rw [← h']
            rw [← this, hc] at h; cases h
          · have := O.lt_trans hb hea (hA' _ ha) hba (a1 _ ha)
            rw [cmp_swap O.nonneg] at this
            simp only at this
            rw [h] at this; cases this
        · exact ⟨a, ha, b', hb', h⟩
    | eq =>
      obtain ⟨i1, i2⟩ := meet_spec O (A := A) (B := B) hA' hB' a2 b2
      refine ⟨fun e => ?_, by simpa using i2.cons_cons ea.1⟩
      simp only [List.mem_cons]
      rw [i1 e]
      constructor
      · rintro (rfl | ⟨a, ha, b', hb', h⟩)
        · exact ⟨ea.2, Or.inl rfl, b, Or.inl rfl, hc⟩
        · exact ⟨a, Or.inr ha, b', Or.inr hb', h⟩
      · rintro ⟨a, ha, b', hb', h⟩
        rcases ha with h' | ha
        · left; rw [← h']
        · rcases hb' with rfl | hb'
          · exfalso
            have h1 := a1 _ ha
            have h2 := O.lt_eq hea (hA' _ ha) hb h1 h
            rw [hc] at h2; cases h2
          · exact Or.inr ⟨a, ha, b', hb', h⟩
termination_by A B => A.length + B.length

/-! ## The mesh -/

section
variable {n : Nat} {eps big : K} {dim : Nat} {P : Nat → Part K}

theorem ordered_of (W : Tolerance n eps dim P) :
    Ordered eps (fun a => ∃ p e, p < n ∧ Has P p 0 e ∧ a = (P p).coord e) where
  nonneg := W.pos.le
  len := by
    rintro _ _ ⟨p, e, hp, he, rfl⟩ ⟨q, e', hq, he', rfl⟩
    rw [W.dim p hp e he, W.dim q hq e' he']
  tol := by
    rintro _ _ _ ⟨p, e, hp, he, rfl⟩ ⟨q, e', hq, he', rfl⟩ ⟨r, e'', hr, he'', rfl⟩ i x y z
    exact W.trans p q r hp hq hr e e' e'' he he' he'' i x y z

omit [CommRing K] [LinearOrder K] [IsStrictOrderedRing K] in
theorem has_els (H : ∀ p, p < n → Topology.Inv (P p).T fun _ => False) {p : Nat} (hp : p < n) {t : Nat} {e : El} :
    e ∈ (P p).els t ↔ Has P p t e := mem_els (H p hp)

theorem cmp_same (W : Tolerance n eps dim P) {p q : Nat} (hp : p < n) (hq : q < n) {e e' : El} (he : Has P p 0 e)
    (he' : Has P q 0 e') : cmp eps ((P p).coord e) ((P q).coord e') = .eq ↔ Same eps P 0 p e q e' :=
  cmp_eq_near (by rw [W.dim p hp e he, W.dim q hq e' he'])

theorem sortedNodes_sorted (H : ∀ p, p < n → Topology.Inv (P p).T fun _ => False) (W : Tolerance n eps dim P)
    (hu : ∀ p, p < n → ∀ e e', Has P p 0 e → Has P p 0 e' → Same eps P 0 p e p e' → e = e') {p : Nat} (hp : p < n) :
    (sortedNodes n eps big dim P p).Pairwise (fun x y => cmp eps ((P p).coord x) ((P p).coord y) = .lt) := by
  have hm : ∀ x, x ∈ ((P p).els 0).filter (fun e =>
      (neigh n eps big dim P p).any fun k => inBox eps ((P p).coord e) (boxAt big dim P k)) → Has P p 0 x :=
    fun x hx => (has_els H hp).1 (List.mem_filter.1 hx).1
  refine sortNodes_sorted (ordered_of W) ((els_nodup _ _).sublist List.filter_sublist)
    (fun x hx => ⟨p, x, hp, hm x hx, rfl⟩) fun x y hx hy h => ?_
  exact hu p hp x y (hm x hx) (hm y hy) ((cmp_same W hp hp (hm x hx) (hm y hy)).1 h)

theorem mem_sortedNodes (H : ∀ p, p < n → Topology.Inv (P p).T fun _ => False) {p : Nat} (hp : p < n) {e : El} :
    e ∈ sortedNodes n eps big dim P p ↔ Has P p 0 e ∧
      ∃ k, k ∈ neigh n eps big dim P p ∧ inBox eps ((P p).coord e) (boxAt big dim P k) = true := by
  unfold sortedNodes
  rw [mem_sortNodes, List.mem_filter, has_els H hp, List.any_eq_true]

/-- A node with a copy on `q` is sent to `q`. -/
theorem near_sorted (H : ∀ p, p < n → Topology.Inv (P p).T fun _ => False) (W : Tolerance n eps dim P) {p q : Nat}
    (hp : p < n) (hq : q < n) (hne : q ≠ p) {e e' : El} (he : Has P p 0 e) (he' : Has P q 0 e')
    (hs : Same eps P 0 p e q e') :
    q ∈ neigh n eps big dim P p ∧ e ∈ sortedNodes n eps big dim P p := by
  have hc : Close eps ((P p).coord e) ((P q).coord e') := close_of hs (W.off p q hp hq e e' he he')
  have hw : ∀ r, r < n → ∀ x, Has P r 0 x → Within ((P r).coord x) (boxAt big dim P r) := by
    intro r hr x hx
    refine boxOf_within ?_ (List.mem_map_of_mem ((has_els H hr).2 hx))
    intro y hy
    obtain ⟨z, hz, rfl⟩ := List.mem_map.1 hy
    exact W.dim r hr z ((has_els H hr).1 hz)
  have hn : q ∈ neigh n eps big dim P p := by
    unfold neigh
    rw [List.mem_filter]
    refine ⟨List.mem_range.2 hq, ?_⟩
    rw [Bool.and_eq_true]
    exact ⟨by simpa using hne, overlap_of hc (hw p hp e he) (hw q hq e' he')⟩
  exact ⟨hn, (mem_sortedNodes H hp).2 ⟨he, q, hn, inBox_of hc (hw q hq e' he')⟩⟩

theorem met_spec (H : ∀ p, p < n → Topology.Inv (P p).T fun _ => False) (W : Tolerance n eps dim P)
    (hu : ∀ p, p < n → ∀ e e', Has P p 0 e → Has P p 0 e' → Same eps P 0 p e p e' → e = e') {p q : Nat} (hp : p < n)
    (hq : q < n) (hne : q ≠ p) {e : El} (he : Has P p 0 e) :
    (e ∈ met n eps big dim P p q ↔ ∃ e', Has P q 0 e' ∧ Same eps P 0 p e q e') ∧
      (met n eps big dim P p q).Nodup := by
  have O := ordered_of W
  have sp := sortedNodes_sorted (big := big) H W hu hp
  have sq := sortedNodes_sorted (big := big) H W hu hq
  obtain ⟨h1, h2⟩ := meet_spec O (A := (sortedNodes n eps big dim P p).map fun e => (e, (P p).coord e))
    (B := (sortedNodes n eps big dim P q).map (P q).coord)
    (by
      intro x hx
      obtain ⟨y, hy, rfl⟩ := List.mem_map.1 hx
      exact ⟨p, y, hp, ((mem_sortedNodes H hp).1 hy).1, rfl⟩)
    (by
      intro x hx
      obtain ⟨y, hy, rfl⟩ := List.mem_map.1 hx
      exact ⟨q, y, hq, ((mem_sortedNodes H hq).1 hy).1, rfl⟩)
    (by rw [List.pairwise_map]; exact sp) (by rw [List.pairwise_map]; exact sq)
  constructor
  · unfold met
    rw [h1 e]
    constructor
    · rintro ⟨a, ha, b, hb, h⟩
      obtain ⟨x, hx, hxe⟩ := List.mem_map.1 ha
      injection hxe with g1 g2
      subst g1 g2
      obtain ⟨e', he', rfl⟩ := List.mem_map.1 hb
      have := ((mem_sortedNodes H hq).1 he').1
      exact ⟨e', this, (cmp_same W hp hq he this).1 h⟩
    · rintro ⟨e', he', hs⟩
      refine ⟨(P p).coord e, List.mem_map.2 ⟨e, (near_sorted H W hp hq hne he he' hs).2, rfl⟩, (P q).coord e',
        List.mem_map.2 ⟨e', (near_sorted H W hq hp hne.symm he' he (near_symm hs)).2, rfl⟩, ?_⟩
      exact (cmp_same W hp hq he he').2 hs
  · unfold met
    refine List.Nodup.sublist h2 ?_
    rw [List.map_map]
    have : (Prod.fst ∘ fun e => (e, (P p).coord e)) = (fun e : El => e) := rfl
    rw [this, List.map_id']
    refine sp.imp fun {x y} h => ?_
    rintro rfl
    have := cmp_swap O.nonneg ((P p).coord x) ((P p).coord x)
    rw [h] at this; cases this

theorem nodeProcs_listed (H : ∀ p, p < n → Topology.Inv (P p).T fun _ => False) (W : Tolerance n eps dim P)
    (hu : ∀ p, p < n → ∀ e e', Has P p 0 e → Has P p 0 e' → Same eps P 0 p e p e' → e = e') {p : Nat} (hp : p < n)
    {order : List Nat} (ho : order.Perm (neigh n eps big dim P p)) {e : El} (he : Has P p 0 e) :
    Listed n eps P p 0 e (listOf p (nodeProcs n eps big dim P order p e)) := by
  have hno : ∀ q, q ∈ order → q < n ∧ q ≠ p := by
    intro q hq
    have := ho.subset hq
    unfold neigh at this
    rw [List.mem_filter, List.mem_range, Bool.and_eq_true] at this
    exact ⟨this.1, by simpa using this.2.1⟩
  have hnd : order.Nodup := by
    rw [ho.nodup_iff]
    exact List.nodup_range.sublist List.filter_sublist
  let l : List Nat := p :: order.flatMap fun q => List.replicate ((met n eps big dim P p q).count e) q
  have hmem : ∀ q, q ∈ l ↔ q = p ∨ (q ∈ order ∧ e ∈ met n eps big dim P p q) := by
    intro q
    simp only [l, List.mem_cons, List.mem_flatMap, List.mem_replicate, ne_eq, List.count_eq_zero, not_not]
    constructor
    · rintro (h | ⟨r, hr, h, rfl⟩)
      · exact Or.inl h
      · exact Or.inr ⟨hr, h⟩
    · rintro (h | ⟨hr, h⟩)
      · exact Or.inl h
      · exact Or.inr ⟨q, hr, h, rfl⟩
  have hln : l.Nodup := by
    refine List.nodup_cons.2 ⟨?_, ?_⟩
    · rw [List.mem_flatMap]
      rintro ⟨q, hq, h⟩
      exact (hno q hq).2 (List.mem_replicate.1 h).2.symm
    · rw [List.nodup_flatMap]
      refine ⟨fun q hq => ?_, hnd.imp fun {a b} hab => ?_⟩
      · have := List.nodup_iff_count_le_one.1 (met_spec (big := big) H W hu hp (hno q hq).1 (hno q hq).2 he).2 e
        rw [List.nodup_replicate]; exact this
      · intro x hx hy
        exact hab ((List.mem_replicate.1 hx).2.symm.trans (List.mem_replicate.1 hy).2)
  have hnp : nodeProcs n eps big dim P order p e = l.insertionSort (· ≤ ·) := rfl
  have hperm := List.perm_insertionSort (· ≤ ·) l
  have hne : nodeProcs n eps big dim P order p e ≠ [] := by
    intro h
    rw [hnp] at h
    have : p ∈ l.insertionSort (· ≤ ·) := hperm.mem_iff.2 ((hmem p).2 (Or.inl rfl))
    rw [h] at this; cases this
  have hl : listOf p (nodeProcs n eps big dim P order p e) = l.insertionSort (· ≤ ·) := by
    rw [listOf, if_neg hne, hnp]
  rw [hl]
  constructor
  · have h1 := List.pairwise_insertionSort (· ≤ ·) l
    have h2 : (l.insertionSort (· ≤ ·)).Nodup := hperm.nodup_iff.2 hln
    exact (h1.and h2).imp fun {a b} h => lt_of_le_of_ne h.1 h.2
  · intro q
    rw [hperm.mem_iff, hmem]
    constructor
    · rintro (rfl | ⟨hq, h⟩)
      · exact ⟨hp, e, he, near_refl W.pos.le _⟩
      · exact ⟨(hno q hq).1, (met_spec H W hu hp (hno q hq).1 (hno q hq).2 he).1.1 h⟩
    · rintro ⟨hq, e', he', hs⟩
      by_cases hqp : q = p
      · exact Or.inl hqp
      · exact Or.inr ⟨ho.symm.subset (near_sorted H W hp hq hqp he he' hs).1,
          (met_spec H W hu hp hq hqp he).1.2 ⟨e', he', hs⟩⟩

end

end Verif.Resolve
