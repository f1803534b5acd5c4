import Verif.Parallel.EquilLemmas

/-!
# Properties of EquilibrateGhost (C85)
-/

namespace Verif.Parallel

/-- The mesh after the pass for the elements of type `t`. -/
inductive After (n k : Nat) (near high : Nat → El → List El) (G : Nat → Local Int) : Nat → (Nat → Local Int) → Prop
  | cells {A : Nat → Local Int} : CellStage n k near G A → After n k near high G 3 A
  | low {t : Nat} {A B : Nat → Local Int} : After n k near high G (t + 1) A → LowStage n k t high A B →
      After n k near high G t B

/-- The calls of ReduceData and ExchangeData that EquilibrateGhost makes, with the mesh at that time. -/
inductive EquilCall (n k : Nat) (near high : Nat → El → List El) (G : Nat → Local Int) : Call Int → (Nat → Local Int) → Prop
  | cellReduce {d : Nat → El → Option (List Int)} : (∀ p, p < n → distances (G p) (near p) = some (d p)) →
      EquilCall n k near high G (reduceCall n [(k, distTag)] (fun i => i == 3) minDistance) (withTag k d G)
  | cellExchange {d : Nat → El → Option (List Int)} {G1 : Nat → Local Int} :
      (∀ p, p < n → distances (G p) (near p) = some (d p)) →
      Collective (reduceCall n [(k, distTag)] (fun i => i == 3) minDistance) (withTag k d G) G1 →
      EquilCall n k near high G (exchangeCall n [(k, distTag)] fun i => i == 3) G1
  | lowReduce {t : Nat} {A : Nat → Local Int} : After n k near high G (t + 1) A →
      EquilCall n k near high G (reduceCall n [(k, ownTag)] (fun i => i == t) minOwner)
        (withTag k (fun p => ownersOf t (high p) (A p)) A)
  | lowExchange {t : Nat} {A G1 : Nat → Local Int} : After n k near high G (t + 1) A →
      Collective (reduceCall n [(k, ownTag)] (fun i => i == t) minOwner)
        (withTag k (fun p => ownersOf t (high p) (A p)) A) G1 →
      EquilCall n k near high G (exchangeCall n [(k, ownTag)] fun i => i == t) G1

variable {n k : Nat} {near high : Nat → El → List El} {G G' : Nat → Local Int}

theorem after_iff : Equilibrate n k near high G G' ↔ After n k near high G 0 G' := by
  constructor
  · rintro ⟨A, B, C, h1, h2, h3, h4⟩
    exact .low (.low (.low (.cells h1) h2) h3) h4
  · intro h
    cases h with
    | low h h4 => cases h with
      | low h h3 => cases h with
        | low h h2 => cases h with
          | cells h1 => exact ⟨_, _, _, h1, h2, h3, h4⟩
          | low h h1 =>
            exfalso
            have : ∀ t A, After n k near high G t A → t ≤ 3 := by
              intro t A h
              induction h with
              | cells _ => omega
              | low _ _ ih => omega
            have := this _ _ h
            omega

theorem After.le {t : Nat} (h : After n k near high G t G') : t ≤ 3 := by
  induction h with
  | cells _ => omega
  | low _ _ ih => omega

theorem After.spec (hn : (n : Int) ≤ intMax) (A : Agreed n G) (K : Links n G near high) {t : Nat}
    (h : After n k near high G t G') : SameLists n G G' ∧ Agreed n G' := by
  induction h with
  | cells h1 =>
    obtain ⟨S, A', _⟩ := cellStage_spec A K h1
    exact ⟨S, A'⟩
  | low h h1 ih =>
    obtain ⟨S, A'⟩ := ih
    obtain ⟨S', A'', _⟩ := lowStage_spec (by have := h.le; omega) hn A' (S.links K) h1
    exact ⟨S.trans S', A''⟩

/-- C85: after EquilibrateGhost all copies of an element name the same owner, which is one of the processors that
have it, and the status fits; elements, lists of processors and keys are as before. -/
theorem C85_agreed (n k : Nat) (near high : Nat → El → List El) (G G' : Nat → Local Int) (hn : (n : Int) ≤ intMax)
    (A : Agreed n G) (K : Links n G near high) (h : Equilibrate n k near high G G') :
    Agreed n G' ∧ ∀ p, p < n →
      (G' p).elems = (G p).elems ∧ (G' p).procs = (G p).procs ∧ (G' p).key = (G p).key := by
  obtain ⟨S, A'⟩ := (after_iff.1 h).spec hn A K
  exact ⟨A', fun p hp => ⟨S.elems p hp, S.procs p hp, S.key p hp⟩⟩

theorem SameLists.owned (S : SameLists n G G') (A : Agreed n G) (A' : Agreed n G') {p : Nat} (hp : p < n) {e : El}
    (he : e ∈ (G p).elems) : (G' p).status e = .owned ↔ (G p).status e = .owned := by
  rw [A.owned hp he, A'.owned hp (by rw [S.elems p hp]; exact he), S.procs p hp]

/-- C85: a cell that several processors have goes to the processor on which the fewest steps through neighbours
lead from the cell to a cell of its own, to the one with the least number if there are several. If no copy
reaches an owned cell the owner stays. -/
theorem C85_cells (n k : Nat) (near high : Nat → El → List El) (G G' : Nat → Local Int) (hn : (n : Int) ≤ intMax)
    (A : Agreed n G) (K : Links n G near high) (h : Equilibrate n k near high G G') (p : Nat) (hp : p < n) (c : El)
    (hc : c ∈ (G p).elems) (h3 : c.ty = 3) (hs : (G p).status c ≠ .owned) :
    ((∀ q c', q < n → c' ∈ (G q).elems → SameElem G p c q c' → ∀ j : Nat, Walk (G q) (near q) c' j → intMax ≤ j) ∧
      (G' p).owner c = (G p).owner c) ∨
    ∃ (q : Nat) (c' : El) (j : Nat), q < n ∧ c' ∈ (G q).elems ∧ SameElem G p c q c' ∧ Walk (G q) (near q) c' j ∧
      (j : Int) < intMax ∧ (G' p).owner c = q ∧
      ∀ q' c'' j', q' < n → c'' ∈ (G q').elems → SameElem G p c q' c'' → Walk (G q') (near q') c'' j' →
        j < j' ∨ (j = j' ∧ q ≤ q') := by
  obtain ⟨B2, B1, B0, h1, h2, h4, h5⟩ := h
  obtain ⟨S1, A1, _, x1⟩ := cellStage_spec A K h1
  obtain ⟨S2, A2, o2, _⟩ := lowStage_spec (by decide) hn A1 (S1.links K) h2
  have T2 := S1.trans S2
  obtain ⟨S3, A3, o3, _⟩ := lowStage_spec (by decide) hn A2 (T2.links K) h4
  have T3 := T2.trans S3
  obtain ⟨S4, A4, o4, _⟩ := lowStage_spec (by decide) hn A3 (T3.links K) h5
  have : (G' p).owner c = (B2 p).owner c := by
    rw [o4 p hp c (by rw [T3.elems p hp]; exact hc) (Or.inl (by omega)),
      o3 p hp c (by rw [T2.elems p hp]; exact hc) (Or.inl (by omega)),
      o2 p hp c (by rw [S1.elems p hp]; exact hc) (Or.inl (by omega))]
  rw [this]
  exact x1 p hp c hc h3 hs

/-- C85: elements without copies on other processors stay where they are. -/
theorem C85_owned (n k : Nat) (near high : Nat → El → List El) (G G' : Nat → Local Int) (hn : (n : Int) ≤ intMax)
    (A : Agreed n G) (K : Links n G near high) (h : Equilibrate n k near high G G') (p : Nat) (hp : p < n) (e : El)
    (he : e ∈ (G p).elems) (hs : (G p).status e = .owned) :
    (G' p).owner e = p ∧ (G' p).status e = .owned := by
  obtain ⟨S, A'⟩ := (after_iff.1 h).spec hn A K
  have he' : e ∈ (G' p).elems := by rw [S.elems p hp]; exact he
  have hp' := (A.owned hp he).1 hs
  refine ⟨?_, (S.owned A A' hp he).2 hs⟩
  have := A'.owner p hp e he'
  rw [S.procs p hp, hp', List.mem_singleton] at this
  exact this

/-- C85: a face, edge or node goes to the least of the new owners of the elements above it, on whatever processor they
are. An element with nothing above it on any processor keeps its owner. -/
theorem C85_lower (n k : Nat) (near high : Nat → El → List El) (G G' : Nat → Local Int) (hn : (n : Int) ≤ intMax)
    (A : Agreed n G) (K : Links n G near high) (h : Equilibrate n k near high G G') (p : Nat) (hp : p < n) (e : El)
    (he : e ∈ (G p).elems) (h3 : e.ty < 3) :
    ((∀ q e', q < n → e' ∈ (G q).elems → SameElem G p e q e' → high q e' = []) ∧
      (G' p).owner e = (G p).owner e) ∨
    ((∃ q e' x, q < n ∧ e' ∈ (G q).elems ∧ SameElem G p e q e' ∧ x ∈ high q e' ∧ (G' p).owner e = (G' q).owner x) ∧
      ∀ q e' x, q < n → e' ∈ (G q).elems → SameElem G p e q e' → x ∈ high q e' → (G' p).owner e ≤ (G' q).owner x) := by
  obtain ⟨S, A'⟩ := (after_iff.1 h).spec hn A K
  by_cases hst : (G p).status e = .owned
  · have ho := C85_owned n k near high G G' hn A K h p hp e he hst
    have hl := (A.owned hp he).1 hst
    have hcopy : ∀ q e', q < n → e' ∈ (G q).elems → SameElem G p e q e' → q = p ∧ e' = e := by
      intro q e' hq he' hse
      have : q ∈ (G p).procs e := (A.procs p hp e he q).2 ⟨hq, e', he', hse⟩
      rw [hl, List.mem_singleton] at this
      subst this
      exact ⟨rfl, (A.unique q hq e e' he he' hse).symm⟩
    have hup : ∀ x, x ∈ high p e → (G' p).owner x = p := by
      intro x hx
      have hxm := (K.up p hp e he h3 x hx).1
      have hox := A'.owner p hp x (by rw [S.elems p hp]; exact hxm)
      rw [S.procs p hp] at hox
      obtain ⟨hq, x', hx', hsx⟩ := (A.procs p hp x hxm _).1 hox
      obtain ⟨e', he', hse⟩ := K.whole p _ hp hq e he h3 x hx x' hx' hsx
      exact (hcopy _ e' hq he' hse).1
    cases hh : high p e with
    | nil =>
      refine Or.inl ⟨fun q e' hq he' hse => ?_, ?_⟩
      · obtain ⟨rfl, rfl⟩ := hcopy q e' hq he' hse
        exact hh
      · rw [ho.1]
        have := A.owner p hp e he
        rw [hl, List.mem_singleton] at this
        exact this.symm
    | cons y l =>
      have hy : y ∈ high p e := by rw [hh]; exact List.mem_cons_self
      refine Or.inr ⟨⟨p, e, y, hp, he, ⟨rfl, rfl⟩, hy, by rw [ho.1, hup y hy]⟩, fun q e' x hq he' hse hx => ?_⟩
      obtain ⟨rfl, rfl⟩ := hcopy q e' hq he' hse
      rw [ho.1, hup x hx]
      exact Nat.le_refl _
  obtain ⟨B2, B1, B0, h1, h2, h4, h5⟩ := h
  obtain ⟨S1, A1, o1, _⟩ := cellStage_spec A K h1
  obtain ⟨S2, A2, o2, x2⟩ := lowStage_spec (by decide) hn A1 (S1.links K) h2
  have T2 := S1.trans S2
  obtain ⟨S3, A3, o3, x3⟩ := lowStage_spec (by decide) hn A2 (T2.links K) h4
  have T3 := T2.trans S3
  obtain ⟨S4, A4, o4, x4⟩ := lowStage_spec (by decide) hn A3 (T3.links K) h5
  -- owners after a pass are final for its type
  have f3 : ∀ q, q < n → ∀ x, x ∈ (G q).elems → x.ty = 3 → (G' q).owner x = (B2 q).owner x := fun q hq x hx ht => by
    rw [o4 q hq x (by rw [T3.elems q hq]; exact hx) (Or.inl (by omega)),
      o3 q hq x (by rw [T2.elems q hq]; exact hx) (Or.inl (by omega)),
      o2 q hq x (by rw [S1.elems q hq]; exact hx) (Or.inl (by omega))]
  have f2 : ∀ q, q < n → ∀ x, x ∈ (G q).elems → x.ty = 2 → (G' q).owner x = (B1 q).owner x := fun q hq x hx ht => by
    rw [o4 q hq x (by rw [T3.elems q hq]; exact hx) (Or.inl (by omega)),
      o3 q hq x (by rw [T2.elems q hq]; exact hx) (Or.inl (by omega))]
  have f1 : ∀ q, q < n → ∀ x, x ∈ (G q).elems → x.ty = 1 → (G' q).owner x = (B0 q).owner x := fun q hq x hx ht => by
    rw [o4 q hq x (by rw [T3.elems q hq]; exact hx) (Or.inl (by omega))]
  -- a pass, with final owners
  have pass : ∀ (H H' : Nat → Local Int), SameLists n G H →
      (∀ q, q < n → ∀ x, x ∈ (G q).elems → x.ty = e.ty + 1 → (G' q).owner x = (H q).owner x) →
      (G' p).owner e = (H' p).owner e → (H p).owner e = (G p).owner e →
      (((∀ q e', q < n → e' ∈ (H q).elems → SameElem H p e q e' → high q e' = []) ∧
        (H' p).owner e = (H p).owner e) ∨
      ((∃ q e' x, q < n ∧ e' ∈ (H q).elems ∧ SameElem H p e q e' ∧ x ∈ high q e' ∧ (H' p).owner e = (H q).owner x) ∧
        ∀ q e' x, q < n → e' ∈ (H q).elems → SameElem H p e q e' → x ∈ high q e' → (H' p).owner e ≤ (H q).owner x)) →
      ((∀ q e', q < n → e' ∈ (G q).elems → SameElem G p e q e' → high q e' = []) ∧
        (G' p).owner e = (G p).owner e) ∨
      ((∃ q e' x, q < n ∧ e' ∈ (G q).elems ∧ SameElem G p e q e' ∧ x ∈ high q e' ∧ (G' p).owner e = (G' q).owner x) ∧
        ∀ q e' x, q < n → e' ∈ (G q).elems → SameElem G p e q e' → x ∈ high q e' → (G' p).owner e ≤ (G' q).owner x) := by
    intro H H' SH hf hG' hH hx
    have hx' : ∀ q e' x, q < n → e' ∈ (G q).elems → SameElem G p e q e' → x ∈ high q e' →
        (G' q).owner x = (H q).owner x := by
      intro q e' x hq he' hse hx
      obtain ⟨a, b⟩ := K.up q hq e' he' (by have := hse.1; omega) x hx
      exact hf q hq x a (by rw [b, hse.1])
    rcases hx with ⟨a, b⟩ | ⟨⟨q, e', x, a1, a2, a3, a4, a5⟩, b⟩
    · exact Or.inl ⟨fun q e' hq he' hse => a q e' hq (by rw [SH.elems q hq]; exact he') ((SH.sameElem hp hq).2 hse),
        by rw [hG', b, hH]⟩
    · have a2' : e' ∈ (G q).elems := by rw [← SH.elems q a1]; exact a2
      have a3' := (SH.sameElem hp a1).1 a3
      refine Or.inr ⟨⟨q, e', x, a1, a2', a3', a4, by rw [hG', a5, hx' q e' x a1 a2' a3' a4]⟩, ?_⟩
      intro q e' x hq he' hse hx
      rw [hG', hx' q e' x hq he' hse hx]
      exact b q e' x hq (by rw [SH.elems q hq]; exact he') ((SH.sameElem hp hq).2 hse) hx
  have he1 : e ∈ (B2 p).elems := by rw [S1.elems p hp]; exact he
  have he2 : e ∈ (B1 p).elems := by rw [T2.elems p hp]; exact he
  have he3 : e ∈ (B0 p).elems := by rw [T3.elems p hp]; exact he
  have g1 := fun h => hst ((S1.owned A A1 hp he).1 h)
  have g2 := fun h => hst ((T2.owned A A2 hp he).1 h)
  have g3 := fun h => hst ((T3.owned A A3 hp he).1 h)
  have w1 : (B2 p).owner e = (G p).owner e := o1 p hp e he (Or.inl (by omega))
  have : e.ty = 2 ∨ e.ty = 1 ∨ e.ty = 0 := by omega
  rcases this with ht | ht | ht
  · exact pass B2 B1 S1 (fun q hq x hx h => f3 q hq x hx (by omega)) (f2 p hp e he ht) w1 (x2 p hp e he1 ht g1)
  · exact pass B1 B0 T2 (fun q hq x hx h => f2 q hq x hx (by omega)) (f1 p hp e he ht)
      (by rw [o2 p hp e he1 (Or.inl (by omega)), w1]) (x3 p hp e he2 ht g2)
  · exact pass B0 G' T3 (fun q hq x hx h => f1 q hq x hx (by omega)) rfl
      (by rw [o3 p hp e he2 (Or.inl (by omega)), o2 p hp e he1 (Or.inl (by omega)), w1]) (x4 p hp e he3 ht g3)

/-- The tag with distances, as the calls need it. -/
theorem distances_len (A : Agreed n G) (K : Links n G near high) {p : Nat} (hp : p < n) :
    ∃ d, distances (G p) (near p) = some d ∧ (∀ e x, d e = some x → x.length = 2) ∧
      ∀ e, e ∈ (G p).elems → e.ty = 3 → (G p).status e ≠ .owned → ∃ x, d e = some x ∧ x.length = 2 := by
  obtain ⟨d, h1, h2, h3⟩ := distances_spec (L := G p) (near := near p) (me := p) (A.nodup p hp)
    (fun c hc hs => by
      have hm := (mem_cellsOf.1 hc).1
      have := A.owner p hp c hm
      rw [(A.owned hp hm).1 hs, List.mem_singleton] at this
      exact this)
    (fun c hc x hx => by
      have hm := mem_cellsOf.1 hc
      exact mem_cellsOf.2 (K.cells p hp c hm.1 hm.2 x hx))
  refine ⟨d, h1, fun e x hx => ?_, fun e he ht hs => ?_⟩
  · by_cases hc : e ∈ cellsOf (G p) ∧ (G p).status e ≠ .owned
    · rcases h3 e hc.1 hc.2 with ⟨h, _⟩ | ⟨j, h, _⟩ <;> rw [h] at hx <;> cases hx <;> rfl
    · rw [h2 e (by
        by_cases h1 : e ∈ cellsOf (G p)
        · exact Or.inr (Decidable.by_contra fun h => hc ⟨h1, h⟩)
        · exact Or.inl h1)] at hx
      cases hx
  · rcases h3 e (mem_cellsOf.2 ⟨he, ht⟩) hs with ⟨h, _⟩ | ⟨j, h, _⟩
    · exact ⟨_, h, rfl⟩
    · exact ⟨_, h, rfl⟩

theorem withTag_sel {d : Nat → El → Option (List Int)} : ∀ p, p < n → (withTag k d G p).sel = fun _ => true :=
  fun _ _ => rfl

theorem cell_callOk (A : Agreed n G) (K : Links n G near high) {d : Nat → El → Option (List Int)}
    (hd : ∀ p, p < n → distances (G p) (near p) = some (d p)) :
    CallOk (reduceCall n [(k, distTag)] (fun i => i == 3) minDistance) (withTag k d G) ∧
    ∀ G1, Collective (reduceCall n [(k, distTag)] (fun i => i == 3) minDistance) (withTag k d G) G1 →
      CallOk (exchangeCall n [(k, distTag)] fun i => i == 3) G1 := by
  have hl : ∀ p, p < n → (∀ e x, d p e = some x → x.length = 2) ∧
      ∀ e, e ∈ (G p).elems → e.ty = 3 → (G p).status e ≠ .owned → ∃ x, d p e = some x ∧ x.length = 2 := by
    intro p hp
    obtain ⟨d', h1, h2⟩ := distances_len A K hp
    rw [hd p hp] at h1
    cases h1
    exact h2
  have A0 : Agreed n (withTag k d G) := withTag_same.agreed A
  have hsz : Sized n [(k, distTag)] (withTag k d G) :=
    withTag_sized (fun _ h => h) rfl fun p hp e _ x hx => (hl p hp).1 e x hx
  refine ⟨⟨A0.distributed fun _ _ _ _ _ _ _ => rfl, hsz, by simp [reduceCall], fun t ht => ?_⟩, fun G1 h1 => ?_⟩
  · rw [show t = (k, distTag) from List.mem_singleton.1 ht]
    exact minDistance_safe
  · obtain ⟨_, _, D1, hs1, _⟩ := combine_mid minDistance_chooses (by decide) A0 withTag_sel (t := 3) rfl rfl hsz
      minDistance_safe (fun p hp e he ht hs => by rw [withTag_data]; exact (hl p hp).2 e he ht hs) h1
    exact exchange_ok D1 hs1 (by simp)

theorem low_callOk (A : Agreed n G) {t : Nat} (ht3 : t < 3) :
    CallOk (reduceCall n [(k, ownTag)] (fun i => i == t) minOwner) (withTag k (fun p => ownersOf t (high p) (G p)) G) ∧
    ∀ G1, Collective (reduceCall n [(k, ownTag)] (fun i => i == t) minOwner)
        (withTag k (fun p => ownersOf t (high p) (G p)) G) G1 →
      CallOk (exchangeCall n [(k, ownTag)] fun i => i == t) G1 := by
  have A0 : Agreed n (withTag k (fun p => ownersOf t (high p) (G p)) G) := withTag_same.agreed A
  have hsz : Sized n [(k, ownTag)] (withTag k (fun p => ownersOf t (high p) (G p)) G) := by
    refine withTag_sized (fun _ h => h) rfl fun p hp e _ x hx => ?_
    replace hx : (if e.ty = t ∧ (G p).status e ≠ .owned then some [leastOwner (G p) (high p e)] else none) = some x := hx
    split at hx
    · cases hx; rfl
    · cases hx
  refine ⟨⟨A0.distributed fun _ _ _ _ _ _ _ => rfl, hsz, by simp [reduceCall], fun t ht => ?_⟩, fun G1 h1 => ?_⟩
  · rw [show t = (k, ownTag) from List.mem_singleton.1 ht]
    exact minOwner_safe
  · obtain ⟨_, _, D1, hs1, _⟩ := combine_mid minOwner_chooses (by decide) A0 withTag_sel (t := t) (by simp [ownTag, ht3])
      rfl hsz minOwner_safe (fun p hp e he ht hs => by
        rw [withTag_data]
        refine ⟨[leastOwner (G p) (high p e)], ?_, rfl⟩
        show (if e.ty = t ∧ (G p).status e ≠ .owned then _ else _) = _
        rw [if_pos ⟨ht, hs⟩]) h1
    exact exchange_ok D1 hs1 (by simp)

theorem after_exists (hn : (n : Int) ≤ intMax) (A : Agreed n G) (K : Links n G near high) :
    ∀ i, i ≤ 3 → ∃ G', After n k near high G (3 - i) G'
  | 0, _ => by
    classical
    have : ∀ p, ∃ d, p < n → distances (G p) (near p) = some d := fun p => by
      by_cases hp : p < n
      · obtain ⟨d, h, _⟩ := distances_len A K hp
        exact ⟨d, fun _ => h⟩
      · exact ⟨fun _ => none, fun h => absurd h hp⟩
    choose d hd using this
    obtain ⟨c1, c2⟩ := cell_callOk (k := k) A K hd
    obtain ⟨G1, h1⟩ := collective_exists c1
    obtain ⟨G2, h2⟩ := collective_exists (c2 G1 h1)
    exact ⟨_, .cells ⟨d, hd, G1, G2, h1, h2, rfl⟩⟩
  | i + 1, hi => by
    obtain ⟨B, hB⟩ := after_exists hn A K i (by omega)
    obtain ⟨_, A'⟩ := hB.spec hn A K
    obtain ⟨c1, c2⟩ := low_callOk (k := k) (high := high) A' (t := 3 - (i + 1)) (by omega)
    obtain ⟨G1, h1⟩ := collective_exists c1
    obtain ⟨G2, h2⟩ := collective_exists (c2 G1 h1)
    rw [show 3 - i = 3 - (i + 1) + 1 by omega] at hB
    exact ⟨_, .low hB ⟨G1, G2, h1, h2, rfl⟩⟩

/-- C85: EquilibrateGhost has an execution that ends; in none of its exchanges an assertion fails or the processors wait
for each other for ever. -/
theorem C85_terminates (n k : Nat) (near high : Nat → El → List El) (G : Nat → Local Int) (hn : (n : Int) ≤ intMax)
    (A : Agreed n G) (K : Links n G near high) :
    (∃ G', Equilibrate n k near high G G') ∧
    (∀ p, p < n → ∃ d, distances (G p) (near p) = some d) ∧
    ∀ C G0, EquilCall n k near high G C G0 → ∀ tr S, Run C G0 tr S →
      (∀ ev, step C S ev ≠ .failed) ∧ (¬ Done C S → ∃ ev S', step C S ev = .ok S') ∧ tr.length ≤ n + n * n := by
  refine ⟨?_, fun p hp => ?_, ?_⟩
  · obtain ⟨G', h⟩ := after_exists (k := k) hn A K 3 (by omega)
    exact ⟨G', after_iff.2 h⟩
  · obtain ⟨d, h, _⟩ := distances_len A K hp
    exact ⟨d, h⟩
  · intro C G0 hC tr S hr
    have : CallOk C G0 ∧ C.n = n := by
      cases hC with
      | cellReduce hd => exact ⟨(cell_callOk A K hd).1, rfl⟩
      | cellExchange hd h1 => exact ⟨(cell_callOk A K hd).2 _ h1, rfl⟩
      | lowReduce h => exact ⟨(low_callOk (h.spec hn A K).2 (by have := h.le; omega)).1, rfl⟩
      | lowExchange h h1 => exact ⟨(low_callOk (h.spec hn A K).2 (by have := h.le; omega)).2 _ h1, rfl⟩
    obtain ⟨H, hn'⟩ := this
    have I := run_inv H hr
    refine ⟨fun ev => (step_inv H I ev).1, progress H I, ?_⟩
    rw [← hn']
    exact run_length I

/-- C85: the result does not depend on the order in which messages arrive. -/
theorem C85_schedule (n k : Nat) (near high : Nat → El → List El) (G G' G'' : Nat → Local Int) (hn : (n : Int) ≤ intMax)
    (A : Agreed n G) (K : Links n G near high) (h : Equilibrate n k near high G G')
    (h' : Equilibrate n k near high G G'') (p : Nat) (hp : p < n) (e : El) (he : e ∈ (G p).elems) (h4 : e.ty ≤ 3) :
    (G' p).owner e = (G'' p).owner e ∧ (G' p).status e = (G'' p).status e := by
  obtain ⟨S1, A1⟩ := (after_iff.1 h).spec hn A K
  obtain ⟨S2, A2⟩ := (after_iff.1 h').spec hn A K
  have cell : ∀ p, p < n → ∀ e, e ∈ (G p).elems → e.ty = 3 → (G' p).owner e = (G'' p).owner e := by
    intro p hp e he h3
    by_cases hs : (G p).status e = .owned
    · rw [(C85_owned n k near high G G' hn A K h p hp e he hs).1,
        (C85_owned n k near high G G'' hn A K h' p hp e he hs).1]
    · rcases C85_cells n k near high G G' hn A K h p hp e he h3 hs with ⟨a, b⟩ | ⟨q, c, j, a1, a2, a3, a4, a5, a6, a7⟩ <;>
      rcases C85_cells n k near high G G'' hn A K h' p hp e he h3 hs with ⟨a', b'⟩ | ⟨q', c', j', b1, b2, b3, b4, b5, b6, b7⟩
      · rw [b, b']
      · have := a q' c' b1 b2 b3 j' b4; omega
      · have := a' q c a1 a2 a3 j a4; omega
      · have := a7 q' c' j' b1 b2 b3 b4
        have := b7 q c j a1 a2 a3 a4
        omega
  have low : ∀ i, i ≤ 3 → ∀ p, p < n → ∀ e, e ∈ (G p).elems → e.ty + i = 3 → (G' p).owner e = (G'' p).owner e := by
    intro i
    induction i with
    | zero => intro _ p hp e he h3; exact cell p hp e he h3
    | succ i ih =>
      intro hi p hp e he h3
      have hup : ∀ q e' x, q < n → e' ∈ (G q).elems → SameElem G p e q e' → x ∈ high q e' →
          (G' q).owner x = (G'' q).owner x := fun q e' x hq he' hs hx => by
        obtain ⟨u1, u2⟩ := K.up q hq e' he' (by have := hs.1; omega) x hx
        have := hs.1
        exact ih (by omega) q hq x u1 (by omega)
      rcases C85_lower n k near high G G' hn A K h p hp e he (by omega) with ⟨a, b⟩ | ⟨⟨q, f, x, a1, a2, a3, a4, a5⟩, a6⟩ <;>
      rcases C85_lower n k near high G G'' hn A K h' p hp e he (by omega) with ⟨a', b'⟩ | ⟨⟨q', f', x', b1, b2, b3, b4, b5⟩, b6⟩
      · rw [b, b']
      · rw [a q' f' b1 b2 b3] at b4; cases b4
      · rw [a' q f a1 a2 a3] at a4; cases a4
      · have e1 := a6 q' f' x' b1 b2 b3 b4
        have e2 := b6 q f x a1 a2 a3 a4
        have e3 := hup q f x a1 a2 a3 a4
        have e4 := hup q' f' x' b1 b2 b3 b4
        omega
  have ho : (G' p).owner e = (G'' p).owner e := low (3 - e.ty) (by omega) p hp e he (by omega)
  refine ⟨ho, ?_⟩
  rw [A1.status p hp e (by rw [S1.elems p hp]; exact he), A2.status p hp e (by rw [S2.elems p hp]; exact he), ho,
    S1.procs p hp, S2.procs p hp]

/-! ## Example: four cells in a row on two processors, the two in the middle are on both -/

/-- On processor 1 everything has other numbers: the number `i` of processor 0 is `3 - i`.  Face 0 is between the
cells 1 and 2, face 1 between 2 and 3 (numbers of processor 0). Everything common belongs to processor 0. -/
def row : Nat → Local Int
  | 0 => {
      elems := [⟨3, 0⟩, ⟨3, 1⟩, ⟨3, 2⟩, ⟨2, 0⟩, ⟨2, 1⟩]
      status := fun e => if e = ⟨3, 0⟩ then .owned else .shared
      owner := fun _ => 0
      procs := fun e => if e = ⟨3, 0⟩ then [0] else [0, 1]
      key := fun e => e.id
      sel := fun _ => false
      data := fun _ _ => none }
  | p => {
      elems := if p = 1 then [⟨3, 0⟩, ⟨3, 1⟩, ⟨3, 2⟩, ⟨2, 3⟩, ⟨2, 2⟩] else []
      status := fun e => if e = ⟨3, 0⟩ then .owned else .ghost
      owner := fun e => if e = ⟨3, 0⟩ then 1 else 0
      procs := fun e => if e = ⟨3, 0⟩ then [1] else [0, 1]
      key := fun e => 3 - e.id
      sel := fun _ => false
      data := fun _ _ => none }

def rowNear (_ : Nat) (c : El) : List El :=
  if c.id = 0 then [⟨3, 1⟩] else if c.id = 1 then [⟨3, 0⟩, ⟨3, 2⟩] else [⟨3, 1⟩]

def rowHigh (p : Nat) (e : El) : List El :=
  if e.ty = 2 then
    if p = 0 then (if e.id = 0 then [⟨3, 1⟩, ⟨3, 2⟩] else [⟨3, 2⟩])
    else (if e.id = 3 then [⟨3, 2⟩, ⟨3, 1⟩] else [⟨3, 1⟩, ⟨3, 0⟩])
  else []

instance {G : Nat → Local Int} {p q : Nat} {e e' : El} : Decidable (SameElem G p e q e') :=
  inferInstanceAs (Decidable (_ ∧ _))

/-- A check with bounds. -/
theorem agreed_of {n : Nat} {G : Nat → Local Int}
    (h1 : ∀ p, p < n → (G p).elems.Nodup ∧ ∀ e, e ∈ (G p).elems → e.ty < 5 ∧ ((G p).procs e).Pairwise (· < ·) ∧
      (G p).owner e ∈ (G p).procs e ∧ (∀ e', e' ∈ (G p).elems → SameElem G p e p e' → e = e') ∧
      (G p).status e = if (G p).procs e = [p] then .owned else if (G p).owner e = p then .shared else .ghost)
    (h2 : ∀ p, p < n → ∀ e, e ∈ (G p).elems → (∀ q, q ∈ (G p).procs e → q < n ∧ ∃ e', e' ∈ (G q).elems ∧ SameElem G p e q e') ∧
      ∀ q, q < n → ∀ e', e' ∈ (G q).elems → SameElem G p e q e' → q ∈ (G p).procs e ∧ (G p).owner e = (G q).owner e') :
    Agreed n G where
  nodup p hp := (h1 p hp).1
  types p hp e he := ((h1 p hp).2 e he).1
  unique p hp e e' he he' := ((h1 p hp).2 e he).2.2.2.1 e' he'
  sorted p hp e he := ((h1 p hp).2 e he).2.1
  procs p hp e he q := ⟨(h2 p hp e he).1 q, fun ⟨hq, e', he', hs⟩ => ((h2 p hp e he).2 q hq e' he' hs).1⟩
  owner p hp e he := ((h1 p hp).2 e he).2.2.1
  same p q hp hq e e' he he' hs := ((h2 p hp e he).2 q hq e' he' hs).2
  status p hp e he := ((h1 p hp).2 e he).2.2.2.2

set_option synthInstance.maxSize 1000 in
set_option synthInstance.maxHeartbeats 400000 in
theorem row_agreed : Agreed 2 row := agreed_of (by decide +kernel) (by decide +kernel)

theorem row_links : Links 2 row rowNear rowHigh where
  cells := by decide +kernel
  up := by decide +kernel
  whole p q hp hq := by
    have : ∀ p, p < 2 → ∀ q, q < 2 → ∀ e, e ∈ (row p).elems → e.ty < 3 → ∀ x, x ∈ rowHigh p e → ∀ x', x' ∈ (row q).elems →
        SameElem row p x q x' → ∃ e', e' ∈ (row q).elems ∧ SameElem row p e q e' := by decide +kernel
    exact this p hp q hq

/-- The hypotheses are met; cell 2 (cell 1 of processor 1) and the face between it and the last cell go to
processor 1, cell 1 and the face in the middle stay on processor 0. -/
example : ∃ G', Equilibrate 2 0 rowNear rowHigh row G' ∧ (G' 0).owner ⟨3, 1⟩ = 0 ∧ (G' 0).owner ⟨3, 2⟩ = 1 ∧
    (G' 1).owner ⟨3, 1⟩ = 1 ∧ (G' 1).status ⟨3, 1⟩ = .shared ∧ (G' 0).status ⟨3, 2⟩ = .ghost ∧
    (G' 0).owner ⟨2, 0⟩ = 0 ∧ (G' 0).owner ⟨2, 1⟩ = 1 := by
  have hn : ((2 : Nat) : Int) ≤ intMax := by decide
  obtain ⟨⟨G', h⟩, -⟩ := C85_terminates 2 0 rowNear rowHigh row hn row_agreed row_links
  obtain ⟨A', hl⟩ := C85_agreed 2 0 rowNear rowHigh row G' hn row_agreed row_links h
  have w0 : Walk (row 0) (rowNear 0) ⟨3, 1⟩ 1 := .first (x := ⟨3, 0⟩) (by decide) rfl (by decide) (by decide) (by decide)
  have w1 : Walk (row 1) (rowNear 1) ⟨3, 1⟩ 1 := .first (x := ⟨3, 0⟩) (by decide) rfl (by decide) (by decide) (by decide)
  have c1 : (G' 0).owner ⟨3, 1⟩ = 0 := by
    rcases C85_cells 2 0 rowNear rowHigh row G' hn row_agreed row_links h 0 (by decide) ⟨3, 1⟩ (by decide) rfl (by decide)
      with ⟨a, _⟩ | ⟨q, c, j, a1, a2, a3, a4, a5, a6, a7⟩
    · have := a 0 ⟨3, 1⟩ (by decide) (by decide) ⟨rfl, rfl⟩ 1 w0
      simp [intMax] at this
    · have := a7 0 ⟨3, 1⟩ 1 (by decide) (by decide) ⟨rfl, rfl⟩ w0
      have := a4.pos
      omega
  have c2 : (G' 0).owner ⟨3, 2⟩ = 1 := by
    rcases C85_cells 2 0 rowNear rowHigh row G' hn row_agreed row_links h 0 (by decide) ⟨3, 2⟩ (by decide) rfl (by decide)
      with ⟨a, _⟩ | ⟨q, c, j, a1, a2, a3, a4, a5, a6, a7⟩
    · have := a 1 ⟨3, 1⟩ (by decide) (by decide) ⟨rfl, rfl⟩ 1 w1
      simp [intMax] at this
    · have h1 := a7 1 ⟨3, 1⟩ 1 (by decide) (by decide) ⟨rfl, rfl⟩ w1
      have h2 := a4.pos
      have hj : j = 1 := by omega
      have hq : q = 0 ∨ q = 1 := by omega
      rcases hq with rfl | rfl
      · exfalso
        have := row_agreed.unique 0 (by decide) ⟨3, 2⟩ c (by decide) a2 a3
        subst this
        subst hj
        cases a4 with
        | @first _ x _ _ _ hx ho =>
          have : x = ⟨3, 1⟩ := by simpa [rowNear] using hx
          subst this
          revert ho
          decide
        | next w _ _ => have := w.pos; omega
      · exact a6
  have c3 : (G' 1).owner ⟨3, 1⟩ = 1 := by
    refine (A'.same 0 1 (by decide) (by decide) ⟨3, 2⟩ ⟨3, 1⟩ ?_ ?_ ⟨rfl, ?_⟩).symm.trans c2
    · rw [(hl 0 (by decide)).1]; decide
    · rw [(hl 1 (by decide)).1]; decide
    · rw [(hl 0 (by decide)).2.2, (hl 1 (by decide)).2.2]; rfl
  have c4 : (G' 1).owner ⟨3, 0⟩ = 1 :=
    (C85_owned 2 0 rowNear rowHigh row G' hn row_agreed row_links h 1 (by decide) ⟨3, 0⟩ (by decide) (by decide)).1
  refine ⟨G', h, c1, c2, c3, ?_, ?_, ?_, ?_⟩
  · rw [A'.status 1 (by decide) _ (by rw [(hl 1 (by decide)).1]; decide), (hl 1 (by decide)).2.1, c3]; decide
  · rw [A'.status 0 (by decide) _ (by rw [(hl 0 (by decide)).1]; decide), (hl 0 (by decide)).2.1, c2]; decide
  · rcases C85_lower 2 0 rowNear rowHigh row G' hn row_agreed row_links h 0 (by decide) ⟨2, 0⟩ (by decide) (by decide)
      with ⟨_, b⟩ | ⟨_, b⟩
    · exact b
    · have := b 0 ⟨2, 0⟩ ⟨3, 1⟩ (by decide) (by decide) ⟨rfl, rfl⟩ (by decide)
      rw [c1] at this
      omega
  · rcases C85_lower 2 0 rowNear rowHigh row G' hn row_agreed row_links h 0 (by decide) ⟨2, 1⟩ (by decide) (by decide)
      with ⟨b, _⟩ | ⟨⟨q, e', x, a1, a2, a3, a4, a5⟩, _⟩
    · have := b 0 ⟨2, 1⟩ (by decide) (by decide) ⟨rfl, rfl⟩
      simp [rowHigh] at this
    · rw [a5]
      have hq : q = 0 ∨ q = 1 := by omega
      rcases hq with rfl | rfl
      · have := row_agreed.unique 0 (by decide) ⟨2, 1⟩ e' (by decide) a2 a3
        subst this
        have : x = ⟨3, 2⟩ := by simpa [rowHigh] using a4
        rw [this, c2]
      · have := row_agreed.unique 1 (by decide) ⟨2, 2⟩ e' (by decide) a2
          ((show SameElem row 1 ⟨2, 2⟩ 0 ⟨2, 1⟩ from ⟨rfl, rfl⟩).trans a3)
        subst this
        have : x = ⟨3, 1⟩ ∨ x = ⟨3, 0⟩ := by simpa [rowHigh] using a4
        rcases this with rfl | rfl
        · exact c3
        · exact c4

end Verif.Parallel
