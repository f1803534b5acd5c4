import Verif.Layers.BridgeSet

/-! # Lemmas: collecting a layer on one processor -/

namespace Verif.Layers

open Verif.Topology Verif.Transfer

variable {V : Type}

theorem sweep_spec {take : El → Bool} : ∀ {cs : List El} {st : List El × List El},
    (∀ x, x ∈ (sweep take st cs).1 ↔ x ∈ st.1 ∨ x ∈ cs) ∧
    ∀ x, x ∈ (sweep take st cs).2 ↔ x ∈ st.2 ∨ x ∈ cs ∧ x ∉ st.1 ∧ take x = true
  | [], st => by simp [sweep]
  | c :: cs, st => by
    unfold sweep
    by_cases hc : st.1.contains c = true
    · rw [if_pos hc]
      have hm : c ∈ st.1 := by simpa using hc
      obtain ⟨h1, h2⟩ := sweep_spec (take := take) (cs := cs) (st := st)
      refine ⟨fun x => ?_, fun x => ?_⟩
      · rw [h1, List.mem_cons]
        constructor
        · rintro (h | h)
          · exact Or.inl h
          · exact Or.inr (Or.inr h)
        · rintro (h | rfl | h)
          · exact Or.inl h
          · exact Or.inl hm
          · exact Or.inr h
      · rw [h2, List.mem_cons]
        constructor
        · rintro (h | ⟨h, h'⟩)
          · exact Or.inl h
          · exact Or.inr ⟨Or.inr h, h'⟩
        · rintro (h | ⟨rfl | h, h'⟩)
          · exact Or.inl h
          · exact absurd hm h'.1
          · exact Or.inr ⟨h, h'⟩
    · rw [if_neg hc]
      have hm : c ∉ st.1 := by simpa using hc
      obtain ⟨h1, h2⟩ := sweep_spec (take := take) (cs := cs) (st := (st.1 ++ [c], if take c then st.2 ++ [c] else st.2))
      refine ⟨fun x => ?_, fun x => ?_⟩
      · rw [h1]
        simp only [List.mem_append, List.mem_cons, List.not_mem_nil, or_false]
        rw [or_assoc]
      · rw [h2]
        simp only [List.mem_append, List.mem_cons, List.not_mem_nil, or_false, not_or]
        by_cases ht : take c = true
        · rw [if_pos ht, List.mem_append, List.mem_singleton]
          constructor
          · rintro ((h | rfl) | ⟨h, ⟨h', h3⟩, h4⟩)
            · exact Or.inl h
            · exact Or.inr ⟨Or.inl rfl, hm, ht⟩
            · exact Or.inr ⟨Or.inr h, h', h4⟩
          · rintro (h | ⟨rfl | h, h', h4⟩)
            · exact Or.inl (Or.inl h)
            · exact Or.inl (Or.inr rfl)
            · by_cases hx : x = c
              · exact Or.inl (Or.inr hx)
              · exact Or.inr ⟨h, ⟨h', hx⟩, h4⟩
        · rw [if_neg ht]
          constructor
          · rintro (h | ⟨h, ⟨h', h3⟩, h4⟩)
            · exact Or.inl h
            · exact Or.inr ⟨Or.inr h, h', h4⟩
          · rintro (h | ⟨rfl | h, h', h4⟩)
            · exact Or.inl h
            · exact absurd h4 ht
            · by_cases hx : x = c
              · exact absurd (hx ▸ h4) ht
              · exact Or.inr ⟨h, ⟨h', hx⟩, h4⟩

/-- The first layer. -/
theorem firstLayer_spec {S : Side V} {q : Nat} : ∀ {bs : List El} {st : List El × List El},
    (∀ b ∈ bs, ∃ l, adj S 3 b = some l) → (∀ x, x ∈ st.2 ↔ x ∈ st.1 ∧ S.owner x ≠ (q : Int)) →
    ∃ st', firstLayer S q st bs = some st' ∧
      ∀ x, x ∈ st'.2 ↔ x ∈ st.2 ∨ S.owner x ≠ (q : Int) ∧ ∃ b ∈ bs, ∃ l, adj S 3 b = some l ∧ x ∈ l
  | [], st, _, _ => ⟨st, rfl, by simp⟩
  | b :: bs, st, hb, hst => by
    obtain ⟨l, hl⟩ := hb b (by simp)
    obtain ⟨s1, s2⟩ := sweep_spec (take := fun c => S.owner c != (q : Int)) (cs := l) (st := st)
    have hst' : ∀ x, x ∈ (sweep (fun c => S.owner c != (q : Int)) st l).2 ↔
        x ∈ (sweep (fun c => S.owner c != (q : Int)) st l).1 ∧ S.owner x ≠ (q : Int) := by
      intro x
      rw [s1, s2, hst]
      simp only [bne_iff_ne]
      by_cases h : x ∈ st.1 <;> simp [h]
    obtain ⟨st', h1, h2⟩ := firstLayer_spec (S := S) (q := q) (bs := bs) (fun x hx => hb x (by simp [hx])) hst'
    refine ⟨st', by unfold firstLayer; rw [hl]; exact h1, fun x => ?_⟩
    rw [h2, hst', s1, hst]
    constructor
    · rintro (⟨h | h, h'⟩ | ⟨h', x', hx', h⟩)
      · exact Or.inl ⟨h, h'⟩
      · exact Or.inr ⟨h', b, by simp, l, hl, h⟩
      · exact Or.inr ⟨h', x', by simp [hx'], h⟩
    · rintro (⟨h, h'⟩ | ⟨h', x', hx', l', h3, h4⟩)
      · exact Or.inl ⟨Or.inl h, h'⟩
      · rcases List.mem_cons.1 hx' with rfl | hx'
        · rw [hl] at h3
          injection h3 with h3
          exact Or.inl ⟨Or.inr (h3 ▸ h4), h'⟩
        · exact Or.inr ⟨h', x', hx', l', h3, h4⟩

/-- State of the loops of a later layer: a visited cell is in the last layer, in the new one, or `near`; all cells at a visited
element of the bridge type are visited. -/
structure LInv (S : Side V) (t : Nat) (old : List El) (near : El → Prop) (st : List El × List El) : Prop where
  cells : ∀ x ∈ st.1, x.ty = 3 → x ∈ old ∨ x ∈ st.2 ∨ near x
  done : ∀ j ∈ st.1, j.ty = t → ∀ l, adj S 3 j = some l → ∀ x ∈ l, x ∈ st.1

theorem nextBridge_spec {S : Side V} {t q : Nat} (ht : t < 3) {old : List El} {near : El → Prop} : ∀ {js : List El}
    {st : List El × List El}, (∀ j ∈ js, j.ty = t ∧ ∃ l, adj S 3 j = some l ∧ ∀ x ∈ l, x.ty = 3 ∧ (S.owner j = (q : Int) → near x)) →
    LInv S t old near st → ∃ st', nextBridge S q st js = some st' ∧ LInv S t old near st' ∧ (∀ x ∈ st.1, x ∈ st'.1) ∧
      (∀ j ∈ js, j ∈ st'.1) ∧ ∀ x ∈ st'.2, x ∈ st.2 ∨ ∃ j ∈ js, ∃ l, adj S 3 j = some l ∧ x ∈ l
  | [], st, _, hI => ⟨st, rfl, hI, fun _ h => h, fun _ h => (by cases h), fun _ h => Or.inl h⟩
  | j :: js, st, hj, hI => by
    have hjs : ∀ j ∈ js, j.ty = t ∧ ∃ l, adj S 3 j = some l ∧ ∀ x ∈ l, x.ty = 3 ∧ (S.owner j = (q : Int) → near x) :=
      fun x hx => hj x (by simp [hx])
    by_cases hc : st.1.contains j = true
    · obtain ⟨st', h1, h2, h3, h4, h5⟩ := nextBridge_spec ht hjs hI
      refine ⟨st', by unfold nextBridge; rw [if_pos hc]; exact h1, h2, h3, ?_, ?_⟩
      · intro x hx
        rcases List.mem_cons.1 hx with rfl | hx
        · exact h3 _ (by simpa using hc)
        · exact h4 x hx
      · intro x hx
        rcases h5 x hx with h | ⟨y, hy, h⟩
        · exact Or.inl h
        · exact Or.inr ⟨y, by simp [hy], h⟩
    · obtain ⟨hjt, l, hl, hlx⟩ := hj j (by simp)
      obtain ⟨s1, s2⟩ := sweep_spec (take := fun _ => S.owner j != (q : Int)) (cs := l) (st := st)
      generalize hsw : sweep (fun _ => S.owner j != (q : Int)) st l = sw at s1 s2
      have hI' : LInv S t old near (sw.1 ++ [j], sw.2) := by
        constructor
        · intro x hx h3
          rcases List.mem_append.1 hx with hx | hx
          · rcases (s1 x).1 hx with h | h
            · rcases hI.cells x h h3 with h | h | h
              · exact Or.inl h
              · exact Or.inr (Or.inl ((s2 x).2 (Or.inl h)))
              · exact Or.inr (Or.inr h)
            · by_cases hb : x ∈ st.1
              · rcases hI.cells x hb h3 with h | h | h
                · exact Or.inl h
                · exact Or.inr (Or.inl ((s2 x).2 (Or.inl h)))
                · exact Or.inr (Or.inr h)
              · by_cases ho : S.owner j = (q : Int)
                · exact Or.inr (Or.inr ((hlx x h).2 ho))
                · exact Or.inr (Or.inl ((s2 x).2 (Or.inr ⟨h, hb, by simpa using ho⟩)))
          · rw [List.mem_singleton] at hx
            subst hx
            omega
        · intro y hy hyt l' hl' x hx
          apply List.mem_append_left
          rw [s1]
          rcases List.mem_append.1 hy with hy | hy
          · rcases (s1 y).1 hy with h | h
            · exact Or.inl (hI.done y h hyt l' hl' x hx)
            · have := (hlx y h).1
              omega
          · rw [List.mem_singleton] at hy
            subst hy
            rw [hl] at hl'
            injection hl' with hl'
            exact Or.inr (hl' ▸ hx)
      obtain ⟨st', h1, h2, h3, h4, h5⟩ := nextBridge_spec ht hjs hI'
      refine ⟨st', by unfold nextBridge; rw [if_neg hc, hl]; simp only [hsw]; exact h1, h2, ?_, ?_, ?_⟩
      · intro x hx
        exact h3 x (List.mem_append_left _ ((s1 x).2 (Or.inl hx)))
      · intro x hx
        rcases List.mem_cons.1 hx with rfl | hx
        · exact h3 _ (by simp)
        · exact h4 x hx
      · intro x hx
        rcases h5 x hx with h | ⟨y, hy, h⟩
        · rcases (s2 x).1 h with h | ⟨h, -⟩
          · exact Or.inl h
          · exact Or.inr ⟨j, by simp, l, hl, h⟩
        · exact Or.inr ⟨y, by simp [hy], h⟩

theorem nextLayer_spec {S : Side V} {t q : Nat} (ht : t < 3) {old : List El} {near : El → Prop} : ∀ {cs : List El}
    {st : List El × List El}, (∀ c ∈ cs, ∃ js, adj S t c = some js ∧
      ∀ j ∈ js, j.ty = t ∧ ∃ l, adj S 3 j = some l ∧ ∀ x ∈ l, x.ty = 3 ∧ (S.owner j = (q : Int) → near x)) →
    LInv S t old near st → ∃ st', nextLayer S t q st cs = some st' ∧ LInv S t old near st' ∧ (∀ x ∈ st.1, x ∈ st'.1) ∧
      (∀ c ∈ cs, ∀ js, adj S t c = some js → ∀ j ∈ js, j ∈ st'.1) ∧
      ∀ x ∈ st'.2, x ∈ st.2 ∨ ∃ c ∈ cs, ∃ js, adj S t c = some js ∧ ∃ j ∈ js, ∃ l, adj S 3 j = some l ∧ x ∈ l
  | [], st, _, hI => ⟨st, rfl, hI, fun _ h => h, fun _ h => (by cases h), fun _ h => Or.inl h⟩
  | c :: cs, st, hc, hI => by
    obtain ⟨js, hjs, hj⟩ := hc c (by simp)
    obtain ⟨st1, a1, a2, a3, a4, a5⟩ := nextBridge_spec ht hj hI
    obtain ⟨st', h1, h2, h3, h4, h5⟩ := nextLayer_spec (cs := cs) ht (fun x hx => hc x (by simp [hx])) a2
    refine ⟨st', by unfold nextLayer; simp only [hjs, a1]; exact h1, h2, fun x hx => h3 x (a3 x hx), ?_, ?_⟩
    · intro x hx js' hjs' j hjm
      rcases List.mem_cons.1 hx with rfl | hx
      · rw [hjs] at hjs'
        injection hjs' with hjs'
        exact h3 j (a4 j (hjs' ▸ hjm))
      · exact h4 x hx js' hjs' j hjm
    · intro x hx
      rcases h5 x hx with h | ⟨y, hy, h⟩
      · rcases a5 x h with h | h
        · exact Or.inl h
        · exact Or.inr ⟨c, by simp, js, hjs, h⟩
      · exact Or.inr ⟨y, by simp [hy], h⟩

/-- All cells at elements of the bridge type of the last layer, unless they were in it or are near, are in the new layer. -/
theorem nextLayer_all {S : Side V} {t q : Nat} (ht : t < 3) {near : El → Prop} {cs : List El} (hold : ∀ c ∈ cs, c.ty = 3)
    (h : ∀ c ∈ cs, ∃ js, adj S t c = some js ∧
      ∀ j ∈ js, j.ty = t ∧ ∃ l, adj S 3 j = some l ∧ ∀ x ∈ l, x.ty = 3 ∧ (S.owner j = (q : Int) → near x)) :
    ∃ st', nextLayer S t q (cs, []) cs = some st' ∧
      (∀ c ∈ cs, ∀ js, adj S t c = some js → ∀ j ∈ js, ∀ l, adj S 3 j = some l → ∀ x ∈ l, x ∉ cs → ¬ near x → x ∈ st'.2) ∧
      ∀ x ∈ st'.2, ∃ c ∈ cs, ∃ js, adj S t c = some js ∧ ∃ j ∈ js, ∃ l, adj S 3 j = some l ∧ x ∈ l := by
  obtain ⟨st', h1, h2, -, h4, h5⟩ := nextLayer_spec ht (old := cs) (st := (cs, [])) h
    ⟨fun x hx _ => Or.inl hx, fun j hj hjt => by have := hold j hj; omega⟩
  refine ⟨st', h1, ?_, fun x hx => (h5 x hx).resolve_left (by simp)⟩
  intro c hc js hjs j hj l hl x hx hnc hnn
  obtain ⟨js', e1, e2⟩ := h c hc
  rw [hjs] at e1
  injection e1 with e1
  subst e1
  obtain ⟨jt, l', e3, e4⟩ := e2 j hj
  rw [hl] at e3
  injection e3 with e3
  subst e3
  have hx1 := h2.done j (h4 c hc js hjs j hj) jt l hl x hx
  rcases h2.cells x hx1 (e4 x hx).1 with h | h | h
  · exact absurd h hnc
  · exact h
  · exact absurd h hnn

end Verif.Layers
