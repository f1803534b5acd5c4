import Verif.Search.TreeLemmas
import Verif.Search.TriLemmas
import Mathlib.Data.List.GetD

/-!
# Collection of the elements hit, segments and boxes
-/

namespace Verif.Search

variable {K : Type} [Field K] [LinearOrder K] [IsStrictOrderedRing K]

/-! ## Collection -/

theorem collect_spec (M : Mesh K) (prune : Box K → Bool) (test : Nat → Option Bool) {t : Tree K}
    (ht : Enclosed M t) : ∀ (hits : List Nat) (mrk : Marked), (∀ e ∈ t.elems, hitTest M test e ≠ none) →
    ∃ new, collect M prune test t (hits, mrk) = some (hits ++ new, fun x => mrk x || decide (x ∈ new)) ∧
      new.Nodup ∧ (∀ e ∈ new, e ∈ t.elems ∧ mrk e = false ∧ hitTest M test e = some true) ∧
      ∀ e ∈ t.elems, hitTest M test e = some true → (∀ c : Box K, (leafBox M e).Sub c → prune c = true) →
        mrk e = true ∨ e ∈ new := by
  induction ht with
  | @leaf e =>
    intro hits mrk hne
    rw [collect]
    by_cases hm : mrk e = true
    · rw [if_pos hm]
      refine ⟨[], by simp, by simp, by simp, ?_⟩
      intro x hx _ _
      cases List.mem_singleton.1 hx
      exact .inl hm
    · rw [if_neg hm]
      cases hh : hitTest M test e with
      | none => exact absurd hh (hne e (by simp [Tree.elems]))
      | some b =>
        cases b
        · refine ⟨[], by simp, by simp, by simp, ?_⟩
          intro x hx hx' _
          cases List.mem_singleton.1 hx
          rw [hh] at hx'; cases hx'
        · refine ⟨[e], ?_, by simp, ?_, ?_⟩
          · simp only [Option.some.injEq, Prod.mk.injEq, true_and]
            funext x
            by_cases hx : x = e <;> simp [hx]
          · intro x hx
            cases List.mem_singleton.1 hx
            exact ⟨by simp [Tree.elems], by simpa using hm, hh⟩
          · intro x hx _ _
            cases List.mem_singleton.1 hx
            exact .inr (by simp)
  | @node b l r hs _ _ ih1 ih2 =>
    intro hits mrk hne
    rw [collect]
    by_cases hp : prune b = true
    · rw [if_pos hp]
      obtain ⟨n1, e1, d1, s1, c1⟩ := ih1 hits mrk fun e he => hne e (List.mem_append_left _ he)
      rw [e1]
      simp only []
      obtain ⟨n2, e2, d2, s2, c2⟩ := ih2 (hits ++ n1) (fun x => mrk x || decide (x ∈ n1))
        fun e he => hne e (List.mem_append_right _ he)
      rw [e2]
      refine ⟨n1 ++ n2, ?_, ?_, ?_, ?_⟩
      · simp only [List.append_assoc, Option.some.injEq, Prod.mk.injEq, true_and]
        funext x; simp [Bool.or_assoc]
      · rw [List.nodup_append]
        refine ⟨d1, d2, ?_⟩
        intro a ha b' hb hab
        subst hab
        have := (s2 a hb).2.1
        simp [ha] at this
      · intro e he
        rcases List.mem_append.1 he with h | h
        · exact ⟨List.mem_append_left _ (s1 e h).1, (s1 e h).2⟩
        · have := s2 e h
          exact ⟨List.mem_append_right _ this.1, by have h2 := this.2.1; simp at h2; exact h2.1, this.2.2⟩
      · intro e he hh hsafe
        rcases List.mem_append.1 he with h | h
        · rcases c1 e h hh hsafe with h | h
          · exact .inl h
          · exact .inr (List.mem_append_left _ h)
        · rcases c2 e h hh hsafe with h | h
          · simp at h
            rcases h with h | h
            · exact .inl h
            · exact .inr (List.mem_append_left _ h)
          · exact .inr (List.mem_append_right _ h)
    · rw [if_neg hp]
      refine ⟨[], by simp, by simp, by simp, ?_⟩
      intro e he _ hsafe
      exact absurd (hsafe b (hs e he)) hp

theorem pushNew_spec : ∀ (es out new : List Nat) (mrk : Marked), new.Nodup → (∀ x, mrk x = true ↔ x ∈ new) →
    ∃ new' mrk', pushNew es (out ++ new, mrk) = (out ++ new', mrk') ∧ new'.Nodup ∧
      (∀ x, mrk' x = true ↔ x ∈ new') ∧ ∀ x, x ∈ new' ↔ x ∈ new ∨ x ∈ es := by
  intro es
  induction es with
  | nil => intro out new mrk hn hm; exact ⟨new, mrk, rfl, hn, hm, by simp⟩
  | cons e es ih =>
    intro out new mrk hn hm
    rw [pushNew]
    by_cases he : mrk e = true
    · rw [if_pos he]
      obtain ⟨n', m', h1, h2, h3, h4⟩ := ih out new mrk hn hm
      refine ⟨n', m', h1, h2, h3, ?_⟩
      intro x
      rw [h4, List.mem_cons]
      have := (hm e).1 he
      constructor
      · rintro (h | h) <;> simp [h]
      · rintro (h | rfl | h)
        · exact .inl h
        · exact .inl this
        · exact .inr h
    · rw [if_neg he]
      have hne : e ∉ new := fun h => he ((hm e).2 h)
      obtain ⟨n', m', h1, h2, h3, h4⟩ := ih out (new ++ [e]) (fun x => if x = e then true else mrk x)
        (by rw [List.nodup_append]; refine ⟨hn, by simp, ?_⟩
            intro a ha b hb hab; cases List.mem_singleton.1 hb; subst hab; exact hne ha)
        (by intro x
            by_cases hx : x = e
            · simp [hx]
            · simp [hx, hm x])
      rw [← List.append_assoc] at h1
      refine ⟨n', m', h1, h2, h3, ?_⟩
      intro x
      rw [h4]; simp [or_assoc]

theorem toCells_spec (M : Mesh K) (hx : ∀ e, ¬ (M.isCell e = true ∧ M.isFace e = true)) :
    ∀ (es out new : List Nat) (mrk : Marked), new.Nodup →
    (∀ x, mrk x = true ↔ x ∈ new) → ∃ new' mrk', toCells M es (out ++ new, mrk) = (out ++ new', mrk') ∧
      new'.Nodup ∧ (∀ x, mrk' x = true ↔ x ∈ new') ∧ ∀ x, x ∈ new' ↔ x ∈ new ∨ ∃ e ∈ es, x ∈ cellsOf M e := by
  intro es
  induction es with
  | nil => intro out new mrk hn hm; exact ⟨new, mrk, rfl, hn, hm, by simp⟩
  | cons e es ih =>
    intro out new mrk hn hm
    have hp := pushNew_spec (cellsOf M e) out new mrk hn hm
    have step : toCells M (e :: es) (out ++ new, mrk) = toCells M es (pushNew (cellsOf M e) (out ++ new, mrk)) := by
      rw [toCells, cellsOf]
      have := hx e
      cases h1 : M.isCell e <;> cases h2 : M.isFace e <;> cases h3 : mrk e <;>
        simp_all [pushNew]
    obtain ⟨n1, m1, e1, d1, k1, i1⟩ := hp
    rw [step, e1]
    obtain ⟨n2, m2, e2, d2, k2, i2⟩ := ih out n1 m1 d1 k1
    refine ⟨n2, m2, e2, d2, k2, ?_⟩
    intro x
    rw [i2, i1]
    simp [or_assoc]

theorem toFaces_spec (M : Mesh K) (hx : ∀ e, ¬ (M.isCell e = true ∧ M.isFace e = true)) :
    ∀ (es out new : List Nat) (mrk : Marked), (∀ x, mrk x = true ↔ x ∈ new) →
    ∃ new' mrk', toFaces M es (out ++ new, mrk) = (out ++ new', mrk') ∧
      (∀ x, mrk' x = true ↔ x ∈ new') ∧ (∀ x, x ∈ new' ↔ x ∈ new ∨ ∃ e ∈ es, x ∈ facesOf M e) ∧
      (new.Nodup → (∀ e ∈ es, M.isFace e = false) ∨ (es.Nodup ∧ (∀ e ∈ es, M.isCell e = false) ∧ ∀ e ∈ es, e ∉ new) →
        new'.Nodup) := by
  intro es
  induction es with
  | nil => intro out new mrk hm; exact ⟨new, mrk, rfl, hm, by simp, fun h _ => h⟩
  | cons e es ih =>
    intro out new mrk hm
    cases hc : M.isCell e with
    | true =>
      have hf : M.isFace e = false := by
        cases h : M.isFace e
        · rfl
        · exact absurd ⟨hc, h⟩ (hx e)
      have step : toFaces M (e :: es) (out ++ new, mrk) = toFaces M es (pushNew (M.cellFaces e) (out ++ new, mrk)) := by
        rw [toFaces, if_pos hc]
      have hp : ∃ new' mrk', pushNew (M.cellFaces e) (out ++ new, mrk) = (out ++ new', mrk') ∧
          (∀ x, mrk' x = true ↔ x ∈ new') ∧ (∀ x, x ∈ new' ↔ x ∈ new ∨ x ∈ M.cellFaces e) ∧ (new.Nodup → new'.Nodup) := by
        clear step hf hc ih
        generalize M.cellFaces e = fs
        induction fs generalizing new mrk with
        | nil => exact ⟨new, mrk, rfl, hm, by simp, id⟩
        | cons f fs ih =>
          rw [pushNew]
          by_cases he : mrk f = true
          · rw [if_pos he]
            obtain ⟨n', m', h1, h2, h3, h4⟩ := ih new mrk hm
            refine ⟨n', m', h1, h2, ?_, h4⟩
            intro x
            have := (hm f).1 he
            rw [h3, List.mem_cons]
            constructor
            · rintro (h | h) <;> simp [h]
            · rintro (h | rfl | h)
              · exact .inl h
              · exact .inl this
              · exact .inr h
          · rw [if_neg he, List.append_assoc]
            have hne : f ∉ new := fun h => he ((hm f).2 h)
            obtain ⟨n', m', h1, h2, h3, h4⟩ := ih (new ++ [f]) (fun x => if x = f then true else mrk x)
              (by intro x
                  by_cases hx : x = f
                  · simp [hx]
                  · simp [hx, hm x])
            refine ⟨n', m', h1, h2, ?_, ?_⟩
            · intro x; rw [h3]; simp [or_assoc]
            · intro hn
              apply h4
              rw [List.nodup_append]; refine ⟨hn, by simp, ?_⟩
              intro a ha b hb hab; cases List.mem_singleton.1 hb; subst hab; exact hne ha
      obtain ⟨n1, m1, e1, k1, i1, d1⟩ := hp
      rw [step, e1]
      obtain ⟨n2, m2, e2, k2, i2, d2⟩ := ih out n1 m1 k1
      refine ⟨n2, m2, e2, k2, ?_, ?_⟩
      · intro x; rw [i2, i1]; simp [facesOf, hc, or_assoc]
      · intro hn h
        refine d2 (d1 hn) ?_
        rcases h with h | ⟨_, h, _⟩
        · exact .inl fun e' he' => h e' (by simp [he'])
        · have := h e (by simp); rw [hc] at this; cases this
    | false =>
      cases hf : M.isFace e with
      | true =>
        have step : toFaces M (e :: es) (out ++ new, mrk) =
            toFaces M es (out ++ (new ++ [e]), fun x => if x = e then true else mrk x) := by
          rw [toFaces, if_neg (by simp [hc]), if_pos hf, List.append_assoc]
        rw [step]
        obtain ⟨n2, m2, e2, k2, i2, d2⟩ := ih out (new ++ [e]) (fun x => if x = e then true else mrk x)
          (by intro x
              by_cases hx : x = e
              · simp [hx]
              · simp [hx, hm x])
        refine ⟨n2, m2, e2, k2, ?_, ?_⟩
        · intro x; rw [i2]; simp [facesOf, hc, hf, or_assoc]
        · intro hn h
          rcases h with h | ⟨h1, h2, h3⟩
          · have := h e (by simp); rw [hf] at this; cases this
          · refine d2 ?_ (.inr ⟨h1.of_cons, fun e' he' => h2 e' (by simp [he']), ?_⟩)
            · rw [List.nodup_append]; refine ⟨hn, by simp, ?_⟩
              intro a ha b hb hab; cases List.mem_singleton.1 hb; subst hab
              exact h3 a (by simp) ha
            · intro e' he' hmem
              rcases List.mem_append.1 hmem with h | h
              · exact h3 e' (by simp [he']) h
              · cases List.mem_singleton.1 h
                exact (List.nodup_cons.1 h1).1 he'
      | false =>
        have step : toFaces M (e :: es) (out ++ new, mrk) = toFaces M es (out ++ new, mrk) := by
          rw [toFaces, if_neg (by simp [hc]), if_neg (by simp [hf])]
        rw [step]
        obtain ⟨n2, m2, e2, k2, i2, d2⟩ := ih out new mrk hm
        refine ⟨n2, m2, e2, k2, ?_, ?_⟩
        · intro x; rw [i2]; simp [facesOf, hc, hf]
        · intro hn h
          refine d2 hn ?_
          rcases h with h | ⟨h1, h2, h3⟩
          · exact .inl fun e' he' => h e' (by simp [he'])
          · exact .inr ⟨h1.of_cons, fun e' he' => h2 e' (by simp [he']), fun e' he' => h3 e' (by simp [he'])⟩

/-- The four queries in terms of the tests. -/
theorem intersect_spec (M : Mesh K) (prune : Box K → Bool) (test : Nat → Option Bool) {t : Tree K}
    (ht : Enclosed M t) (hk : ∀ e, ¬ (M.isCell e = true ∧ M.isFace e = true))
    (hne : ∀ e ∈ t.elems, hitTest M test e ≠ none) (out : List Nat) :
    ∃ hits : List Nat, hits.Nodup ∧ (∀ e ∈ hits, e ∈ t.elems ∧ hitTest M test e = some true) ∧
      (∀ e ∈ t.elems, hitTest M test e = some true → (∀ c : Box K, (leafBox M e).Sub c → prune c = true) → e ∈ hits) ∧
      (∃ new, intersect M prune test toCells t out = some (out ++ new, fun _ => false) ∧ new.Nodup ∧
        ∀ x, x ∈ new ↔ ∃ e ∈ hits, x ∈ cellsOf M e) ∧
      (∃ new, intersect M prune test toFaces t out = some (out ++ new, fun _ => false) ∧
        (∀ x, x ∈ new ↔ ∃ e ∈ hits, x ∈ facesOf M e) ∧
        ((∀ e ∈ hits, M.isFace e = false) ∨ (∀ e ∈ hits, M.isCell e = false) → new.Nodup)) := by
  obtain ⟨hits, e1, d1, s1, c1⟩ := collect_spec M prune test ht [] (fun _ => false) hne
  have hm : unmark hits (fun x => false || decide (x ∈ hits)) = fun _ => false := by
    funext x
    simp [unmark]
  refine ⟨hits, d1, fun e he => ⟨(s1 e he).1, (s1 e he).2.2⟩, ?_, ?_, ?_⟩
  · intro e he hh hs
    rcases c1 e he hh hs with h | h
    · cases h
    · exact h
  · obtain ⟨new, mrk, e2, d2, k2, i2⟩ := toCells_spec M hk hits out [] (fun _ => false) (by simp) (by simp)
    refine ⟨new, ?_, d2, by simpa using i2⟩
    rw [intersect, e1]
    simp only [List.nil_append]
    rw [hm]
    rw [List.append_nil] at e2
    rw [e2]
    simp only [Option.some.injEq, Prod.mk.injEq, true_and]
    funext x
    rw [unmark]
    by_cases hx : x ∈ out ++ new
    · simp [hx]
    · rw [if_neg hx]
      cases h : mrk x
      · rfl
      · exact absurd (List.mem_append_right _ ((k2 x).1 h)) hx
  · obtain ⟨new, mrk, e2, k2, i2, d2⟩ := toFaces_spec M hk hits out [] (fun _ => false) (by simp)
    refine ⟨new, ?_, by simpa using i2, ?_⟩
    · rw [intersect, e1]
      simp only [List.nil_append]
      rw [hm]
      rw [List.append_nil] at e2
      rw [e2]
      simp only [Option.some.injEq, Prod.mk.injEq, true_and]
      funext x
      rw [unmark]
      by_cases hx : x ∈ out ++ new
      · simp [hx]
      · rw [if_neg hx]
        cases h : mrk x
        · rfl
        · exact absurd (List.mem_append_right _ ((k2 x).1 h)) hx
    · intro h
      apply d2 (by simp)
      rcases h with h | h
      · exact .inl h
      · exact .inr ⟨d1, h, by simp⟩

theorem anyFace_spec (test : Nat → Option Bool) : ∀ fs : List Nat, (∀ f ∈ fs, test f ≠ none) →
    ∃ b, anyFace test fs = some b ∧ (b = true ↔ ∃ f ∈ fs, test f = some true) := by
  intro fs
  induction fs with
  | nil => intro _; exact ⟨false, rfl, by simp⟩
  | cons f fs ih =>
    intro h
    rw [anyFace]
    cases hf : test f with
    | none => exact absurd hf (h f (by simp))
    | some b =>
      cases b
      · obtain ⟨b, e, i⟩ := ih fun g hg => h g (by simp [hg])
        exact ⟨b, e, by rw [i]; simp [hf]⟩
      · exact ⟨true, rfl, by simp [hf]⟩

theorem hitTest_spec (M : Mesh K) (test : Nat → Option Bool) (e : Nat) (hg : M.gdim e = 2 ∨ M.gdim e = 3)
    (h : ∀ f ∈ surface M e, test f ≠ none) :
    hitTest M test e ≠ none ∧ (hitTest M test e = some true ↔ ∃ f ∈ surface M e, test f = some true) := by
  rw [hitTest]
  rcases hg with hg | hg
  · simp [surface, hg] at h ⊢
    exact h
  · have h2 : ¬ M.gdim e = 2 := by omega
    rw [if_neg h2, if_pos hg]
    have hs : surface M e = M.cellFaces e := by rw [surface, if_neg h2, if_pos hg]
    rw [hs] at h ⊢
    obtain ⟨b, e1, i⟩ := anyFace_spec test _ h
    rw [e1]
    simp only [ne_eq, reduceCtorEq, not_false_eq_true, Option.some.injEq, true_and]
    exact i

/-- The triangles of a face. -/
theorem mem_faceTris {M : Mesh K} {f : Nat} {t : V K × V K} : t ∈ faceTris M f ↔ SideOf M f t.1 t.2 := by
  obtain ⟨a, b⟩ := t
  simp only [faceTris, SideOf]
  generalize M.faceNodes f = ns
  cases ns with
  | nil => simp
  | cons n l =>
    simp only [List.map_cons, List.tail_cons, List.head?_cons, Option.toList_some]
    rw [List.mem_iff_getElem]
    have hlen : (((M.coord n :: l.map M.coord)).zip (l.map M.coord ++ [M.coord n])).length = l.length + 1 := by simp
    constructor
    · rintro ⟨i, hi, hi2⟩
      rw [hlen] at hi
      rw [List.getElem_zip] at hi2
      injection hi2 with h1 h2
      refine ⟨i, (i + 1) % (n :: l).length, by simpa using hi, rfl, ?_, ?_⟩
      · rw [← h1, List.getD_eq_getElem _ _ (by simpa using hi)]
        cases i with
        | zero => simp
        | succ i => simp
      · rw [← h2]
        by_cases hl : i = l.length
        · subst hl
          simp
        · have hlt : i < l.length := by omega
          have e : (i + 1) % (n :: l).length = i + 1 := Nat.mod_eq_of_lt (by simp; omega)
          rw [e, List.getD_eq_getElem _ _ (by simp; omega)]
          rw [List.getElem_append_left (by simpa using hlt)]
          simp
    · rintro ⟨i, j, hi, hj, ha, hb⟩
      refine ⟨i, by rw [hlen]; simpa using hi, ?_⟩
      rw [List.getElem_zip]
      congr 1
      · rw [ha, List.getD_eq_getElem _ _ (by simpa using hi)]
        cases i with
        | zero => simp
        | succ i => simp
      · rw [hb, hj]
        by_cases hl : i = l.length
        · subst hl
          simp
        · have hlt : i < l.length := by simp at hi; omega
          have e : (i + 1) % (n :: l).length = i + 1 := Nat.mod_eq_of_lt (by simp; omega)
          rw [e, List.getD_eq_getElem _ _ (by simp; omega)]
          rw [List.getElem_append_left (by simpa using hlt)]
          simp

theorem sideOf_nodes {M : Mesh K} {f : Nat} {a b : V K} (h : SideOf M f a b) :
    (∃ n ∈ M.faceNodes f, a = M.coord n) ∧ ∃ n ∈ M.faceNodes f, b = M.coord n := by
  obtain ⟨i, j, hi, hj, ha, hb⟩ := h
  have hj' : j < (M.faceNodes f).length := by rw [hj]; exact Nat.mod_lt _ (by omega)
  rw [List.getD_eq_getElem _ _ hi] at ha
  rw [List.getD_eq_getElem _ _ hj'] at hb
  exact ⟨⟨_, List.getElem_mem _, ha⟩, _, List.getElem_mem _, hb⟩

end Verif.Search
