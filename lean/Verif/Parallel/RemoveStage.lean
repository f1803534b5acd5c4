import Verif.Parallel.RemoveLemmas

/-!
# What a pass leaves
-/

namespace Verif.Parallel

/-- The ghosts `want` are taken away and nothing else, and the lists of processors follow. -/
structure Taken (n : Nat) (want : Nat → El → Bool) (W W' : Nat → Part) : Prop where
  elems : ∀ p, p < n → (W' p).L.elems = (W p).L.elems.filter fun e => !want p e
  owner : ∀ p, p < n → (W' p).L.owner = (W p).L.owner
  key : ∀ p, p < n → (W' p).L.key = (W p).L.key
  sorted : ∀ p, p < n → ∀ e, e ∈ (W' p).L.elems → ((W' p).L.procs e).Pairwise (· < ·)
  procs : ∀ p, p < n → ∀ e, e ∈ (W' p).L.elems → ∀ v, v ∈ (W' p).L.procs e ↔
    v ∈ (W p).L.procs e ∧ ¬ WantAt n want (meshOf W) p e v
  status : ∀ p, p < n → ∀ e, e ∈ (W' p).L.elems → (W' p).L.status e =
    if (W' p).L.procs e = [p] then .owned else (W p).L.status e
  sh : ∀ p, p < n → ∀ q i, (((W' p).sh q i).map (W p).L.key).Pairwise (· < ·) ∧
    ∀ e, e ∈ (W' p).sh q i ↔ e ∈ (W p).sh q i ∧ ¬ WantAt n want (meshOf W) p e q
  gh : ∀ p, p < n → ∀ q i, (((W' p).gh q i).map (W p).L.key).Pairwise (· < ·) ∧
    ∀ e, e ∈ (W' p).gh q i ↔ e ∈ (W p).gh q i ∧ want p e = false

section

variable {n : Nat} {want : Nat → El → Bool} {W W' : Nat → Part}

theorem Taken.mem (T : Taken n want W W') {p : Nat} (hp : p < n) {e : El} :
    e ∈ (W' p).L.elems ↔ e ∈ (W p).L.elems ∧ want p e = false := by
  rw [T.elems p hp, List.mem_filter]
  simp

theorem Taken.same (T : Taken n want W W') {p q : Nat} (hp : p < n) (hq : q < n) {e e' : El} :
    SameElem (meshOf W') p e q e' ↔ SameElem (meshOf W) p e q e' := by
  unfold SameElem meshOf
  rw [T.key p hp, T.key q hq]

theorem Taken.agreed (T : Taken n want W W') (A : Agreed n (meshOf W))
    (hw : ∀ p, p < n → ∀ e, want p e = true → (meshOf W p).status e = .ghost) : Agreed n (meshOf W') := by
  have hpr : ∀ p, p < n → ∀ e, e ∈ (W' p).L.elems → ∀ q, q ∈ (W' p).L.procs e ↔
      q < n ∧ ∃ e', e' ∈ (W' q).L.elems ∧ SameElem (meshOf W') p e q e' := by
    intro p hp e he q
    have he0 := ((T.mem hp).1 he).1
    rw [T.procs p hp e he, show q ∈ (W p).L.procs e ↔ _ from A.procs p hp e he0 q]
    constructor
    · rintro ⟨⟨hq, e', he', hs⟩, hn⟩
      refine ⟨hq, e', (T.mem hq).2 ⟨he', ?_⟩, (T.same hp hq).2 hs⟩
      cases h : want q e' with
      | false => rfl
      | true => exact absurd ⟨hq, e', he', hs, h⟩ hn
    · rintro ⟨hq, e', he', hs⟩
      obtain ⟨he1, hwf⟩ := (T.mem hq).1 he'
      have hs' := (T.same hp hq).1 hs
      refine ⟨⟨hq, e', he1, hs'⟩, ?_⟩
      rintro ⟨_, e2, he2, hs2, hw2⟩
      rw [A.unique q hq e2 e' he2 he1 (hs2.symm.trans hs')] at hw2
      rw [hwf] at hw2
      cases hw2
  refine ⟨?_, ?_, ?_, T.sorted, hpr, ?_, ?_, ?_⟩
  · intro p hp
    show ((W' p).L.elems).Nodup
    rw [T.elems p hp]
    exact List.Nodup.sublist List.filter_sublist (A.nodup p hp)
  · exact fun p hp e he => A.types p hp e ((T.mem hp).1 he).1
  · exact fun p hp e e' he he' hs => A.unique p hp e e' ((T.mem hp).1 he).1 ((T.mem hp).1 he').1 ((T.same hp hp).1 hs)
  · intro p hp e he
    have he0 := ((T.mem hp).1 he).1
    show (W' p).L.owner e ∈ (W' p).L.procs e
    rw [T.owner p hp, T.procs p hp e he]
    refine ⟨A.owner p hp e he0, ?_⟩
    rintro ⟨hq, e2, he2, hs2, hw2⟩
    exact (A.ghost hq he2).1 (hw _ hq e2 hw2) (A.same p _ hp hq e e2 he0 he2 hs2).symm
  · intro p q hp hq e e' he he' hs
    show (W' p).L.owner e = (W' q).L.owner e'
    rw [T.owner p hp, T.owner q hq]
    exact A.same p q hp hq e e' ((T.mem hp).1 he).1 ((T.mem hq).1 he').1 ((T.same hp hq).1 hs)
  · intro p hp e he
    have he0 := ((T.mem hp).1 he).1
    show (W' p).L.status e = if (W' p).L.procs e = [p] then .owned else if (W' p).L.owner e = p then .shared else .ghost
    rw [T.status p hp e he, T.owner p hp]
    split
    · rfl
    · rename_i h
      rw [show (W p).L.status e = _ from A.status p hp e he0, if_neg]
      · rfl
      · intro h2
        refine h (single_of (T.sorted p hp e he) fun x => ?_)
        constructor
        · intro hx
          have := ((T.procs p hp e he x).1 hx).1
          rw [show (W p).L.procs e = [p] from h2] at this
          exact List.mem_singleton.1 this
        · rintro rfl
          exact (hpr x hp e he x).2 ⟨hp, e, he, rfl, rfl⟩

theorem Taken.ghost (T : Taken n want W W') (A : Agreed n (meshOf W)) (A' : Agreed n (meshOf W')) {p : Nat} (hp : p < n)
    {e : El} (he : e ∈ (W' p).L.elems) : (W' p).L.status e = .ghost ↔ (W p).L.status e = .ghost := by
  rw [show (W' p).L.status e = .ghost ↔ _ from A'.ghost hp he,
    show (W p).L.status e = .ghost ↔ _ from A.ghost hp ((T.mem hp).1 he).1]
  show (W' p).L.owner e ≠ p ↔ (W p).L.owner e ≠ p
  rw [T.owner p hp]

theorem sharedList_keys {G : Nat → Local Nat} (A : Agreed n G) {p : Nat} (hp : p < n) (q i : Nat) :
    ((sharedList (fun _ => true) p (G p) q i).map (G p).key).Pairwise (· < ·) := by
  refine sortBy_strict ((sortBy_perm (G p).key _).nodup_iff.1 (sharedList_nodup (mask := fun _ => true) (me := p)
    (L := G p) (q := q) (i := i) (A.nodup p hp) fun e he _ => (A.sorted p hp e he).imp Nat.ne_of_lt)) ?_
  intro a b ha hb hk
  have ha' := (mem_sharedList (mask := fun _ => true) (me := p) (q := q) (i := i)).1 ((sortBy_perm (G p).key _).mem_iff.2 ha)
  have hb' := (mem_sharedList (mask := fun _ => true) (me := p) (q := q) (i := i)).1 ((sortBy_perm (G p).key _).mem_iff.2 hb)
  exact A.unique p hp a b ha'.1 hb'.1 ⟨ha'.2.2.1.trans hb'.2.2.1.symm, hk⟩

theorem ghostList_keys {G : Nat → Local Nat} (A : Agreed n G) {p : Nat} (hp : p < n) (q i : Nat) :
    ((ghostList (fun _ => true) (G p) q i).map (G p).key).Pairwise (· < ·) := by
  refine sortBy_strict ((sortBy_perm (G p).key _).nodup_iff.1 (ghostList_nodup (mask := fun _ => true)
    (L := G p) (q := q) (i := i) (A.nodup p hp))) ?_
  intro a b ha hb hk
  have ha' := (mem_ghostList (mask := fun _ => true) (q := q) (i := i)).1 ((sortBy_perm (G p).key _).mem_iff.2 ha)
  have hb' := (mem_ghostList (mask := fun _ => true) (q := q) (i := i)).1 ((sortBy_perm (G p).key _).mem_iff.2 hb)
  exact A.unique p hp a b ha'.1 hb'.1 ⟨ha'.2.2.1.trans hb'.2.2.1.symm, hk⟩

theorem Taken.stored (T : Taken n want W W') (A : Agreed n (meshOf W)) (A' : Agreed n (meshOf W'))
    (hw : ∀ p, p < n → ∀ e, want p e = true → (meshOf W p).status e = .ghost) (S : Stored n W) : Stored n W' := by
  intro p hp q i
  have k' := T.key p hp
  constructor
  · refine key_ext (key := (W p).L.key) (T.sh p hp q i).1 (by rw [← k']; exact sharedList_keys A' hp q i) fun e => ?_
    rw [(T.sh p hp q i).2 e, (S p hp q i).1, mem_sharedList, mem_sharedList, T.mem hp]
    constructor
    · rintro ⟨⟨he, h1, h2, h3, h4, h5⟩, hn⟩
      have hwf : want p e = false := by
        cases h : want p e with
        | false => rfl
        | true => have := hw p hp e h; rw [show (meshOf W p).status e = _ from h3] at this; cases this
      have he' := (T.mem hp).2 ⟨he, hwf⟩
      have hq' := (T.procs p hp e he' q).2 ⟨h4, hn⟩
      refine ⟨⟨he, hwf⟩, h1, h2, ?_, hq', h5⟩
      rw [T.status p hp e he', if_neg, h3]
      intro h
      rw [h, List.mem_singleton] at hq'
      exact h5 hq'
    · rintro ⟨⟨he, hwf⟩, h1, h2, h3, h4, h5⟩
      have he' := (T.mem hp).2 ⟨he, hwf⟩
      obtain ⟨h6, h7⟩ := (T.procs p hp e he' q).1 h4
      rw [T.status p hp e he'] at h3
      split at h3
      · cases h3
      · exact ⟨⟨he, h1, h2, h3, h6, h5⟩, h7⟩
  · refine key_ext (key := (W p).L.key) (T.gh p hp q i).1 (by rw [← k']; exact ghostList_keys A' hp q i) fun e => ?_
    rw [(T.gh p hp q i).2 e, (S p hp q i).2, mem_ghostList, mem_ghostList, T.mem hp, T.owner p hp]
    constructor
    · rintro ⟨⟨he, h1, h2, h3, h4⟩, hn⟩
      exact ⟨⟨he, hn⟩, h1, h2, (T.ghost A A' hp ((T.mem hp).2 ⟨he, hn⟩)).2 h3, h4⟩
    · rintro ⟨⟨he, hn⟩, h1, h2, h3, h4⟩
      exact ⟨⟨he, h1, h2, (T.ghost A A' hp ((T.mem hp).2 ⟨he, hn⟩)).1 h3, h4⟩, hn⟩

theorem Taken.whole (T : Taken n want W W') {low : Nat → El → List El} (K : Whole n low (meshOf W))
    (hup : ∀ p, p < n → ∀ e, want p e = true → ∀ x, x ∈ (W p).L.elems → e ∉ low p x) : Whole n low (meshOf W') := by
  intro p hp e he x hx
  have he0 := ((T.mem hp).1 he).1
  obtain ⟨h1, h2, h3⟩ := K p hp e he0 x hx
  refine ⟨(T.mem hp).2 ⟨h1, ?_⟩, h2, h3⟩
  cases h : want p x with
  | false => rfl
  | true => exact absurd hx (hup p hp x h e he0)

end

/-- Deletion of elements on which nothing stands. -/
theorem removeEls_elems {low : El → List El} {D : List El} {L : Local Nat}
    (hc : ∀ e, e ∈ L.elems → ∀ x, x ∈ low e → x ∈ L.elems)
    (hup : ∀ d, d ∈ D → ∀ x, x ∈ L.elems → d ∉ low x) :
    (removeEls low D L).elems = L.elems.filter fun e => !D.contains e := by
  have key : ∀ k x, x ∈ L.elems → doomed low D k x = D.contains x := by
    intro k
    induction k with
    | zero => exact fun _ _ => rfl
    | succ k ih =>
      intro x hx
      rw [doomed]
      have : (low x).any (doomed low D k) = false := by
        rw [List.any_eq_false]
        intro y hy hd
        rw [ih y (hc x hx y hy)] at hd
        exact hup y (by simpa using hd) x hx hy
      rw [this, Bool.or_false]
  show L.elems.filter (fun x => !doomed low D 3 x) = _
  exact List.filter_congr fun x hx => by rw [key 3 x hx]

theorem upper_zero {low : El → List El} {L : Local Nat} {e : El} :
    upper low L e = 0 ↔ ∀ x, x ∈ L.elems → e ∉ low x := by
  unfold upper
  rw [List.length_eq_zero_iff, List.filter_eq_nil_iff]
  simp

section

variable {n k t : Nat} {low : Nat → El → List El} {want : Nat → El → Bool} {gone : Nat → Local Nat → El → Bool}
  {os : Bool} {W W' : Nat → Part}

/-- What a pass does. -/
theorem pass_taken (A : Agreed n (meshOf W)) (S : Stored n W) (K : Whole n low (meshOf W)) (ht : t < 5)
    (hw : ∀ p, p < n → ∀ e, want p e = true → e ∈ (meshOf W p).elems ∧ e.ty = t ∧ (meshOf W p).status e = .ghost)
    (hup : ∀ p, p < n → ∀ e, want p e = true → ∀ x, x ∈ (W p).L.elems → e ∉ low p x)
    (hg : ∀ p, p < n → ∀ L : Local Nat, L.elems = (W p).L.elems → L.status = (W p).L.status → ∀ e, e ∈ (W p).L.elems →
      e.ty = t → (W p).L.status e ≠ .owned → ∀ l : List Nat, L.data k e = (if l = [] then none else some l) →
      (∀ v, v ∈ l ↔ WantAt n want (meshOf W) p e v) → gone p L e = want p e)
    (h : Pass n k t low want gone os W W') : Taken n want W W' := by
  obtain ⟨G1, G2, h1, h2, rfl⟩ := h
  have hwg : ∀ p, p < n → ∀ e, want p e = true → (meshOf W p).status e = .ghost := fun p hp e h => (hw p hp e h).2.2
  obtain ⟨s2, hd⟩ := del_data A ht hwg h1 h2
  have se : ∀ p, p < n → (G2 p).elems = (W p).L.elems := s2.elems
  have ss : ∀ p, p < n → (G2 p).status = (W p).L.status := s2.status
  have so : ∀ p, p < n → (G2 p).owner = (W p).L.owner := s2.owner
  have sp : ∀ p, p < n → (G2 p).procs = (W p).L.procs := s2.procs
  have sk : ∀ p, p < n → (G2 p).key = (W p).L.key := s2.key
  have hgone : ∀ p, p < n → ∀ e, e ∈ (W p).L.elems → e.ty = t → (W p).L.status e ≠ .owned →
      gone p (G2 p) e = want p e := by
    intro p hp e he hty hst
    obtain ⟨l, l1, _, l3⟩ := hd p hp e he hty hst
    exact hg p hp (G2 p) (se p hp) (ss p hp) e he hty hst l l1 l3
  -- the deleted elements
  have hdead : ∀ p, p < n → ∀ e, e ∈ ((G2 p).elems.filter fun e => e.ty == t && (G2 p).status e != .owned &&
      gone p (G2 p) e) ↔ want p e = true := by
    intro p hp e
    rw [List.mem_filter, se p hp, ss p hp]
    simp only [Bool.and_eq_true, beq_iff_eq, bne_iff_ne, ne_eq]
    constructor
    · rintro ⟨he, ⟨hty, hst⟩, hgo⟩
      rw [← hgone p hp e he hty hst]; exact hgo
    · intro hwe
      obtain ⟨a, b, c⟩ := hw p hp e hwe
      have hst : (W p).L.status e ≠ .owned := by rw [show (W p).L.status e = _ from c]; simp
      exact ⟨a, ⟨b, hst⟩, by rw [hgone p hp e a b hst]; exact hwe⟩
  have helems : ∀ p, p < n → (finish p t k (low p) (gone p (G2 p)) os (G2 p) (W p)).L.elems =
      (W p).L.elems.filter fun e => !want p e := by
    intro p hp
    refine (removeEls_elems ?_ ?_).trans ?_
    · intro e he x hx
      replace he : e ∈ (G2 p).elems := he
      rw [se p hp] at he
      show x ∈ (G2 p).elems
      rw [se p hp]
      exact (K p hp e he x hx).1
    · intro d hdm x hx
      replace hx : x ∈ (G2 p).elems := hx
      rw [se p hp] at hx
      exact hup p hp d ((hdead p hp d).1 hdm) x hx
    · show (G2 p).elems.filter _ = _
      rw [show (G2 p).elems.filter _ = (W p).L.elems.filter _ from congrArg (List.filter _) (se p hp)]
      refine List.filter_congr fun x _ => ?_
      congr 1
      rw [Bool.eq_iff_iff, List.contains_iff_mem]
      exact hdead p hp x
  have hmem : ∀ p, p < n → ∀ e, e ∈ (finish p t k (low p) (gone p (G2 p)) os (G2 p) (W p)).L.elems ↔
      e ∈ (W p).L.elems ∧ want p e = false := by
    intro p hp e
    rw [helems p hp, List.mem_filter]
    simp
  -- elements whose lists are not touched
  have hno : ∀ p, p < n → ∀ e, e ∈ (W p).L.elems → (e.ty ≠ t ∨ (W p).L.status e = .owned) →
      ∀ v, ¬ WantAt n want (meshOf W) p e v := by
    rintro p hp e he h v ⟨hv, e', he', hs, hwe⟩
    obtain ⟨a, b, c⟩ := hw v hv e' hwe
    rcases h with h | h
    · exact h (hs.1.trans b)
    · exact A.notOwned hv hp he' he hs.symm (by rw [c]; simp) h
  -- the list of an element that is left
  have hproc : ∀ p, p < n → ∀ e, e ∈ (W p).L.elems → want p e = false →
      (finish p t k (low p) (gone p (G2 p)) os (G2 p) (W p)).L.procs e =
        (if e.ty = t ∧ (W p).L.status e ≠ .owned then (if ((G2 p).data k e).isSome then
          lessProcs ((W p).L.procs e) (((G2 p).data k e).getD []) else (W p).L.procs e) else (W p).L.procs e) ∧
      (finish p t k (low p) (gone p (G2 p)) os (G2 p) (W p)).L.status e =
        (if e.ty = t ∧ (W p).L.status e ≠ .owned ∧ ((G2 p).data k e).isSome ∧
          lessProcs ((W p).L.procs e) (((G2 p).data k e).getD []) = [p] then .owned else (W p).L.status e) := by
    intro p hp e he hwf
    have u : (e.ty == t && (G2 p).status e != .owned && !gone p (G2 p) e && ((G2 p).data k e).isSome) = true ↔
        e.ty = t ∧ (W p).L.status e ≠ .owned ∧ ((G2 p).data k e).isSome := by
      rw [ss p hp]
      simp only [Bool.and_eq_true, beq_iff_eq, bne_iff_ne, ne_eq, Bool.not_eq_true']
      constructor
      · rintro ⟨⟨⟨a, b⟩, _⟩, d⟩; exact ⟨a, b, d⟩
      · rintro ⟨a, b, d⟩; exact ⟨⟨⟨a, b⟩, by rw [hgone p hp e he a b]; exact hwf⟩, d⟩
    constructor
    · show (if (e.ty == t && (G2 p).status e != .owned && !gone p (G2 p) e && ((G2 p).data k e).isSome) = true then
        lessProcs ((G2 p).procs e) (((G2 p).data k e).getD []) else (G2 p).procs e) = _
      rw [sp p hp]
      by_cases hu : e.ty = t ∧ (W p).L.status e ≠ .owned
      · rw [if_pos hu]
        by_cases hd' : ((G2 p).data k e).isSome = true
        · rw [if_pos (u.2 ⟨hu.1, hu.2, hd'⟩), if_pos hd']
        · rw [if_neg (fun h => hd' (u.1 h).2.2), if_neg hd']
      · rw [if_neg hu, if_neg (fun h => hu ⟨(u.1 h).1, (u.1 h).2.1⟩)]
    · show (if ((e.ty == t && (G2 p).status e != .owned && !gone p (G2 p) e && ((G2 p).data k e).isSome) &&
        lessProcs ((G2 p).procs e) (((G2 p).data k e).getD []) == [p]) = true then Status.owned else (G2 p).status e) = _
      rw [sp p hp]
      by_cases hu : e.ty = t ∧ (W p).L.status e ≠ .owned ∧ ((G2 p).data k e).isSome ∧
          lessProcs ((W p).L.procs e) (((G2 p).data k e).getD []) = [p]
      · rw [if_pos hu, if_pos]
        rw [Bool.and_eq_true, beq_iff_eq]
        exact ⟨u.2 ⟨hu.1, hu.2.1, hu.2.2.1⟩, hu.2.2.2⟩
      · rw [if_neg hu, if_neg, ss p hp]
        rw [Bool.and_eq_true, beq_iff_eq]
        rintro ⟨h1, h2⟩
        obtain ⟨a, b, c⟩ := u.1 h1
        exact hu ⟨a, b, c, h2⟩
  have hfilter : ∀ p, p < n → ∀ e, e ∈ (W p).L.elems → want p e = false → ∃ l : List Nat,
      (∀ v, v ∈ l ↔ WantAt n want (meshOf W) p e v) ∧
      (finish p t k (low p) (gone p (G2 p)) os (G2 p) (W p)).L.procs e = ((W p).L.procs e).filter fun v => !l.contains v := by
    intro p hp e he hwf
    by_cases hu : e.ty = t ∧ (W p).L.status e ≠ .owned
    · obtain ⟨l, l1, _, l3⟩ := hd p hp e he hu.1 hu.2
      refine ⟨l, l3, ?_⟩
      rw [(hproc p hp e he hwf).1, if_pos hu, l1]
      by_cases hl : l = []
      · subst hl
        rw [if_pos rfl]
        exact (List.filter_eq_self.2 (by simp)).symm
      · rw [if_neg hl]
        simp only [Option.isSome_some, if_true, Option.getD_some]
        exact lessProcs_eq (A.sorted p hp e he)
    · refine ⟨[], fun v => ?_, ?_⟩
      · have : e.ty ≠ t ∨ (W p).L.status e = .owned := by
          by_cases h : e.ty = t
          · exact Or.inr (Classical.not_not.1 fun h' => hu ⟨h, h'⟩)
          · exact Or.inl h
        simp [hno p hp e he this v]
      · rw [(hproc p hp e he hwf).1, if_neg hu]
        exact (List.filter_eq_self.2 (by simp)).symm
  refine ⟨helems, so, sk, ?_, ?_, ?_, ?_, ?_⟩
  · intro p hp e he
    obtain ⟨he0, hwf⟩ := (hmem p hp e).1 he
    obtain ⟨l, _, l2⟩ := hfilter p hp e he0 hwf
    rw [l2]
    exact List.Pairwise.sublist List.filter_sublist (A.sorted p hp e he0)
  · intro p hp e he v
    obtain ⟨he0, hwf⟩ := (hmem p hp e).1 he
    obtain ⟨l, l1, l2⟩ := hfilter p hp e he0 hwf
    rw [l2, List.mem_filter, ← l1]
    simp
  · intro p hp e he
    obtain ⟨he0, hwf⟩ := (hmem p hp e).1 he
    rw [(hproc p hp e he0 hwf).2, (hproc p hp e he0 hwf).1]
    by_cases hu : e.ty = t ∧ (W p).L.status e ≠ .owned
    · rw [if_pos hu]
      by_cases hds : ((G2 p).data k e).isSome = true
      · rw [if_pos hds]
        by_cases hl : lessProcs ((W p).L.procs e) (((G2 p).data k e).getD []) = [p]
        · rw [if_pos ⟨hu.1, hu.2, hds, hl⟩, if_pos hl]
        · rw [if_neg fun h => hl h.2.2.2, if_neg hl]
      · rw [if_neg hds, if_neg fun h => hds h.2.2.1, if_neg]
        exact fun h => hu.2 ((A.owned hp he0).2 h)
    · rw [if_neg hu, if_neg fun h => hu ⟨h.1, h.2.1⟩]
      split
      · rename_i h; exact (A.owned hp he0).2 h
      · rfl
  · intro p hp q i
    have hkey := sharedList_keys A hp q i
    show (((if i = t then takeOut (G2 p) ((W p).sh q i) _ else (W p).sh q i)).map (W p).L.key).Pairwise (· < ·) ∧ ∀ e,
      e ∈ (if i = t then takeOut (G2 p) ((W p).sh q i) _ else (W p).sh q i) ↔ _
    rw [(S p hp q i).1]
    by_cases hi : i = t
    · rw [if_pos hi]
      have hsub : ∀ b, b ∈ ((G2 p).elems.flatMap fun e => if (e.ty == t && (G2 p).status e != .owned && !gone p (G2 p) e &&
          ((G2 p).data k e).isSome) && (!os || (G2 p).status e == .shared) then
          ((sortRanks (((G2 p).data k e).getD [])).filter fun v => v == q).map fun _ => e else []) →
          b ∈ (W p).L.elems ∧ b.ty = t ∧ WantAt n want (meshOf W) p b q := by
        intro b hb
        rw [List.mem_flatMap] at hb
        obtain ⟨a, ha, hb⟩ := hb
        rw [se p hp] at ha
        split at hb
        · rename_i hc
          rw [ss p hp] at hc
          simp only [Bool.and_eq_true, beq_iff_eq, bne_iff_ne, ne_eq] at hc
          simp only [List.mem_map, List.mem_filter, beq_iff_eq] at hb
          obtain ⟨v, ⟨hv, rfl⟩, rfl⟩ := hb
          obtain ⟨l, l1, _, l3⟩ := hd p hp a ha hc.1.1.1.1 hc.1.1.1.2
          refine ⟨ha, hc.1.1.1.1, (l3 v).1 ?_⟩
          have hv' := (sortRanks_perm _).mem_iff.1 hv
          rw [l1] at hv'
          split at hv'
          · cases hv'
          · exact hv'
        · cases hb
      obtain ⟨x1, x2⟩ := takeOut_spec (L := G2 p) (l := sharedList (fun _ => true) p (W p).L q i) (by rw [sk p hp]; exact hkey)
        (del := (G2 p).elems.flatMap fun e => if (e.ty == t && (G2 p).status e != .owned && !gone p (G2 p) e &&
          ((G2 p).data k e).isSome) && (!os || (G2 p).status e == .shared) then
          ((sortRanks (((G2 p).data k e).getD [])).filter fun v => v == q).map fun _ => e else []) (by
          intro a b ha hb hk
          have ha' := mem_sharedList.1 ha
          have hb' := hsub b hb
          rw [sk p hp] at hk
          exact A.unique p hp b a hb'.1 ha'.1 ⟨by rw [hb'.2.1, ha'.2.2.1, hi], hk⟩)
      rw [sk p hp] at x1
      refine ⟨x1, fun e => ?_⟩
      rw [x2 e]
      refine and_congr_right fun hm => not_congr ⟨fun h => (hsub e h).2.2, fun hwa => ?_⟩
      obtain ⟨he, _, hty, hst, hq, hne⟩ := mem_sharedList.1 hm
      rw [hi] at hty
      have hso : (W p).L.status e ≠ .owned := by rw [hst]; simp
      have hwf : want p e = false := by
        cases h : want p e with
        | false => rfl
        | true => have := (hw p hp e h).2.2; rw [show (meshOf W p).status e = _ from hst] at this; cases this
      obtain ⟨l, l1, _, l3⟩ := hd p hp e he hty hso
      have hql : q ∈ l := (l3 q).2 hwa
      have hln : l ≠ [] := fun h => by rw [h] at hql; cases hql
      rw [if_neg hln] at l1
      rw [List.mem_flatMap]
      refine ⟨e, by rw [se p hp]; exact he, ?_⟩
      rw [if_pos]
      · simp only [List.mem_map, List.mem_filter, beq_iff_eq]
        exact ⟨q, ⟨(sortRanks_perm _).mem_iff.2 (by rw [l1]; exact hql), rfl⟩, trivial⟩
      · rw [ss p hp, hgone p hp e he hty hso, hwf, l1, hst, hty]
        simp
    · rw [if_neg hi]
      refine ⟨hkey, fun e => ⟨fun hm => ⟨hm, ?_⟩, fun h => h.1⟩⟩
      obtain ⟨he, _, hty, _⟩ := mem_sharedList.1 hm
      exact hno p hp e he (Or.inl (by rw [hty]; exact hi)) q
  · intro p hp q i
    have hkey := ghostList_keys A hp q i
    show (((if i = t then takeOut (G2 p) ((W p).gh q i) _ else (W p).gh q i)).map (W p).L.key).Pairwise (· < ·) ∧ ∀ e,
      e ∈ (if i = t then takeOut (G2 p) ((W p).gh q i) _ else (W p).gh q i) ↔ _
    rw [(S p hp q i).2]
    by_cases hi : i = t
    · rw [if_pos hi]
      have hsub : ∀ b, b ∈ (((G2 p).elems.filter fun e => e.ty == t && (G2 p).status e != .owned && gone p (G2 p) e).filter
          fun e => (G2 p).owner e == q) ↔ want p b = true ∧ (W p).L.owner b = q := by
        intro b
        rw [List.mem_filter, hdead p hp, so p hp]
        simp
      obtain ⟨x1, x2⟩ := takeOut_spec (L := G2 p) (l := ghostList (fun _ => true) (W p).L q i) (by rw [sk p hp]; exact hkey)
        (del := ((G2 p).elems.filter fun e => e.ty == t && (G2 p).status e != .owned && gone p (G2 p) e).filter
          fun e => (G2 p).owner e == q) (by
          intro a b ha hb hk
          have ha' := mem_ghostList.1 ha
          have hb' := hw p hp b ((hsub b).1 hb).1
          rw [sk p hp] at hk
          exact A.unique p hp b a hb'.1 ha'.1 ⟨by rw [hb'.2.1, ha'.2.2.1, hi], hk⟩)
      rw [sk p hp] at x1
      refine ⟨x1, fun e => ?_⟩
      rw [x2 e, hsub]
      refine and_congr_right fun hm => ?_
      have := (mem_ghostList.1 hm).2.2.2.2
      simp [this]
    · rw [if_neg hi]
      refine ⟨hkey, fun e => ⟨fun hm => ⟨hm, ?_⟩, fun h => h.1⟩⟩
      obtain ⟨he, _, hty, _⟩ := mem_ghostList.1 hm
      cases h : want p e with
      | false => rfl
      | true => exact absurd ((hty.symm.trans (hw p hp e h).2.1)) hi

end

end Verif.Parallel
