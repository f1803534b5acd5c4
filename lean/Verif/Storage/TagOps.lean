import Verif.Storage.Tags
import Verif.Storage.Spec

/-! # `CreateTag` and `DeleteTag` -/

namespace Verif.Storage

variable {V : Type} {zero : Nat → Option Nat → V}

/-! ## `CreateTag` -/

theorem alloc_capacity (s : Sto V) (need : ET → Bool) (t : ET) :
    ((allocSparse s need).ty t).capacity = (s.ty t).capacity := by
  unfold allocSparse
  simp only
  split <;> rfl

theorem alloc_createOn (s : Sto V) (need : ET → Bool) (i : Nat) (t : ET) (sp : Bool) :
    createOn zero (allocSparse s need) i t sp = allocSparse (createOn zero s i t sp) need := by
  unfold createOn
  rw [show findTag (allocSparse s need) i = findTag s i from rfl]
  cases findTag s i with
  | none => rfl
  | some τ =>
    simp only
    split
    · rfl
    · split
      · rfl
      · rw [alloc_capacity]; rfl

theorem alloc_fold (mask sparse : ET → Bool) (need : ET → Bool) (i : Nat) (ts : List ET) :
    ∀ s : Sto V, allocSparse
      (ts.foldl (fun s t => if mask t then createOn zero s i t (sparse t) else s) s) need =
      ts.foldl (fun s t => if mask t then createOn zero s i t (sparse t) else s)
        (allocSparse s need) := by
  induction ts with
  | nil => intro s; rfl
  | cons t ts ih =>
    intro s
    simp only [List.foldl_cons]
    rw [ih]
    congr 1
    split
    · rw [alloc_createOn]
    · rfl

theorem alloc_spec {s : Sto V} (I : Inv zero s) (need : ET → Bool) :
    Inv zero (allocSparse s need) ∧
    (∀ u, ((allocSparse s need).ty u).nlinks = (s.ty u).nlinks ∧
      ((allocSparse s need).ty u).links = (s.ty u).links) ∧
    (∀ u, need u = true →
      ((allocSparse s need).ty u).nsparse = ((allocSparse s need).ty u).nback) ∧
    (∀ u a k, liveS s u a → readAt (allocSparse s need) u a k = readAt s u a k) := by
  let s' := allocSparse s need
  have hty : ∀ u, s'.ty u = if need u ∧ (s.ty u).nsparse = 0 then
        { s.ty u with nsparse := clampSize u (s.ty u).capacity, sparse := fun _ => [] }
      else s.ty u := fun u => rfl
  have h1 : ∀ u, (s'.ty u).nlinks = (s.ty u).nlinks ∧ (s'.ty u).links = (s.ty u).links ∧
      (s'.ty u).nback = (s.ty u).nback := by
    intro u; rw [hty]; split <;> exact ⟨rfl, rfl, rfl⟩
  have hl : liveS s' = liveS s := liveS_ty fun u => ⟨(h1 u).1, (h1 u).2.1⟩
  have hsp : ∀ u, (s'.ty u).sparse = (s.ty u).sparse ∧ (s'.ty u).nsparse = (s.ty u).nsparse ∨
      (s.ty u).nsparse = 0 ∧ (s'.ty u).nsparse = (s'.ty u).nback ∧
        (s'.ty u).sparse = fun _ => [] := by
    intro u
    rw [hty]
    split
    · next h => exact Or.inr ⟨h.2, ((I.L u).cap).symm, rfl⟩
    · exact Or.inl ⟨rfl, rfl⟩
  refine ⟨⟨?_, ?_⟩, fun u => ⟨(h1 u).1, (h1 u).2.1⟩, ?_, ?_⟩
  · intro u
    have L := I.L u
    show LInv u (s'.ty u)
    rw [hty]
    split
    · exact ⟨L.l1, L.l2, L.s1, L.s2, L.b1, L.b2, L.cap, L.mesh⟩
    · exact L
  · rw [show liveS (allocSparse s need) = liveS s from hl]
    have D := I.D
    refine ⟨D.ids, D.names, D.flagged, D.unflagged, D.colLt, ?_, D.colZero, D.dist, D.ed, ?_, ?_,
      ?_, ?_, ?_⟩
    · intro τ hτ u p hp
      rw [show ((allocSparse s need).ty u).nback = _ from (h1 u).2.2]
      exact D.colSize τ hτ u p hp
    · intro u
      show (s'.ty u).nsparse = 0 ∨ (s'.ty u).nsparse = (s'.ty u).nback
      rcases hsp u with ⟨_, h⟩ | ⟨_, h, _⟩
      · rw [h, (h1 u).2.2]; exact D.sp u
      · exact Or.inr h
    · intro τ hτ u hd hf
      show (s'.ty u).nsparse = (s'.ty u).nback
      rcases hsp u with ⟨_, h⟩ | ⟨_, h, _⟩
      · rw [h, (h1 u).2.2]; exact D.spNeed τ hτ u hd hf
      · exact h
    · intro u a r hr
      have hr : r ∈ (s'.ty u).sparse a := hr
      rcases hsp u with ⟨h, _⟩ | ⟨_, _, h⟩
      · rw [h] at hr; exact D.spTag u a r hr
      · rw [h] at hr; simp at hr
    · intro u a
      show (((s'.ty u).sparse a).map (·.1)).Nodup
      rcases hsp u with ⟨h, _⟩ | ⟨_, _, h⟩
      · rw [h]; exact D.spKeys u a
      · rw [h]; exact List.nodup_nil
    · intro u a ha
      show a < (s'.ty u).nback
      rw [(h1 u).2.2]; exact D.bound u a ha
  · intro u hu
    show (s'.ty u).nsparse = (s'.ty u).nback
    by_cases h : (s.ty u).nsparse = 0
    · rw [hty, if_pos ⟨hu, h⟩]; exact ((I.L u).cap).symm
    · rw [hty, if_neg (fun x => h x.2)]
      exact (I.D.sp u).resolve_left h
  · intro u a k ha
    apply readAt_congr (s' := s') (s := s) rfl
    · intro τ hτ hd hf
      have h2 := I.D.spNeed τ hτ u hd hf
      have h3 := I.D.bound u a ha
      rcases hsp u with ⟨h, h'⟩ | ⟨h, _, _⟩
      · rw [h, h']; exact ⟨Iff.rfl, rfl⟩
      · omega
    · intro τ _ p _; exact ⟨Iff.rfl, Iff.rfl, rfl⟩

/-- The set of types on which the tag becomes newly defined by the loop over `ts`. -/
def newOn (τ : TagRec) (mask : ET → Bool) (ts : List ET) (u : ET) : Prop :=
  u ∈ ts ∧ mask u = true ∧ τ.pos u = .undef

theorem createFold_spec {i : Nat} (mask sparse : ET → Bool) (ts : List ET) :
    ∀ (s : Sto V) (τ : TagRec), Inv zero s → findTag s i = some τ → ts.Nodup →
    (∀ t ∈ ts, mask t = true → τ.pos t = .undef →
      if sparse t then (s.ty t).nsparse = (s.ty t).nback else τ.flag t = false) →
    let s' := ts.foldl (fun s t => if mask t then createOn zero s i t (sparse t) else s) s
    Inv zero s' ∧ Created zero s s' i (newOn τ mask ts) sparse := by
  induction ts with
  | nil =>
    intro s τ I hf _ _
    refine ⟨I, fun _ => ⟨rfl, rfl⟩, rfl, ?_, rfl, fun _ _ => rfl, fun _ _ _ _ _ => rfl, ?_⟩
    · intro τ' h'
      exact ⟨τ', h', rfl, rfl, rfl, fun u h => absurd h.1 (by simp), fun u _ => ⟨rfl, rfl⟩⟩
    · intro u a _ _ _ h; exact absurd h.1 (by simp)
  | cons t ts ih =>
    intro s τ I hf hnd hpre
    rw [List.nodup_cons] at hnd
    by_cases hm : mask t = true
    swap
    · simp only [List.foldl_cons, if_neg hm]
      obtain ⟨I', C⟩ := ih s τ I hf hnd.2 (fun u hu => hpre u (by simp [hu]))
      have hn : ∀ u, newOn τ mask (t :: ts) u ↔ newOn τ mask ts u := by
        intro u
        unfold newOn
        constructor
        · rintro ⟨h1, h2, h3⟩
          rcases List.mem_cons.1 h1 with rfl | h1
          · exact absurd h2 hm
          · exact ⟨h1, h2, h3⟩
        · rintro ⟨h1, h2, h3⟩; exact ⟨by simp [h1], h2, h3⟩
      have : newOn τ mask (t :: ts) = newOn τ mask ts := by funext u; rw [eq_iff_iff]; exact hn u
      rw [this]
      exact ⟨I', C⟩
    · simp only [List.foldl_cons, if_pos hm]
      obtain ⟨hty, D1, C1⟩ := createOn_spec (sp := sparse t) I.D I.L hf
        (hpre t (by simp) hm)
      generalize createOn zero s i t (sparse t) = s1 at hty D1 C1 ⊢
      have I1 : Inv zero s1 := ⟨by rw [hty]; exact I.L, by rw [liveS_ty C1.ty]; exact D1⟩
      obtain ⟨τ1, hf1, hn1, hd1, hs1, hnew1, hold1⟩ := C1.tag τ hf
      have hne : ∀ u, u ≠ t → τ1.pos u = τ.pos u ∧ τ1.flag u = τ.flag u :=
        fun u hu => hold1 u (fun h => hu h.1)
      obtain ⟨I2, C2⟩ := ih s1 τ1 I1 hf1 hnd.2 (by
        intro u hu h1 h2
        have hut : u ≠ t := by rintro rfl; exact hnd.1 hu
        rw [hty, (hne u hut).2]
        rw [(hne u hut).1] at h2
        exact hpre u (by simp [hu]) h1 h2)
      refine ⟨I2, ?_⟩
      have hnt : ¬ newOn τ1 mask ts t := fun h => hnd.1 h.1
      have hiff : ∀ u, newOn τ mask (t :: ts) u ↔
          (u = t ∧ τ.pos t = .undef) ∨ newOn τ1 mask ts u := by
        intro u
        unfold newOn
        constructor
        · rintro ⟨h1, h2, h3⟩
          by_cases h : u = t
          · subst h; exact Or.inl ⟨rfl, h3⟩
          · exact Or.inr ⟨(List.mem_cons.1 h1).resolve_left h, h2, by rw [(hne u h).1]; exact h3⟩
        · rintro (⟨rfl, h⟩ | ⟨h1, h2, h3⟩)
          · exact ⟨by simp, hm, h⟩
          · have hut : u ≠ t := by rintro rfl; exact hnd.1 h1
            rw [(hne u hut).1] at h3
            exact ⟨by simp [h1], h2, h3⟩
      have hl : liveS s1 = liveS s := liveS_ty C1.ty
      refine ⟨fun u => ⟨(C2.ty u).1.trans (C1.ty u).1, (C2.ty u).2.trans (C1.ty u).2⟩,
        C2.modified.trans C1.modified, ?_, C2.names.trans C1.names,
        fun k hk => (C2.others k hk).trans (C1.others k hk), ?_, ?_⟩
      · intro τ' h'
        rw [hf] at h'; cases h'
        obtain ⟨τ2, hf2, hn2, hd2, hs2, hnew2, hold2⟩ := C2.tag τ1 hf1
        refine ⟨τ2, hf2, hn2.trans hn1, hd2.trans hd1, hs2.trans hs1, ?_, ?_⟩
        · intro u hu
          rcases (hiff u).1 hu with h | h
          · obtain ⟨e1, e2⟩ := hnew1 u h
            obtain ⟨rfl, _⟩ := h
            obtain ⟨e3, e4⟩ := hold2 u hnt
            unfold TagRec.defined at *
            rw [e3, e4]; exact ⟨e1, e2⟩
          · exact hnew2 u h
        · intro u hu
          have h1 := hold1 u (fun h => hu ((hiff u).2 (Or.inl h)))
          have h2 := hold2 u (fun h => hu ((hiff u).2 (Or.inr h)))
          exact ⟨h2.1.trans h1.1, h2.2.trans h1.2⟩
      · intro u a k ha hk
        rw [C2.reads u a k (by rw [hl]; exact ha)
          (hk.imp id fun h h' => h ((hiff u).2 (Or.inr h')))]
        exact C1.reads u a k ha (hk.imp id fun h h' => h ((hiff u).2 (Or.inl h')))
      · intro u a τ' h' ha hu
        rw [hf] at h'; cases h'
        rcases (hiff u).1 hu with h | h
        · have := C1.fresh u a τ hf ha h
          obtain ⟨rfl, _⟩ := h
          rw [C2.reads u a i (by rw [hl]; exact ha) (Or.inr hnt)]
          exact this
        · rw [← hd1, ← hs1]
          exact C2.fresh u a τ1 hf1 (by rw [hl]; exact ha) h

theorem findName_mem {s : Sto V} {n : String} {τ : TagRec} (h : findName s n = some τ) :
    τ ∈ s.tags ∧ τ.name = n :=
  ⟨List.mem_of_find?_eq_some h, by simpa using List.find?_some h⟩

theorem findName_none {s : Sto V} {n : String} : findName s n = none ↔ ∀ τ ∈ s.tags, τ.name ≠ n := by
  unfold findName
  rw [List.find?_eq_none]
  simp

theorem allTypes_mem (t : ET) : t ∈ allTypes := by revert t; decide +kernel

theorem allTypes_nodup : allTypes.Nodup := by decide +kernel

/-- Adding a tag that is defined nowhere. -/
theorem addTag_spec {s : Sto V} (I : Inv zero s) {name : String} {dtype : Nat} {size : Option Nat}
    {i : Nat} (hn : findName s name = none) (hi : findTag s i = none) :
    let s' : Sto V := { s with tags := s.tags ++
        [⟨i, name, dtype, size, fun _ => .undef, fun _ => false⟩] }
    Inv zero s' ∧
    findTag s' i = some ⟨i, name, dtype, size, fun _ => .undef, fun _ => false⟩ ∧
    (∀ k, k ≠ i → findTag s' k = findTag s k) ∧
    (∀ u a k, k ≠ i → readAt s' u a k = readAt s u a k) := by
  intro s'
  let ρ : TagRec := ⟨i, name, dtype, size, fun _ => .undef, fun _ => false⟩
  have hids : ∀ τ ∈ s.tags, τ.id ≠ i := by
    intro τ hτ e
    have := I.D.find hτ
    rw [e, hi] at this; cases this
  have hmem : ∀ σ, σ ∈ s'.tags ↔ σ ∈ s.tags ∨ σ = ρ := by
    intro σ; show σ ∈ s.tags ++ [ρ] ↔ _; simp
  have hcol : ∀ u p, ρ.colOf u ≠ some p := by
    intro u p h; have := (colOf_some.1 h).2; cases this
  have hf1 : findTag s' i = some ρ := by
    show (s.tags ++ [ρ]).find? _ = _
    rw [List.find?_append, show s.tags.find? (fun τ => τ.id = i) = none from hi]
    simp [ρ]
  have hf2 : ∀ k, k ≠ i → findTag s' k = findTag s k := by
    intro k hk
    show (s.tags ++ [ρ]).find? _ = _
    rw [List.find?_append]
    have : [ρ].find? (fun τ => τ.id = k) = none := by
      rw [List.find?_eq_none]; simp [ρ, hk.symm]
    rw [this, Option.or_none]; rfl
  have D := I.D
  refine ⟨⟨I.L, ⟨?_, ?_, ?_, ?_, ?_, ?_, ?_, ?_, D.ed, D.sp, ?_, ?_, D.spKeys, D.bound⟩⟩, hf1, hf2, ?_⟩
  · show ((s.tags ++ [ρ]).map (·.id)).Nodup
    rw [List.map_append, List.nodup_append]
    refine ⟨D.ids, by simp, ?_⟩
    intro x hx y hy e
    obtain ⟨τ, h1, h2⟩ := List.mem_map.1 hx
    simp only [List.map_cons, List.map_nil, List.mem_singleton] at hy
    exact hids τ h1 (by rw [h2, e, hy])
  · show ((s.tags ++ [ρ]).map (·.name)).Nodup
    rw [List.map_append, List.nodup_append]
    refine ⟨D.names, by simp, ?_⟩
    intro x hx y hy e
    obtain ⟨τ, h1, h2⟩ := List.mem_map.1 hx
    simp only [List.map_cons, List.map_nil, List.mem_singleton] at hy
    exact findName_none.1 hn τ h1 (by rw [h2, e, hy])
  · intro σ hσ u h
    rcases (hmem σ).1 hσ with h1 | rfl
    · exact D.flagged σ h1 u h
    · exact Or.inl rfl
  · intro σ hσ u h
    rcases (hmem σ).1 hσ with h1 | rfl
    · exact D.unflagged σ h1 u h
    · intro e; cases e
  · intro σ hσ u p h
    rcases (hmem σ).1 hσ with h1 | rfl
    · exact D.colLt σ h1 u p h
    · exact absurd h (hcol u p)
  · intro σ hσ u p h
    rcases (hmem σ).1 hσ with h1 | rfl
    · exact D.colSize σ h1 u p h
    · exact absurd h (hcol u p)
  · intro σ hσ u p h
    rcases (hmem σ).1 hσ with h1 | rfl
    · exact D.colZero σ h1 u p h
    · exact absurd h (hcol u p)
  · intro σ hσ τ hτ u w p h h'
    rcases (hmem σ).1 hσ with h1 | rfl
    · rcases (hmem τ).1 hτ with h2 | rfl
      · exact D.dist σ h1 τ h2 u w p h h'
      · exact absurd h' (hcol w p)
    · exact absurd h (hcol u p)
  · intro σ hσ u hd hf
    rcases (hmem σ).1 hσ with h1 | rfl
    · exact D.spNeed σ h1 u hd hf
    · cases hf
  · intro u a r hr
    obtain ⟨h1, τ, h2, h3⟩ := D.spTag u a r hr
    exact ⟨h1, τ, (hmem τ).2 (Or.inl h2), h3⟩
  · intro u a k hk
    unfold readAt
    rw [hf2 k hk]

theorem createTag_spec {s : Sto V} (I : Inv zero s) {name : String} {dtype : Nat}
    {size : Option Nat} {mask sparse : ET → Bool} {newId : Nat}
    (P : CreatePre s name dtype size mask sparse newId) :
    ∃ s' i, createTag zero s name dtype size mask sparse newId = some (s', i) ∧ Inv zero s' ∧
      s'.modified = s.modified ∧ (∀ u j, slot s' u j = slot s u j) ∧
      (∀ k, k ≠ i → findTag s' k = findTag s k) ∧
      (∀ τ, findName s name = some τ → i = τ.id) ∧ (findName s name = none → i = newId) ∧
      (∃ τ', findTag s' i = some τ' ∧ τ'.name = name ∧ τ'.dtype = dtype ∧
        (findName s name = none → τ'.size = size) ∧
        (∀ τ, findName s name = some τ → τ'.size = τ.size) ∧
        (∀ u, mask u = true → τ'.defined u = true ∧
          ((∀ τ, findTag s i = some τ → τ.pos u = .undef) → τ'.flag u = sparse u)) ∧
        ∀ u a, liveS s u a →
          let isNew := mask u = true ∧ ∀ τ, findTag s i = some τ → τ.pos u = .undef
          (isNew → readAt s' u a i =
              some (if sparse u then none else some (zero τ'.dtype τ'.size))) ∧
          (¬ isNew → readAt s' u a i = readAt s u a i)) ∧
      (∀ u a k, liveS s u a → k ≠ i → readAt s' u a k = readAt s u a k) := by
  -- both ways of obtaining the tag lead to a state in which it is present
  have key : ∀ (s0 : Sto V) (i : Nat) (τ : TagRec), Inv zero s0 → findTag s0 i = some τ →
      (∀ t, mask t = true → τ.pos t = .undef → τ.flag t = true → sparse t = true) →
      let s1 := allTypes.foldl (fun s t => if mask t then createOn zero s i t (sparse t) else s) s0
      let s2 := allocSparse s1 fun t => mask t && sparse t && (match findTag s0 i with
        | some τ => τ.pos t == Pos.undef
        | none => false)
      Inv zero s2 ∧ Created zero s0 s2 i (fun u => mask u = true ∧ τ.pos u = .undef) sparse := by
    intro s0 i τ I0 hf hst
    simp only
    rw [alloc_fold, hf]
    simp only
    obtain ⟨I1, h1, h2, h3⟩ := alloc_spec I0 fun t => mask t && sparse t && (τ.pos t == Pos.undef)
    have htg : (allocSparse s0 fun t => mask t && sparse t && (τ.pos t == Pos.undef)).tags = s0.tags :=
      rfl
    have hmd : (allocSparse s0 fun t => mask t && sparse t && (τ.pos t == Pos.undef)).modified =
      s0.modified := rfl
    generalize (allocSparse s0 fun t => mask t && sparse t && (τ.pos t == Pos.undef)) = sA at *
    have hfA : ∀ k, findTag sA k = findTag s0 k := fun k => by unfold findTag; rw [htg]
    obtain ⟨I2, C⟩ := createFold_spec (zero := zero) (i := i) mask sparse allTypes sA τ I1
      (by rw [hfA]; exact hf) allTypes_nodup (by
        intro t _ hm hu
        by_cases hs : sparse t = true
        · rw [if_pos hs]; exact h2 t (by simp [hm, hs, hu])
        · rw [if_neg hs]
          cases hfl : τ.flag t with
          | false => rfl
          | true => exact absurd (hst t hm hu hfl) hs)
    refine ⟨I2, ?_⟩
    have hnew : newOn τ mask allTypes = fun u => mask u = true ∧ τ.pos u = .undef := by
      funext u
      rw [eq_iff_iff]
      exact ⟨fun h => h.2, fun h => ⟨allTypes_mem u, h⟩⟩
    rw [hnew] at C
    have hl : liveS sA = liveS s0 := liveS_ty h1
    exact ⟨fun u => ⟨(C.ty u).1.trans (h1 u).1, (C.ty u).2.trans (h1 u).2⟩,
      C.modified.trans hmd, fun τ' h' => C.tag τ' (by rw [hfA]; exact h'),
      by rw [C.names, htg], fun k hk => by rw [C.others k hk, hfA],
      fun u a k ha hk => by rw [C.reads u a k (by rw [hl]; exact ha) hk, h3 u a k ha],
      fun u a τ' h' ha hu => C.fresh u a τ' (by rw [hfA]; exact h') (by rw [hl]; exact ha) hu⟩
  cases hn : findName s name with
  | some τ =>
    obtain ⟨hm, hname⟩ := findName_mem hn
    have hf := I.D.find hm
    obtain ⟨e1, e2⟩ := P.same τ hn
    obtain ⟨I2, C⟩ := key s τ.id τ I hf (P.stale τ hn)
    obtain ⟨τ', hf', q1, q2, q3, q4, q5⟩ := C.tag τ hf
    refine ⟨_, τ.id, ?_, I2, C.modified, slot_ty C.ty, C.others, ?_, fun h => by simp at h, ?_, ?_⟩
    · unfold createTag
      simp only [hn]
      rw [if_pos ⟨e1, e2⟩]
      rfl
    · intro σ h; simp only [Option.some.injEq] at h; rw [h]
    · refine ⟨τ', hf', q1.trans hname, q2.trans e1, fun h => by simp at h, ?_, ?_, ?_⟩
      · intro σ h; simp only [Option.some.injEq] at h; rw [← h]; exact q3
      · intro u hu
        by_cases h : τ.pos u = .undef
        · exact ⟨(q4 u ⟨hu, h⟩).1, fun _ => (q4 u ⟨hu, h⟩).2⟩
        · obtain ⟨h1, _⟩ := q5 u (fun h' => h h'.2)
          refine ⟨?_, fun h' => absurd (h' τ hf) h⟩
          unfold TagRec.defined
          rw [h1]; simpa using h
      · intro u a ha
        refine ⟨fun h => ?_, fun h => ?_⟩
        · rw [q2, q3]; exact C.fresh u a τ hf ha ⟨h.1, h.2 τ hf⟩
        · refine C.reads u a _ ha (Or.inr fun h' => h ⟨h'.1, fun σ hσ => ?_⟩)
          rw [hf] at hσ; cases hσ; exact h'.2
    · intro u a k ha hk
      exact C.reads u a k ha (Or.inl hk)
  | none =>
    obtain ⟨I1, hf, hoth, hrd⟩ := addTag_spec (dtype := dtype) (size := size) I hn P.fresh
    obtain ⟨I2, C⟩ := key _ newId _ I1 hf (fun t _ _ h => by cases h)
    obtain ⟨τ', hf', q1, q2, q3, q4, q5⟩ := C.tag _ hf
    refine ⟨_, newId, ?_, I2, C.modified, slot_ty C.ty, ?_, fun τ h => by simp at h, fun _ => rfl,
      ?_, ?_⟩
    · unfold createTag
      simp only [hn]
      rfl
    · intro k hk; rw [C.others k hk, hoth k hk]
    · refine ⟨τ', hf', q1, q2, fun _ => q3, fun τ h => by simp at h, fun u hu => ⟨(q4 u ⟨hu, rfl⟩).1, fun _ => (q4 u ⟨hu, rfl⟩).2⟩, ?_⟩
      intro u a ha
      refine ⟨fun h => ?_, fun h => ?_⟩
      · rw [q2, q3]; exact C.fresh u a _ hf ha ⟨h.1, rfl⟩
      · have hmu : ¬ mask u = true := fun hm => h ⟨hm, fun σ hσ => by rw [P.fresh] at hσ; cases hσ⟩
        rw [C.reads u a newId ha (Or.inr fun h' => hmu h'.1)]
        unfold readAt
        rw [hf, P.fresh]
        rfl
    · intro u a k ha hk
      rw [C.reads u a k ha (Or.inl hk), hrd u a k hk]

/-! ## `DeleteTag` -/

theorem dropSparse_spec {S : TS V} {i : Nat} (hk : ∀ a, ((S.sparse a).map (·.1)).Nodup) :
    ∀ n, (∀ lid, lid < n → ∀ a, S.links lid = some a → a < S.nsparse) →
    ∃ sp, dropSparse S i n = some { S with sparse := sp } ∧
      ∀ a, (sp a).Sublist (S.sparse a) ∧ (∀ k, k ≠ i → getRec k (sp a) = getRec k (S.sparse a)) ∧
        (∀ lid, lid < n → S.links lid = some a → ∀ r ∈ sp a, r.1 ≠ i) := by
  intro n
  induction n with
  | zero => intro _; exact ⟨S.sparse, rfl, fun a => ⟨List.Sublist.refl _, fun _ _ => rfl,
      fun lid h => by omega⟩⟩
  | succ n ih =>
    intro hb
    obtain ⟨sp, e, h⟩ := ih (fun lid hl => hb lid (by omega))
    rw [dropSparse, e]
    simp only
    cases hl : S.links n with
    | none =>
      refine ⟨sp, rfl, fun a => ⟨(h a).1, (h a).2.1, fun lid h1 h2 => ?_⟩⟩
      by_cases e2 : lid = n
      · subst e2; rw [hl] at h2; cases h2
      · exact (h a).2.2 lid (by omega) h2
    | some b =>
      simp only
      rw [if_pos (hb n (by omega) b hl)]
      refine ⟨_, rfl, fun a => ?_⟩
      by_cases e2 : a = b
      · subst e2
        rw [upd_self]
        refine ⟨eraseRec_sub.trans (h a).1, fun k hk' => ?_, fun lid _ _ => ?_⟩
        · rw [getRec_eraseRec_ne hk']; exact (h a).2.1 k hk'
        · exact eraseRec_not_mem (List.Nodup.sublist ((h a).1.map _) (hk a))
      · rw [upd_ne _ _ e2]
        refine ⟨(h a).1, (h a).2.1, fun lid h1 h2 => ?_⟩
        by_cases e3 : lid = n
        · subst e3; rw [hl] at h2; cases h2; exact absurd rfl e2
        · exact (h a).2.2 lid (by omega) h2

/-- What deletion of a tag on some types guarantees. -/
structure Deleted (s s' : Sto V) (i : Nat) (del : ET → Prop) : Prop where
  ty : ∀ u, (s'.ty u).nlinks = (s.ty u).nlinks ∧ (s'.ty u).links = (s.ty u).links
  modified : s'.modified = s.modified
  tag : ∀ τ, findTag s i = some τ → ∃ τ', findTag s' i = some τ' ∧ τ'.name = τ.name ∧
    τ'.dtype = τ.dtype ∧ τ'.size = τ.size ∧ τ'.flag = τ.flag ∧
    (∀ u, del u → τ'.pos u = .undef) ∧ ∀ u, ¬ del u → τ'.pos u = τ.pos u
  others : ∀ k, k ≠ i → findTag s' k = findTag s k
  reads : ∀ u a k, liveS s u a → (k ≠ i ∨ ¬ del u) → readAt s' u a k = readAt s u a k

theorem Deleted.refl (s : Sto V) (i : Nat) : Deleted s s i (fun _ => False) :=
  ⟨fun _ => ⟨rfl, rfl⟩, rfl,
    fun τ h => ⟨τ, h, rfl, rfl, rfl, rfl, fun _ h => h.elim, fun _ _ => rfl⟩,
    fun _ _ => rfl, fun _ _ _ _ _ => rfl⟩

theorem deleteOn_spec {s : Sto V} (I : Inv zero s) {i : Nat} {t : ET} {τ : TagRec}
    (hf : findTag s i = some τ) :
    ∃ s', deleteOn zero s i t = some s' ∧ Inv zero s' ∧ Deleted s s' i (fun u => u = t) := by
  obtain ⟨hm, hi⟩ := find_mem hf
  have D := I.D
  by_cases hu : τ.pos t = .undef
  · refine ⟨s, ?_, I, fun _ => ⟨rfl, rfl⟩, rfl, ?_, fun _ _ => rfl, fun _ _ _ _ _ => rfl⟩
    · unfold deleteOn; rw [hf]; simp only; rw [if_pos hu]
    · intro τ' h'; rw [hf] at h'; cases h'
      exact ⟨τ, hf, rfl, rfl, rfl, rfl, fun u h => by rw [h]; exact hu, fun _ _ => rfl⟩
  have hdef : τ.defined t = true := by unfold TagRec.defined; simpa using hu
  let F : TagRec → TagRec := fun σ => { σ with pos := upd σ.pos t .undef }
  have hFpos : ∀ σ u, u ≠ t → (F σ).pos u = σ.pos u := fun σ u h => upd_ne _ _ h
  have hFt : ∀ σ, (F σ).pos t = .undef := fun σ => upd_self _ _ _
  have hFcol : ∀ u p, (F τ).colOf u = some p ↔ (u ≠ t ∧ τ.colOf u = some p) := by
    intro u p
    by_cases h : u = t
    · subst h; rw [colOf_some, hFt]; simp
    · rw [colOf_some, colOf_some, hFpos τ u h]; simp [h, F]
  have hmem : ∀ σ, σ ∈ mapTag i F s.tags ↔ σ = F τ ∨ (σ ∈ s.tags ∧ σ.id ≠ i) := by
    intro σ
    rw [mem_mapTag]
    constructor
    · rintro (⟨ρ, h1, h2, rfl⟩ | h)
      · rw [mem_unique D hf h1 h2]; exact Or.inl rfl
      · exact Or.inr h
    · rintro (rfl | h)
      · exact Or.inl ⟨τ, hm, hi, rfl⟩
      · exact Or.inr h
  have hfind : ∀ k, (mapTag i F s.tags).find? (fun σ => σ.id = k) =
      if k = i then (findTag s k).map F else findTag s k :=
    fun k => find_mapTag (F := F) (fun _ => rfl) _ k
  have hFdef : ∀ u, (F τ).defined u = true → u ≠ t ∧ τ.defined u = true := by
    intro u h
    unfold TagRec.defined at *
    by_cases h2 : u = t
    · subst h2; rw [hFt] at h; simp at h
    · rw [hFpos τ u h2] at h; exact ⟨h2, h⟩
  -- the tag part of the invariant, common to both branches
  have hflagged : ∀ σ ∈ mapTag i F s.tags, ∀ u, σ.flag u = true → σ.pos u = .undef ∨ σ.pos u = .sparse := by
    intro σ hσ u hfl
    rcases (hmem σ).1 hσ with rfl | ⟨h, _⟩
    · by_cases h : u = t
      · subst h; exact Or.inl (hFt τ)
      · rw [hFpos τ u h]; exact D.flagged τ hm u hfl
    · exact D.flagged σ h u hfl
  have hunfl : ∀ σ ∈ mapTag i F s.tags, ∀ u, σ.flag u = false → σ.pos u ≠ .sparse := by
    intro σ hσ u hfl
    rcases (hmem σ).1 hσ with rfl | ⟨h, _⟩
    · by_cases h : u = t
      · subst h; rw [hFt]; simp
      · rw [hFpos τ u h]; exact D.unflagged τ hm u hfl
    · exact D.unflagged σ h u hfl
  have hcols : ∀ σ ∈ mapTag i F s.tags, ∀ u p, σ.colOf u = some p →
      ∃ ρ ∈ s.tags, ρ.colOf u = some p ∧ ρ.dtype = σ.dtype ∧ ρ.size = σ.size ∧
        ρ.id = σ.id ∧ (ρ.id = i → u ≠ t) := by
    intro σ hσ u p hp
    rcases (hmem σ).1 hσ with rfl | ⟨h, h'⟩
    · obtain ⟨h1, h2⟩ := (hFcol u p).1 hp
      exact ⟨τ, hm, h2, rfl, rfl, rfl, fun _ => h1⟩
    · exact ⟨σ, h, hp, rfl, rfl, rfl, fun e => absurd e h'⟩
  have hids : ((mapTag i F s.tags).map (·.id)).Nodup := by
    rw [mapTag_map (·.id) (F := F) (fun _ => rfl)]; exact D.ids
  have hnames : ((mapTag i F s.tags).map (·.name)).Nodup := by
    rw [mapTag_map (·.name) (F := F) (fun _ => rfl)]; exact D.names
  have hdist : ∀ σ ∈ mapTag i F s.tags, ∀ ρ ∈ mapTag i F s.tags, ∀ u w p,
      σ.colOf u = some p → ρ.colOf w = some p → σ = ρ ∧ u = w := by
    intro σ hσ ρ hρ u w p h1 h2
    obtain ⟨σ0, a1, a2, -, -, a3, -⟩ := hcols σ hσ u p h1
    obtain ⟨ρ0, b1, b2, -, -, b3, -⟩ := hcols ρ hρ w p h2
    obtain ⟨h3, h4⟩ := D.dist σ0 a1 ρ0 b1 u w p a2 b2
    refine ⟨?_, h4⟩
    have e : σ.id = ρ.id := by rw [← a3, ← b3, h3]
    have f1 := find_of_mem_nodup (f := (·.id)) hids hσ
    have f2 := find_of_mem_nodup (f := (·.id)) hids hρ
    rw [e, f2] at f1
    cases f1; rfl
  have hneed : ∀ σ ∈ mapTag i F s.tags, ∀ u, σ.defined u = true → σ.flag u = true →
      (s.ty u).nsparse = (s.ty u).nback := by
    intro σ hσ u hd hfl
    rcases (hmem σ).1 hσ with rfl | ⟨h, _⟩
    · exact D.spNeed τ hm u (hFdef u hd).2 hfl
    · exact D.spNeed σ h u hd hfl
  have hkeep : ∀ σ ∈ s.tags, ∀ u, σ.defined u = true → σ.flag u = true → (σ.id ≠ i ∨ u ≠ t) →
      ∃ ρ ∈ mapTag i F s.tags, ρ.id = σ.id ∧ ρ.defined u = true ∧ ρ.flag u = true := by
    intro σ h2 u h4 h5 hne
    by_cases h : σ.id = i
    · have := mem_unique D hf h2 h
      subst this
      have hut : u ≠ t := hne.resolve_left (fun h' => h' h)
      refine ⟨F σ, (hmem _).2 (Or.inl rfl), rfl, ?_, h5⟩
      unfold TagRec.defined at *; rw [hFpos σ u hut]; exact h4
    · exact ⟨σ, (hmem _).2 (Or.inr ⟨h2, h⟩), rfl, h4, h5⟩
  have htag : ∀ s' : Sto V, s'.tags = mapTag i F s.tags → ∀ τ1, findTag s i = some τ1 →
      ∃ τ', findTag s' i = some τ' ∧ τ'.name = τ1.name ∧
      τ'.dtype = τ1.dtype ∧ τ'.size = τ1.size ∧ τ'.flag = τ1.flag ∧
      (∀ u, u = t → τ'.pos u = .undef) ∧ ∀ u, ¬ u = t → τ'.pos u = τ1.pos u := by
    intro s' hs' τ1 h1
    rw [hf] at h1; cases h1
    refine ⟨F τ, ?_, rfl, rfl, rfl, rfl, fun u h => by rw [h]; exact hFt τ, fun u h => hFpos τ u h⟩
    unfold findTag; rw [hs', hfind, if_pos rfl, hf]; rfl
  have hoth : ∀ s' : Sto V, s'.tags = mapTag i F s.tags → ∀ k, k ≠ i →
      findTag s' k = findTag s k := by
    intro s' hs' k hk
    unfold findTag; rw [hs', hfind, if_neg hk]; rfl
  by_cases hfl : τ.flag t = true
  · -- sparse branch
    have hns := D.spNeed τ hm t hdef hfl
    obtain ⟨sp, he, hsp⟩ := dropSparse_spec (S := s.ty t) (i := i) (D.spKeys t) (s.ty t).nlinks
      (fun lid hl a ha => by
        have := D.bound t a ⟨lid, slot_some.2 ⟨hl, ha⟩⟩; omega)
    let S' : TS V := { s.ty t with sparse := sp }
    let s' : Sto V := { s with ty := upd s.ty t S', tags := mapTag i F s.tags }
    have hs't : s'.ty t = S' := upd_self _ _ _
    have hs'ne : ∀ u, u ≠ t → s'.ty u = s.ty u := fun u h => upd_ne _ _ h
    have h5 : ∀ u, (s'.ty u).nlinks = (s.ty u).nlinks ∧ (s'.ty u).links = (s.ty u).links ∧
        (s'.ty u).nback = (s.ty u).nback ∧ (s'.ty u).nsparse = (s.ty u).nsparse := by
      intro u
      by_cases e : u = t
      · subst e; rw [hs't]; exact ⟨rfl, rfl, rfl, rfl⟩
      · rw [hs'ne u e]; exact ⟨rfl, rfl, rfl, rfl⟩
    have hl : liveS s' = liveS s := liveS_ty fun u => ⟨(h5 u).1, (h5 u).2.1⟩
    refine ⟨s', ?_, ⟨?_, ?_⟩, fun u => ⟨(h5 u).1, (h5 u).2.1⟩, rfl, htag s' rfl, hoth s' rfl, ?_⟩
    · unfold deleteOn
      rw [hf]
      simp only
      rw [if_neg hu, if_pos hfl, he]
      rfl
    · intro u
      by_cases e : u = t
      · subst e
        rw [hs't]
        have L := I.L u
        exact ⟨L.l1, L.l2, L.s1, L.s2, L.b1, L.b2, L.cap, L.mesh⟩
      · rw [hs'ne u e]; exact I.L u
    · rw [hl]
      refine ⟨hids, hnames, hflagged, hunfl, ?_, ?_, ?_, hdist, D.ed, ?_, ?_, ?_, ?_, ?_⟩
      · intro σ hσ u p hp
        obtain ⟨ρ, h1, h2, -⟩ := hcols σ hσ u p hp
        exact D.colLt ρ h1 u p h2
      · intro σ hσ u p hp
        obtain ⟨ρ, h1, h2, -⟩ := hcols σ hσ u p hp
        rw [(h5 u).2.2.1]
        exact D.colSize ρ h1 u p h2
      · intro σ hσ u p hp a ha
        obtain ⟨ρ, h1, h2, h3, h4, -⟩ := hcols σ hσ u p hp
        rw [← h3, ← h4]
        exact D.colZero ρ h1 u p h2 a ha
      · intro u; rw [(h5 u).2.2.1, (h5 u).2.2.2]; exact D.sp u
      · intro σ hσ u; rw [(h5 u).2.2.1, (h5 u).2.2.2]; exact hneed σ hσ u
      · intro u a r hr
        by_cases e : u = t
        · subst e
          rw [hs't] at hr
          have hr' := (hsp a).1.subset hr
          obtain ⟨h1, σ, h2, h3, h4, h6⟩ := D.spTag u a r hr'
          refine ⟨h1, ?_⟩
          obtain ⟨lid, hlid⟩ := h1
          obtain ⟨g1, g2⟩ := slot_some.1 hlid
          have hne := (hsp a).2.2 lid g1 g2 r hr
          obtain ⟨ρ, k1, k2, k3⟩ := hkeep σ h2 u h4 h6 (Or.inl (by rw [h3]; exact hne))
          exact ⟨ρ, k1, k2.trans h3, k3⟩
        · rw [hs'ne u e] at hr
          obtain ⟨h1, σ, h2, h3, h4, h6⟩ := D.spTag u a r hr
          obtain ⟨ρ, k1, k2, k3⟩ := hkeep σ h2 u h4 h6 (Or.inr e)
          exact ⟨h1, ρ, k1, k2.trans h3, k3⟩
      · intro u a
        by_cases e : u = t
        · subst e; rw [hs't]; exact List.Nodup.sublist ((hsp a).1.map _) (D.spKeys u a)
        · rw [hs'ne u e]; exact D.spKeys u a
      · intro u a ha; rw [(h5 u).2.2.1]; exact D.bound u a ha
    · intro u a k hla hk
      unfold readAt
      by_cases hki : k = i
      · subst hki
        have hut : u ≠ t := hk.resolve_left (fun h => h rfl)
        rw [show findTag s' k = (findTag s k).map F by
          have := hfind k; rw [if_pos rfl] at this; exact this, hf, hs'ne u hut]
        simp only [Option.map_some]
        have hdd : (F τ).defined u = τ.defined u := by
          unfold TagRec.defined; rw [hFpos τ u hut]
        rw [hdd, hFpos τ u hut]
      · rw [hoth s' rfl k hki]
        cases findTag s k with
        | none => rfl
        | some σ =>
          simp only
          by_cases e : u = t
          · subst e
            rw [hs't]
            show (if σ.defined u then if σ.flag u then if a < (s.ty u).nsparse then
              some (getRec k (sp a)) else none else _ else none) = _
            rw [(hsp a).2.1 k hki]
          · rw [hs'ne u e]
  · -- dense branch
    have hfl : τ.flag t = false := by simpa using hfl
    obtain ⟨P, hP⟩ := I.col hm hdef hfl
    have hPn := (D.colLt τ hm t P hP).1
    let s' : Sto V := { s with
      dense := upd s.dense P ⟨0, fun _ => zero τ.dtype τ.size⟩
      emptyDense := P :: s.emptyDense
      tags := mapTag i F s.tags }
    have hdne : ∀ q, q ≠ P → s'.dense q = s.dense q := fun q hq => upd_ne _ _ hq
    have hcne : ∀ ρ ∈ s.tags, ∀ u p, ρ.colOf u = some p → (ρ.id = i → u ≠ t) → p ≠ P := by
      rintro ρ hρ u p hp hne rfl
      obtain ⟨rfl, rfl⟩ := D.dist ρ hρ τ hm u t p hp hP
      exact hne hi rfl
    refine ⟨s', ?_, ⟨I.L, ?_⟩, fun u => ⟨rfl, rfl⟩, rfl, htag s' rfl, hoth s' rfl, ?_⟩
    · unfold deleteOn
      rw [hf]
      simp only
      rw [if_neg hu, (colOf_some.1 hP).2]
      simp only [hfl, hPn]
      rfl
    · refine ⟨hids, hnames, hflagged, hunfl, ?_, ?_, ?_, hdist, ?_, D.sp, hneed, ?_, D.spKeys, D.bound⟩
      · intro σ hσ u p hp
        obtain ⟨ρ, h1, h2, -, -, -, h3⟩ := hcols σ hσ u p hp
        obtain ⟨h4, h6⟩ := D.colLt ρ h1 u p h2
        refine ⟨h4, fun h => ?_⟩
        rcases List.mem_cons.1 h with h | h
        · exact hcne ρ h1 u p h2 h3 h
        · exact h6 h
      · intro σ hσ u p hp
        obtain ⟨ρ, h1, h2, -, -, -, h3⟩ := hcols σ hσ u p hp
        rw [hdne p (hcne ρ h1 u p h2 h3)]
        exact D.colSize ρ h1 u p h2
      · intro σ hσ u p hp a ha
        obtain ⟨ρ, h1, h2, h3, h4, -, h6⟩ := hcols σ hσ u p hp
        rw [hdne p (hcne ρ h1 u p h2 h6), ← h3, ← h4]
        exact D.colZero ρ h1 u p h2 a ha
      · refine ⟨List.nodup_cons.2 ⟨(D.colLt τ hm t P hP).2, D.ed.1⟩, ?_⟩
        intro p hp
        rcases List.mem_cons.1 hp with rfl | hp
        · exact hPn
        · exact D.ed.2 p hp
      · intro u a r hr
        obtain ⟨h1, σ, h2, h3, h4, h6⟩ := D.spTag u a r hr
        obtain ⟨ρ, k1, k2, k3⟩ := hkeep σ h2 u h4 h6 (by
          by_cases e : u = t
          · subst e
            left
            intro e2
            have := mem_unique D hf h2 e2
            rw [this, hfl] at h6; cases h6
          · exact Or.inr e)
        exact ⟨h1, ρ, k1, k2.trans h3, k3⟩
    · intro u a k hla hk
      have hcell : ∀ σ ∈ s.tags, ∀ p, σ.colOf u = some p → (σ.id = i → u ≠ t) →
          s'.dense p = s.dense p := fun σ hσ p hp hne => hdne p (hcne σ hσ u p hp hne)
      unfold readAt
      by_cases hki : k = i
      · subst hki
        have hut : u ≠ t := hk.resolve_left (fun h => h rfl)
        rw [show findTag s' k = (findTag s k).map F by
          have := hfind k; rw [if_pos rfl] at this; exact this, hf]
        simp only [Option.map_some]
        have hdd : (F τ).defined u = τ.defined u := by
          unfold TagRec.defined; rw [hFpos τ u hut]
        rw [hdd, hFpos τ u hut]
        by_cases hfl : τ.flag u = true
        · simp only [hfl, if_true, F]; rfl
        · cases hp : τ.pos u with
          | undef => rfl
          | sparse => rfl
          | col p =>
            simp only [F, hfl]
            rw [hcell τ hm p (colOf_some.2 ⟨by simpa using hfl, hp⟩) (fun _ => hut)]
      · rw [hoth s' rfl k hki]
        cases hσ : findTag s k with
        | none => rfl
        | some σ =>
          obtain ⟨g1, g2⟩ := find_mem hσ
          simp only
          by_cases hfl : σ.flag u = true
          · simp only [hfl, if_true]; rfl
          · cases hp : σ.pos u with
            | undef => rfl
            | sparse => rfl
            | col p =>
              simp only [hfl]
              rw [hcell σ g1 p (colOf_some.2 ⟨by simpa using hfl, hp⟩)
                (fun e => absurd (g2.symm.trans e) hki)]

theorem deleteOnAll_spec {i : Nat} (mask : ET → Bool) (ts : List ET) :
    ∀ (s : Sto V) (τ : TagRec), Inv zero s → findTag s i = some τ →
    ∃ s', deleteOnAll zero s i mask ts = some s' ∧ Inv zero s' ∧
      Deleted s s' i (fun u => u ∈ ts ∧ mask u = true) := by
  induction ts with
  | nil =>
    intro s τ I hf
    refine ⟨s, rfl, I, ?_⟩
    have : (fun u : ET => u ∈ ([] : List ET) ∧ mask u = true) = fun _ => False := by
      funext u; simp
    rw [this]; exact Deleted.refl s i
  | cons t ts ih =>
    intro s τ I hf
    by_cases hm : mask t = true
    · obtain ⟨s1, e1, I1, C1⟩ := deleteOn_spec (t := t) I hf
      obtain ⟨τ1, hf1, n1, d1, z1, f1, p1, q1⟩ := C1.tag τ hf
      obtain ⟨s2, e2, I2, C2⟩ := ih s1 τ1 I1 hf1
      refine ⟨s2, ?_, I2, ?_⟩
      · rw [deleteOnAll, if_pos hm, e1]; exact e2
      · have hl : liveS s1 = liveS s := liveS_ty C1.ty
        refine ⟨fun u => ⟨(C2.ty u).1.trans (C1.ty u).1, (C2.ty u).2.trans (C1.ty u).2⟩,
          C2.modified.trans C1.modified, ?_, fun k hk => (C2.others k hk).trans (C1.others k hk), ?_⟩
        · intro τ' h'; rw [hf] at h'; cases h'
          obtain ⟨τ2, hf2, n2, d2, z2, f2, p2, q2⟩ := C2.tag τ1 hf1
          refine ⟨τ2, hf2, n2.trans n1, d2.trans d1, z2.trans z1, f2.trans f1, ?_, ?_⟩
          · rintro u ⟨h1, h2⟩
            by_cases h3 : u ∈ ts
            · exact p2 u ⟨h3, h2⟩
            · rw [q2 u (fun h => h3 h.1)]
              exact p1 u ((List.mem_cons.1 h1).resolve_right h3)
          · intro u h
            rw [q2 u (fun h' => h ⟨by simp [h'.1], h'.2⟩)]
            exact q1 u (fun h' => h ⟨by simp [h'], by rw [h']; exact hm⟩)
        · intro u a k ha hk
          rw [C2.reads u a k (by rw [hl]; exact ha)
            (hk.imp id fun h h' => h ⟨by simp [h'.1], h'.2⟩)]
          exact C1.reads u a k ha (hk.imp id fun h h' => h ⟨by simp [h'], by rw [h']; exact hm⟩)
    · obtain ⟨s2, e2, I2, C2⟩ := ih s τ I hf
      refine ⟨s2, ?_, I2, ?_⟩
      · rw [deleteOnAll, if_neg hm]; exact e2
      · have : (fun u : ET => u ∈ t :: ts ∧ mask u = true) = fun u => u ∈ ts ∧ mask u = true := by
          funext u
          rw [eq_iff_iff, List.mem_cons]
          constructor
          · rintro ⟨rfl | h, h2⟩
            · exact absurd h2 hm
            · exact ⟨h, h2⟩
          · rintro ⟨h, h2⟩; exact ⟨Or.inr h, h2⟩
        rw [this]; exact C2

theorem deleteTag_spec {s : Sto V} (I : Inv zero s) {i : Nat} {mask : ET → Bool} {τ : TagRec}
    (hf : findTag s i = some τ) :
    ∃ s', deleteTag zero s i mask = some s' ∧ Inv zero s' ∧ s'.modified = s.modified ∧
      (∀ u j, slot s' u j = slot s u j) ∧ (∀ k, k ≠ i → findTag s' k = findTag s k) ∧
      (findTag s' i = none ↔ ∀ u, τ.defined u = true → mask u = true) ∧
      (∀ τ', findTag s' i = some τ' → τ'.name = τ.name ∧ τ'.dtype = τ.dtype ∧ τ'.size = τ.size ∧
        ∀ u, τ'.defined u = (τ.defined u && !mask u)) ∧
      (∀ u a k, liveS s u a → (k ≠ i ∨ mask u = false) → readAt s' u a k = readAt s u a k) := by
  obtain ⟨s1, e1, I1, C⟩ := deleteOnAll_spec (zero := zero) (i := i) mask allTypes s τ I hf
  obtain ⟨τ1, hf1, n1, d1, z1, f1, p1, q1⟩ := C.tag τ hf
  have hpos : ∀ u, τ1.defined u = (τ.defined u && !mask u) := by
    intro u
    unfold TagRec.defined
    by_cases hm : mask u = true
    · rw [p1 u ⟨allTypes_mem u, hm⟩, hm]; simp
    · rw [q1 u (fun h => hm h.2)]
      simp [hm]
  have hreads : ∀ u a k, liveS s u a → (k ≠ i ∨ mask u = false) →
      readAt s1 u a k = readAt s u a k := by
    intro u a k ha hk
    exact C.reads u a k ha (hk.imp id fun h h' => by rw [h] at h'; cases h'.2)
  have hall : (allTypes.all fun t => mask t || !τ.defined t) = true ↔
      ∀ u, τ.defined u = true → mask u = true := by
    rw [List.all_eq_true]
    constructor
    · intro h u hu
      have := h u (allTypes_mem u)
      rw [hu] at this; simpa using this
    · intro h u _
      cases hd : τ.defined u with
      | false => simp
      | true => simp [h u hd]
  by_cases ha : (allTypes.all fun t => mask t || !τ.defined t) = true
  swap
  · refine ⟨s1, ?_, I1, C.modified, slot_ty C.ty, C.others, ?_, ?_, hreads⟩
    · unfold deleteTag; rw [hf]; simp only; rw [e1]; simp only; rw [if_neg ha]
    · rw [hf1]
      simp only [reduceCtorEq, false_iff]
      exact fun h => ha (hall.2 h)
    · intro τ' h'; rw [hf1] at h'; cases h'
      exact ⟨n1, d1, z1, hpos⟩
  · let others := s1.tags.filter fun σ => σ.id ≠ i
    let rel : ET → Bool := fun t => mask t && τ.defined t && τ.flag t && !(others.any fun σ => σ.flag t)
    let s' : Sto V := { s1 with
          tags := others
          ty := fun t => if rel t then { s1.ty t with nsparse := 0, sparse := fun _ => [] }
            else s1.ty t }
    have hund : ∀ u, τ1.defined u = false := by
      intro u; rw [hpos]
      cases hd : τ.defined u with
      | false => rfl
      | true => simp [hall.1 ha u hd]
    have hmem : ∀ σ, σ ∈ others ↔ σ ∈ s1.tags ∧ σ.id ≠ i := by
      intro σ; simp [others]
    have hfd : ∀ k, findTag s' k = if k = i then none else findTag s1 k := by
      intro k
      show others.find? _ = _
      by_cases h : k = i
      · rw [if_pos h, List.find?_eq_none]
        intro σ hσ
        simpa [h] using ((hmem σ).1 hσ).2
      · rw [if_neg h]
        show (s1.tags.filter _).find? _ = s1.tags.find? _
        rw [List.find?_filter]
        congr 1
        funext σ
        by_cases hk : σ.id = k
        · simp [hk, h]
        · simp [hk]
    have hty : ∀ u, s'.ty u = if rel u then { s1.ty u with nsparse := 0, sparse := fun _ => [] }
            else s1.ty u := fun u => rfl
    have h5 : ∀ u, (s'.ty u).nlinks = (s1.ty u).nlinks ∧ (s'.ty u).links = (s1.ty u).links ∧
        (s'.ty u).nback = (s1.ty u).nback := by
      intro u; rw [hty]; split <;> exact ⟨rfl, rfl, rfl⟩
    have hl : liveS s' = liveS s1 := liveS_ty fun u => ⟨(h5 u).1, (h5 u).2.1⟩
    have hls : liveS s1 = liveS s := liveS_ty C.ty
    have hrel : ∀ u, rel u = true → ∀ σ ∈ others, σ.flag u = false := by
      intro u hu σ hσ
      simp only [rel, Bool.and_eq_true, Bool.not_eq_true', List.any_eq_false] at hu
      simpa using hu.2 σ hσ
    have hdefo : ∀ σ ∈ s1.tags, ∀ u, σ.defined u = true → σ ∈ others := by
      intro σ hσ u hd
      refine (hmem σ).2 ⟨hσ, fun e => ?_⟩
      have := mem_unique I1.D hf1 hσ e
      rw [this, hund] at hd; cases hd
    have D := I1.D
    refine ⟨s', ?_, ⟨?_, ?_⟩, C.modified, ?_, ?_, ?_, ?_, ?_⟩
    · unfold deleteTag; rw [hf]; simp only; rw [e1]; simp only; rw [if_pos ha]
    · intro u
      have L := I1.L u
      rw [hty]
      split
      · exact ⟨L.l1, L.l2, L.s1, L.s2, L.b1, L.b2, L.cap, L.mesh⟩
      · exact L
    · rw [hl]
      have hsub : ∀ σ ∈ others, σ ∈ s1.tags := fun σ h => ((hmem σ).1 h).1
      refine ⟨?_, ?_, fun σ h => D.flagged σ (hsub σ h), fun σ h => D.unflagged σ (hsub σ h),
        fun σ h => D.colLt σ (hsub σ h), ?_, fun σ h => D.colZero σ (hsub σ h),
        fun σ h ρ h' => D.dist σ (hsub σ h) ρ (hsub ρ h'), D.ed, ?_, ?_, ?_, ?_, ?_⟩
      · exact D.ids.sublist (List.filter_sublist.map _)
      · exact D.names.sublist (List.filter_sublist.map _)
      · intro σ h u p hp; rw [(h5 u).2.2]; exact D.colSize σ (hsub σ h) u p hp
      · intro u
        rw [hty]
        split
        · exact Or.inl rfl
        · exact D.sp u
      · intro σ h u hd hfl
        rw [hty]
        split
        · next hr => rw [hrel u hr σ h] at hfl; cases hfl
        · exact D.spNeed σ (hsub σ h) u hd hfl
      · intro u a r hr
        rw [hty] at hr
        split at hr
        · simp at hr
        · obtain ⟨h1, σ, h2, h3, h4, h6⟩ := D.spTag u a r hr
          exact ⟨h1, σ, hdefo σ h2 u h4, h3, h4, h6⟩
      · intro u a
        rw [hty]
        split
        · exact List.nodup_nil
        · exact D.spKeys u a
      · intro u a h; rw [(h5 u).2.2]; exact D.bound u a h
    · intro u j
      rw [slot_ty (fun u => ⟨(h5 u).1, (h5 u).2.1⟩), slot_ty C.ty]
    · intro k hk; rw [hfd, if_neg hk, C.others k hk]
    · rw [hfd, if_pos rfl]; exact ⟨fun _ => hall.1 ha, fun _ => rfl⟩
    · intro τ' h'; rw [hfd, if_pos rfl] at h'; cases h'
    · intro u a k hla hk
      rw [← hreads u a k hla hk]
      unfold readAt
      rw [hfd]
      by_cases hki : k = i
      · subst hki
        rw [if_pos rfl, hf1]
        simp only [hund]
        rfl
      · rw [if_neg hki]
        cases hσ : findTag s1 k with
        | none => rfl
        | some σ =>
          simp only
          by_cases hd : σ.defined u = true
          · simp only [hd, if_true]
            by_cases hfl : σ.flag u = true
            · simp only [hfl, if_true]
              have e : s'.ty u = s1.ty u := by
                rw [hty, if_neg]
                intro hr
                rw [hrel u hr σ (hdefo σ (find_mem hσ).1 u hd)] at hfl; cases hfl
              rw [e]
            · simp only [hfl]; rfl
          · simp only [hd]; rfl

end Verif.Storage
