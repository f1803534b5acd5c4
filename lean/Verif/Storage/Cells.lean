import Verif.Storage.Reorder

/-! # Writing and deleting data of one tag on one element -/

namespace Verif.Storage

variable {V : Type} {zero : Nat → Option Nat → V}

theorem Inv.slot_inj {s : Sto V} (I : Inv zero s) {t : ET} {i j a : Nat}
    (hi : slot s t i = some a) (hj : slot s t j = some a) : i = j := by
  obtain ⟨h1, h2⟩ := slot_some.1 hi
  obtain ⟨h3, h4⟩ := slot_some.1 hj
  have e1 := ((I.L t).b1 i a h1 h2).2
  have e2 := ((I.L t).b1 j a h3 h4).2
  rw [e1] at e2; cases e2; rfl

theorem getRec_putRec {i : Nat} {v : V} {l : List (Nat × V)} : getRec i (putRec i v l) = some v := by
  induction l with
  | nil => simp [putRec, getRec]
  | cons r rs ih =>
    rw [putRec]
    split
    · simp [getRec]
    · next h => rw [getRec, if_neg h, ih]

theorem getRec_putRec_ne {i k : Nat} {v : V} {l : List (Nat × V)} (h : k ≠ i) :
    getRec k (putRec i v l) = getRec k l := by
  induction l with
  | nil => simp [putRec, getRec, h.symm]
  | cons r rs ih =>
    rw [putRec]
    split
    · next e => rw [getRec, getRec, if_neg h.symm, if_neg (by rw [e]; exact h.symm)]
    · rw [getRec, getRec, ih]

theorem putRec_keys {i : Nat} {v : V} {l : List (Nat × V)} : ∀ r ∈ putRec i v l,
    r.1 = i ∨ ∃ q ∈ l, q.1 = r.1 := by
  induction l with
  | nil => intro r hr; simp only [putRec, List.mem_singleton] at hr; subst hr; exact Or.inl rfl
  | cons x xs ih =>
    intro r hr
    rw [putRec] at hr
    split at hr
    · rcases List.mem_cons.1 hr with rfl | h
      · exact Or.inl rfl
      · exact Or.inr ⟨r, by simp [h], rfl⟩
    · rcases List.mem_cons.1 hr with rfl | h
      · exact Or.inr ⟨r, by simp, rfl⟩
      · rcases ih r h with h | ⟨q, h1, h2⟩
        · exact Or.inl h
        · exact Or.inr ⟨q, by simp [h1], h2⟩

theorem putRec_nodup {i : Nat} {v : V} {l : List (Nat × V)} (h : (l.map (·.1)).Nodup) :
    ((putRec i v l).map (·.1)).Nodup := by
  induction l with
  | nil => simp [putRec]
  | cons x xs ih =>
    simp only [List.map_cons, List.nodup_cons] at h
    rw [putRec]
    split
    · next e =>
      simp only [List.map_cons, List.nodup_cons]
      rw [← e]; exact h
    · next e =>
      simp only [List.map_cons, List.nodup_cons]
      refine ⟨fun hm => ?_, ih h.2⟩
      obtain ⟨r, hr, e2⟩ := List.mem_map.1 hm
      rcases putRec_keys r hr with h1 | ⟨q, h1, h2⟩
      · exact e (by rw [← e2, h1])
      · exact h.1 (List.mem_map.2 ⟨q, h1, by rw [h2, e2]⟩)

theorem getRec_eraseRec_ne {i k : Nat} {l : List (Nat × V)} (h : k ≠ i) :
    getRec k (eraseRec i l) = getRec k l := by
  induction l with
  | nil => rfl
  | cons r rs ih =>
    rw [eraseRec]
    split
    · next e => rw [getRec, if_neg (by rw [e]; exact h.symm)]
    · rw [getRec, getRec, ih]

/-- Reading a sparse tag. -/
theorem readAt_sparse {s : Sto V} {t : ET} {a i : Nat} {τ : TagRec} (hf : findTag s i = some τ)
    (hd : τ.defined t = true) (hs : τ.flag t = true) :
    readAt s t a i = if a < (s.ty t).nsparse then some (getRec i ((s.ty t).sparse a)) else none := by
  unfold readAt
  rw [hf]
  simp [hd, hs]

/-- Reading a dense tag. -/
theorem readAt_dense {s : Sto V} {t : ET} {a i p : Nat} {τ : TagRec} (hf : findTag s i = some τ)
    (hp : τ.colOf t = some p) :
    readAt s t a i = if p < s.ndense ∧ a < (s.dense p).n then some (some ((s.dense p).f a))
      else none := by
  obtain ⟨h1, h2⟩ := colOf_some.1 hp
  unfold readAt
  rw [hf]
  simp [TagRec.defined, h1, h2]

/-- The read frame: changing a sparse record list. -/
theorem sparse_spec {s : Sto V} (I : Inv zero s) {t : ET} {id a i : Nat} {τ : TagRec}
    (hs : slot s t id = some a) (hf : findTag s i = some τ) (hd : τ.defined t = true)
    (hfl : τ.flag t = true) (l : List (Nat × V)) (hl1 : (l.map (·.1)).Nodup)
    (hl2 : ∀ r ∈ l, r.1 = i ∨ ∃ q ∈ (s.ty t).sparse a, q.1 = r.1)
    (hl3 : ∀ k, k ≠ i → getRec k l = getRec k ((s.ty t).sparse a)) :
    let s' : Sto V := { s with ty := upd s.ty t { s.ty t with
            sparse := upd (s.ty t).sparse a l } }
    a < (s.ty t).nsparse ∧ Inv zero s' ∧ (∀ u j, slot s' u j = slot s u j) ∧
      read s' t id i = some (getRec i l) ∧
      ∀ u j k, (u ≠ t ∨ j ≠ id ∨ k ≠ i) → read s' u j k = read s u j k := by
  intro s'
  obtain ⟨hm, hi⟩ := find_mem hf
  have ha : a < (s.ty t).nsparse := by
    rw [I.D.spNeed τ hm t hd hfl]; exact I.D.bound t a ⟨id, hs⟩
  have hs't : s'.ty t = { s.ty t with sparse := upd (s.ty t).sparse a l } := upd_self _ _ _
  have hs'ne : ∀ u, u ≠ t → s'.ty u = s.ty u := fun u hu => upd_ne _ _ hu
  have hslot : ∀ u j, slot s' u j = slot s u j := by
    intro u j
    by_cases e : u = t
    · subst e; unfold slot; rw [hs't]
    · unfold slot; rw [hs'ne u e]
  have hlive : liveS s' = liveS s := by
    funext u b; unfold liveS; simp only [hslot]
  have hsp : ∀ u b, (s'.ty u).sparse b = if u = t ∧ b = a then l else (s.ty u).sparse b := by
    intro u b
    by_cases e : u = t
    · subst e
      rw [hs't]
      show upd (s.ty u).sparse a l b = _
      by_cases e2 : b = a
      · rw [e2, upd_self, if_pos ⟨rfl, rfl⟩]
      · rw [upd_ne _ _ e2, if_neg (fun h => e2 h.2)]
    · rw [hs'ne u e, if_neg (fun h => e h.1)]
  have hn : ∀ u, (s'.ty u).nsparse = (s.ty u).nsparse ∧ (s'.ty u).nback = (s.ty u).nback := by
    intro u
    by_cases e : u = t
    · subst e; rw [hs't]; exact ⟨rfl, rfl⟩
    · rw [hs'ne u e]; exact ⟨rfl, rfl⟩
  have hf' : ∀ k, findTag s' k = findTag s k := fun k => rfl
  have hrd : readAt s' t a i = some (getRec i l) := by
    rw [readAt_sparse (by rw [hf']; exact hf) hd hfl, (hn t).1, if_pos ha, hsp, if_pos ⟨rfl, rfl⟩]
  refine ⟨ha, ⟨?_, ?_⟩, hslot, ?_, ?_⟩
  · intro u
    by_cases e : u = t
    · subst e
      rw [hs't]
      have L := I.L u
      exact ⟨L.l1, L.l2, L.s1, L.s2, L.b1, L.b2, L.cap, L.mesh⟩
    · rw [hs'ne u e]; exact I.L u
  · rw [hlive]
    refine ⟨I.D.ids, I.D.names, I.D.flagged, I.D.unflagged, I.D.colLt, ?_, I.D.colZero, I.D.dist,
      I.D.ed, ?_, ?_, ?_, ?_, ?_⟩
    · intro σ hσ u p hp; rw [(hn u).2]; exact I.D.colSize σ hσ u p hp
    · intro u; rw [(hn u).1, (hn u).2]; exact I.D.sp u
    · intro σ hσ u; rw [(hn u).1, (hn u).2]; exact I.D.spNeed σ hσ u
    · intro u b r hr
      rw [hsp] at hr
      split at hr
      · next e =>
        obtain ⟨rfl, rfl⟩ := e
        refine ⟨⟨id, hs⟩, ?_⟩
        rcases hl2 r hr with h | ⟨q, h1, h2⟩
        · exact ⟨τ, hm, by rw [hi, h], hd, hfl⟩
        · rw [← h2]; exact (I.D.spTag u b q h1).2
      · exact I.D.spTag u b r hr
    · intro u b
      rw [hsp]
      split
      · exact hl1
      · exact I.D.spKeys u b
    · intro u b hb; rw [(hn u).2]; exact I.D.bound u b hb
  · unfold read; rw [hslot, hs]; exact hrd
  · intro u j k hne
    unfold read
    rw [hslot]
    cases hj : slot s u j with
    | none => rfl
    | some b =>
      simp only
      by_cases e : u = t ∧ b = a
      · obtain ⟨rfl, rfl⟩ := e
        have hjid : j = id := I.slot_inj hj hs
        have hk : k ≠ i := by
          rcases hne with h | h | h
          · exact absurd rfl h
          · exact absurd hjid h
          · exact h
        unfold readAt
        rw [hf']
        cases findTag s k with
        | none => rfl
        | some σ =>
          simp only
          rw [(hn u).1, hsp, if_pos (show u = u ∧ b = b from ⟨rfl, rfl⟩), hl3 k hk]
      · apply readAt_congr (s' := s') (s := s) rfl
        · intro σ _ _ _; rw [(hn u).1, hsp, if_neg e]; exact ⟨Iff.rfl, rfl⟩
        · intro σ _ p _; exact ⟨Iff.rfl, Iff.rfl, rfl⟩

/-- Changing a dense record. -/
theorem dense_spec {s : Sto V} (I : Inv zero s) {t : ET} {id a i p : Nat} {τ : TagRec}
    (hs : slot s t id = some a) (hf : findTag s i = some τ) (hp : τ.colOf t = some p) (v : V) :
    let s' : Sto V := { s with dense := upd s.dense p { s.dense p with f := upd (s.dense p).f a v } }
    (p < s.ndense ∧ a < (s.dense p).n) ∧ Inv zero s' ∧ (∀ u j, slot s' u j = slot s u j) ∧
      read s' t id i = some (some v) ∧
      ∀ u j k, (u ≠ t ∨ j ≠ id ∨ k ≠ i) → read s' u j k = read s u j k := by
  intro s'
  obtain ⟨hm, hi⟩ := find_mem hf
  have hpn := (I.D.colLt τ hm t p hp).1
  have ha : a < (s.dense p).n := by
    rw [I.D.colSize τ hm t p hp]; exact I.D.bound t a ⟨id, hs⟩
  have hslot : ∀ u j, slot s' u j = slot s u j := fun _ _ => rfl
  have hcp : s'.dense p = { s.dense p with f := upd (s.dense p).f a v } := upd_self _ _ _
  have hcne : ∀ q, q ≠ p → s'.dense q = s.dense q := fun q hq => upd_ne _ _ hq
  have hn : ∀ q, (s'.dense q).n = (s.dense q).n := by
    intro q
    by_cases e : q = p
    · subst e; rw [hcp]
    · rw [hcne q e]
  refine ⟨⟨hpn, ha⟩, ⟨I.L, ?_⟩, hslot, ?_, ?_⟩
  · refine ⟨I.D.ids, I.D.names, I.D.flagged, I.D.unflagged, I.D.colLt, ?_, ?_, I.D.dist, I.D.ed,
      I.D.sp, I.D.spNeed, I.D.spTag, I.D.spKeys, I.D.bound⟩
    · intro σ hσ u q hq; rw [hn]; exact I.D.colSize σ hσ u q hq
    · intro σ hσ u q hq b hb
      by_cases e : q = p
      · subst e
        obtain ⟨-, rfl⟩ := I.D.dist σ hσ τ hm u t q hq hp
        rw [hcp]
        show upd (s.dense q).f a v b = _
        rw [upd_ne]
        · exact I.D.colZero σ hσ u q hq b hb
        · rintro rfl; exact hb ⟨id, hs⟩
      · rw [hcne q e]; exact I.D.colZero σ hσ u q hq b hb
  · unfold read
    rw [hslot, hs]
    simp only
    rw [readAt_dense (s := s') hf hp, hn, if_pos ⟨hpn, ha⟩, hcp]
    show some (some (upd (s.dense p).f a v a)) = _
    rw [upd_self]
  · intro u j k hne
    unfold read
    rw [hslot]
    cases hj : slot s u j with
    | none => rfl
    | some b =>
      simp only
      by_cases e : u = t ∧ b = a
      · obtain ⟨rfl, rfl⟩ := e
        have hjid : j = id := I.slot_inj hj hs
        have hk : k ≠ i := by
          rcases hne with h | h | h
          · exact absurd rfl h
          · exact absurd hjid h
          · exact h
        unfold readAt
        rw [show findTag s' k = findTag s k from rfl]
        cases hσ : findTag s k with
        | none => rfl
        | some σ =>
          simp only
          by_cases h1 : σ.flag u = true
          · simp [h1]; rfl
          · simp only [h1]
            cases hq : σ.pos u with
            | undef => rfl
            | sparse => rfl
            | col q =>
              simp only
              obtain ⟨hσm, hσi⟩ := find_mem hσ
              have : q ≠ p := by
                rintro rfl
                have := (I.D.dist σ hσm τ hm u u q
                  (colOf_some.2 ⟨by simpa using h1, hq⟩) hp).1
                rw [← hσi, this, hi] at hk
                exact hk rfl
              rw [hcne q this]
      · apply readAt_congr (s' := s') (s := s) rfl
        · intro σ _ _ _; exact ⟨Iff.rfl, rfl⟩
        · intro σ hσ q hq
          refine ⟨Iff.rfl, by rw [hn], ?_⟩
          by_cases eq : q = p
          · subst eq
            obtain ⟨-, rfl⟩ := I.D.dist σ hσ τ hm u t q hq hp
            rw [hcp]
            show upd (s.dense q).f a v b = _
            rw [upd_ne _ _ (fun h => e ⟨rfl, h⟩)]
          · rw [hcne q eq]

/-- A tag that is defined on a type and not flagged sparse has a column. -/
theorem Inv.col {s : Sto V} (I : Inv zero s) {t : ET} {τ : TagRec} (hm : τ ∈ s.tags)
    (hd : τ.defined t = true) (hfl : τ.flag t = false) : ∃ p, τ.colOf t = some p := by
  cases h : τ.pos t with
  | undef => simp [TagRec.defined, h] at hd
  | sparse => exact absurd h (I.D.unflagged τ hm t hfl)
  | col p => exact ⟨p, colOf_some.2 ⟨hfl, h⟩⟩

theorem write_spec {s : Sto V} (I : Inv zero s) {t : ET} {id a i : Nat} {τ : TagRec}
    (hs : slot s t id = some a) (hf : findTag s i = some τ) (hd : τ.defined t = true) (v : V) :
    ∃ s', write s t id i v = some s' ∧ Inv zero s' ∧ s'.tags = s.tags ∧
      s'.modified = s.modified ∧ (∀ u j, slot s' u j = slot s u j) ∧
      read s' t id i = some (some v) ∧
      ∀ u j k, (u ≠ t ∨ j ≠ id ∨ k ≠ i) → read s' u j k = read s u j k := by
  obtain ⟨hm, hi⟩ := find_mem hf
  by_cases hfl : τ.flag t = true
  · obtain ⟨h1, h2, h3, h4, h5⟩ := sparse_spec I hs hf hd hfl (putRec i v ((s.ty t).sparse a))
      (putRec_nodup (I.D.spKeys t a)) putRec_keys (fun k hk => getRec_putRec_ne hk)
    rw [getRec_putRec] at h4
    refine ⟨_, ?_, h2, ?_, ?_, h3, h4, h5⟩
    · unfold write; rw [hs, hf]; simp only [hd, hfl, h1, if_true]
    · rfl
    · rfl
  · have hfl : τ.flag t = false := by simpa using hfl
    obtain ⟨p, hp⟩ := I.col hm hd hfl
    obtain ⟨h1, h2, h3, h4, h5⟩ := dense_spec I hs hf hp v
    refine ⟨_, ?_, h2, ?_, ?_, h3, h4, h5⟩
    · unfold write; rw [hs, hf]; simp [hd, hfl, (colOf_some.1 hp).2, h1]
    · rfl
    · rfl

theorem delData_spec {s : Sto V} (I : Inv zero s) {t : ET} {id a i : Nat} {τ : TagRec}
    (hs : slot s t id = some a) (hf : findTag s i = some τ) (hd : τ.defined t = true) :
    ∃ s', delData zero s t id i = some s' ∧ Inv zero s' ∧ s'.tags = s.tags ∧
      s'.modified = s.modified ∧ (∀ u j, slot s' u j = slot s u j) ∧
      read s' t id i = some (if τ.flag t then none else some (zero τ.dtype τ.size)) ∧
      ∀ u j k, (u ≠ t ∨ j ≠ id ∨ k ≠ i) → read s' u j k = read s u j k := by
  obtain ⟨hm, hi⟩ := find_mem hf
  by_cases hfl : τ.flag t = true
  · obtain ⟨h1, h2, h3, h4, h5⟩ := sparse_spec I hs hf hd hfl (eraseRec i ((s.ty t).sparse a))
      (List.Nodup.sublist (eraseRec_sub.map _) (I.D.spKeys t a))
      (fun r hr => Or.inr ⟨r, eraseRec_sub.subset hr, rfl⟩) (fun k hk => getRec_eraseRec_ne hk)
    rw [getRec_none (eraseRec_not_mem (I.D.spKeys t a))] at h4
    refine ⟨_, ?_, h2, ?_, ?_, h3, by rw [h4, if_pos hfl], h5⟩
    · unfold delData; rw [hs, hf]; simp only [hd, hfl, h1, if_true]
    · rfl
    · rfl
  · have hfl : τ.flag t = false := by simpa using hfl
    obtain ⟨p, hp⟩ := I.col hm hd hfl
    obtain ⟨h1, h2, h3, h4, h5⟩ := dense_spec I hs hf hp (zero τ.dtype τ.size)
    refine ⟨_, ?_, h2, ?_, ?_, h3, by rw [h4, hfl]; rfl, h5⟩
    · unfold delData; rw [hs, hf]; simp [hd, hfl, (colOf_some.1 hp).2, h1, clearCell]
    · rfl
    · rfl

end Verif.Storage
