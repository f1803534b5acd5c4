import Verif.Storage.Links

/-! # Creation and destruction of elements preserve the invariant -/

namespace Verif.Storage

variable {V : Type} {zero : Nat → Option Nat → V}

/-- Slot `a` of type `t` is used by some element. -/
def liveS (s : Sto V) (t : ET) (a : Nat) : Prop := ∃ id, slot s t id = some a

/-- The full invariant. -/
structure Inv (zero : Nat → Option Nat → V) (s : Sto V) : Prop where
  L : ∀ t, LInv t (s.ty t)
  D : DInv zero s (liveS s)

theorem slot_some {s : Sto V} {t : ET} {id a : Nat} :
    slot s t id = some a ↔ id < (s.ty t).nlinks ∧ (s.ty t).links id = some a := by
  unfold slot
  split <;> simp [*]

theorem slot_none {s : Sto V} {t : ET} {id : Nat} :
    slot s t id = none ↔ ¬ (id < (s.ty t).nlinks ∧ (s.ty t).links id ≠ none) := by
  unfold slot
  split <;> simp [*]

/-- The data invariant depends only on part of the state. -/
theorem dinv_congr {s s' : Sto V} {live live' : ET → Nat → Prop} (I : DInv zero s live)
    (h1 : s'.tags = s.tags) (h2 : s'.ndense = s.ndense) (h3 : s'.dense = s.dense)
    (h4 : s'.emptyDense = s.emptyDense)
    (h5 : ∀ t, (s'.ty t).nback = (s.ty t).nback ∧ (s'.ty t).nsparse = (s.ty t).nsparse ∧
      (s'.ty t).sparse = (s.ty t).sparse)
    (hl : ∀ t a, live t a → live' t a) (hb : ∀ t a, live' t a → a < (s.ty t).nback) :
    DInv zero s' live' := by
  refine ⟨by rw [h1]; exact I.ids, by rw [h1]; exact I.names, by rw [h1]; exact I.flagged,
    by rw [h1]; exact I.unflagged, by rw [h1, h2, h4]; exact I.colLt, ?_, ?_,
    by rw [h1]; exact I.dist, by rw [h4, h2]; exact I.ed, ?_, ?_, ?_, ?_, ?_⟩
  · rw [h1, h3]; intro τ hτ t p hp; rw [(h5 t).1]; exact I.colSize τ hτ t p hp
  · rw [h1, h3]; intro τ hτ t p hp a ha
    exact I.colZero τ hτ t p hp a (fun h => ha (hl t a h))
  · intro t; rw [(h5 t).1, (h5 t).2.1]; exact I.sp t
  · rw [h1]; intro τ hτ t; rw [(h5 t).1, (h5 t).2.1]; exact I.spNeed τ hτ t
  · rw [h1]; intro t a r hr; rw [(h5 t).2.2] at hr
    obtain ⟨h, h'⟩ := I.spTag t a r hr
    exact ⟨hl t a h, h'⟩
  · intro t a; rw [(h5 t).2.2]; exact I.spKeys t a
  · intro t a ha; rw [(h5 t).1]; exact hb t a ha

theorem readAt_ty {s s' : Sto V} (h1 : s'.tags = s.tags) (h2 : s'.ndense = s.ndense)
    (h3 : s'.dense = s.dense)
    (h5 : ∀ t, (s'.ty t).nsparse = (s.ty t).nsparse ∧ (s'.ty t).sparse = (s.ty t).sparse)
    (t : ET) (a i : Nat) : readAt s' t a i = readAt s t a i := by
  apply readAt_congr h1
  · intro τ _ _ _; rw [(h5 t).1, (h5 t).2]; exact ⟨Iff.rfl, rfl⟩
  · intro τ _ p _; rw [h2, h3]; exact ⟨Iff.rfl, Iff.rfl, rfl⟩

theorem pickAddr_spec (S : TS V) (m : Bool) :
    (S.emptySpace = (pickAddr S m).1 :: (pickAddr S m).2.emptySpace ∨
      ((pickAddr S m).1 = S.occupied ∧ (pickAddr S m).2.emptySpace = S.emptySpace)) ∧
    (pickAddr S m).2.emptyLinks = S.emptyLinks ∧ (pickAddr S m).2.nlinks = S.nlinks ∧
    (pickAddr S m).2.links = S.links ∧ (pickAddr S m).2.nback = S.nback ∧
    (pickAddr S m).2.back = S.back ∧ (pickAddr S m).2.nsparse = S.nsparse ∧
    (pickAddr S m).2.sparse = S.sparse := by
  unfold pickAddr
  split
  · next h => exact ⟨Or.inl h, rfl, rfl, rfl, rfl, rfl, rfl, rfl⟩
  · exact ⟨Or.inr ⟨rfl, rfl⟩, rfl, rfl, rfl, rfl, rfl, rfl, rfl⟩

theorem pickId_spec (S : TS V) (a : Nat) :
    ((S.emptyLinks = (pickId S a).1 :: (pickId S a).2.emptyLinks ∧
        (pickId S a).2.nlinks = S.nlinks) ∨
      (S.emptyLinks = [] ∧ (pickId S a).2.emptyLinks = [] ∧ (pickId S a).1 = S.nlinks ∧
        (pickId S a).2.nlinks = S.nlinks + 1)) ∧
    (pickId S a).2.links = upd S.links (pickId S a).1 (some a) ∧
    (pickId S a).2.emptySpace = S.emptySpace ∧ (pickId S a).2.nback = S.nback ∧
    (pickId S a).2.back = S.back ∧ (pickId S a).2.nsparse = S.nsparse ∧
    (pickId S a).2.sparse = S.sparse := by
  unfold pickId
  split
  · next h => exact ⟨Or.inl ⟨h, rfl⟩, rfl, rfl, rfl, rfl, rfl, rfl⟩
  · next h => exact ⟨Or.inr ⟨h, h, rfl, rfl⟩, rfl, rfl, rfl, rfl, rfl, rfl⟩

/-- Value of a record that was never written: fresh for dense data, absent for sparse data. -/
def freshVal (zero : Nat → Option Nat → V) (s : Sto V) (t : ET) (i : Nat) : Option (Option V) :=
  match findTag s i with
  | none => none
  | some τ => if τ.defined t then
      if τ.flag t then some none else some (some (zero τ.dtype τ.size))
    else none

theorem getRec_none {i : Nat} {l : List (Nat × V)} (h : ∀ r ∈ l, r.1 ≠ i) : getRec i l = none := by
  induction l with
  | nil => rfl
  | cons r rs ih =>
    rw [getRec, if_neg (h r (by simp))]
    exact ih (fun x hx => h x (by simp [hx]))

/-- Records in an unused slot are fresh. -/
theorem readAt_fresh {s : Sto V} {live} (I : DInv zero s live) {t : ET} {a : Nat}
    (hl : ¬ live t a) (ha : a < (s.ty t).nback) (i : Nat) :
    readAt s t a i = freshVal zero s t i := by
  unfold readAt freshVal
  cases h : findTag s i with
  | none => rfl
  | some τ =>
    have hm := (find_mem h).1
    simp only
    by_cases hd : τ.defined t = true
    · simp only [hd, if_true]
      by_cases hf : τ.flag t = true
      · simp only [hf, if_true]
        have := I.spNeed τ hm t hd hf
        rw [if_pos (by omega)]
        rw [getRec_none]
        intro r hr
        exact absurd (I.spTag t a r hr).1 hl
      · simp only [hf]
        cases hp : τ.pos t with
        | undef => simp [TagRec.defined, hp] at hd
        | sparse => exact absurd hp (I.unflagged τ hm t (by simpa using hf))
        | col p =>
          have hc : τ.colOf t = some p := colOf_some.2 ⟨by simpa using hf, hp⟩
          have h1 := (I.colLt τ hm t p hc).1
          have h2 := I.colSize τ hm t p hc
          have h3 := I.colZero τ hm t p hc a hl
          have h4 : a < (s.dense p).n := by omega
          simp [h1, h3, h4]
    · simp only [hd]; rfl

theorem tie_spec {s : Sto V} (I : Inv zero s) {t : ET} (ht : t ≠ 5) :
    ∃ s' id, tie zero s t = some (s', id) ∧ Inv zero s' ∧ s'.tags = s.tags ∧
      s'.modified = s.modified ∧
      slot s t id = none ∧ (∃ a, slot s' t id = some a ∧ ¬ liveS s t a) ∧
      (∀ u j, (u ≠ t ∨ j ≠ id) → slot s' u j = slot s u j) ∧
      (∀ u a, liveS s u a → ∀ i, readAt s' u a i = readAt s u a i) ∧
      (∀ i, read s' t id i = freshVal zero s t i) := by
  have L := I.L t
  obtain ⟨ha1, ha2, ha3, ha4, ha5, ha6, ha7, ha8⟩ := pickAddr_spec (s.ty t) s.modified
  generalize hA : pickAddr (s.ty t) s.modified = A at *
  obtain ⟨hi1, hi2, hi3, hi4, hi5, hi6, hi7⟩ := pickId_spec A.2 A.1
  generalize hI : pickId A.2 A.1 = J at *
  rw [ha2, ha3] at hi1
  rw [ha4] at hi2
  rw [ha5] at hi4
  rw [ha6] at hi5
  rw [ha7] at hi6
  rw [ha8] at hi7
  rw [← hi3] at ha1
  let s1 : Sto V := { s with ty := upd s.ty t J.2 }
  have hs1t : s1.ty t = J.2 := upd_self _ _ _
  have hs1ne : ∀ u, u ≠ t → s1.ty u = s.ty u := fun u hu => upd_ne _ _ hu
  let s2 : Sto V := if J.2.capacity ≠ (s.ty t).capacity then reallocate zero s1 t J.2.capacity
    else s1
  have hs2 : s2 = if J.2.capacity ≠ (s.ty t).capacity then reallocate zero s1 t J.2.capacity
    else s1 := rfl
  -- data invariant for s1
  have h5 : ∀ u, (s1.ty u).nback = (s.ty u).nback ∧ (s1.ty u).nsparse = (s.ty u).nsparse ∧
      (s1.ty u).sparse = (s.ty u).sparse := by
    intro u
    by_cases e : u = t
    · subst e; rw [hs1t]; exact ⟨hi4, hi6, hi7⟩
    · rw [hs1ne u e]; exact ⟨rfl, rfl, rfl⟩
  have D1 : DInv zero s1 (liveS s) :=
    dinv_congr I.D rfl rfl rfl rfl h5 (fun _ _ h => h) I.D.bound
  have r1 : ∀ u a i, readAt s1 u a i = readAt s u a i :=
    fun u a i => readAt_ty (s' := s1) (s := s) rfl rfl rfl (fun u => (h5 u).2) u a i
  -- facts on s2
  have hcap2 : clampSize t J.2.capacity ≥ (s.ty t).occupied := by
    have hle := L.elen
    have h1 : (s.ty t).occupied ≤ J.2.occupied := by
      unfold TS.occupied
      rcases hi1 with ⟨h1, h2⟩ | ⟨h1, h2, h3, h4⟩
      · rw [h1] at hle ⊢
        simp only [List.length_cons] at hle ⊢
        rcases ha1 with h | ⟨_, h⟩
        · rw [h]; simp only [List.length_cons]; omega
        · rw [h]; omega
      · rw [h1, h2]
        simp only [List.length_nil]
        rcases ha1 with h | ⟨_, h⟩
        · rw [h]; simp only [List.length_cons]; omega
        · rw [h]; omega
    have := le_clamp t J.2.capacity (fun h => absurd h ht)
    have := le_physical J.2.occupied
    unfold TS.capacity at *
    omega
  have hlivelt : ∀ a, liveS s t a → a < (s.ty t).occupied := by
    rintro a ⟨id, h⟩
    obtain ⟨h1, h2⟩ := slot_some.1 h
    exact (L.b1 id a h1 h2).1
  have D2 : DInv zero s2 (liveS s) ∧
      ∀ u a i, liveS s u a → readAt s2 u a i = readAt s u a i := by
    rw [hs2]
    split
    · obtain ⟨d, r⟩ := dinv_reallocate D1 t J.2.capacity
        (fun a h => by have := hlivelt a h; omega)
      exact ⟨d, fun u a i h => by rw [r u a i h, r1]⟩
    · exact ⟨D1, fun u a i _ => r1 u a i⟩
  have hty2 : (s2.ty t).nlinks = J.2.nlinks ∧ (s2.ty t).links = J.2.links ∧
      (s2.ty t).emptySpace = J.2.emptySpace ∧ (s2.ty t).emptyLinks = J.2.emptyLinks ∧
      (s2.ty t).nback = clampSize t J.2.capacity ∧
      ∀ k, k < (s2.ty t).nback → (s2.ty t).back k =
        if k < (s.ty t).nback then (s.ty t).back k else none := by
    rw [hs2]
    split
    · obtain ⟨g1, g2, g3, g4, g5, g6⟩ := reallocate_ty (zero := zero) s1 t J.2.capacity
      rw [hs1t] at g1 g2 g3 g4 g6
      refine ⟨g1, g2, g3, g4, g5, fun k _ => ?_⟩
      rw [g6, hi4, hi5]
    · next h =>
      rw [hs1t]
      have hc : J.2.capacity = (s.ty t).capacity := by simpa using h
      refine ⟨rfl, rfl, rfl, rfl, ?_, fun k hk => ?_⟩
      · rw [hi4, hc]; exact L.cap
      · rw [hi4] at hk; rw [hi5, if_pos hk]
  have htyne : ∀ u, u ≠ t → s2.ty u = s.ty u := by
    intro u hu
    rw [hs2]
    split
    · rw [reallocate_ty_ne _ _ hu, hs1ne u hu]
    · exact hs1ne u hu
  have htags2 : s2.tags = s.tags := by rw [hs2]; split <;> rfl
  have hmod2 : s2.modified = s.modified := by rw [hs2]; split <;> rfl
  obtain ⟨g1, g2, g3, g4, g5, g6⟩ := hty2
  let S' : TS V := { s2.ty t with back := upd (s2.ty t).back A.1 (some J.1) }
  have hcapS' : S'.capacity = J.2.capacity := by
    simp only [TS.capacity, TS.occupied, S', g1, g3, g4]
  obtain ⟨L', k1, k2, k3, k4, k5, k6⟩ := linv_tie (S := s.ty t) (S' := S') L ht (addr := A.1)
    (id := J.1)
    (by simp only [S', g3]; exact ha1) (by simp only [S', g4, g1]; exact hi1)
    (by simp only [S', g2]; exact hi2)
    (by
      intro k hk
      simp only [S'] at hk ⊢
      by_cases e : k = A.1
      · rw [if_pos e, e, upd_self]
      · rw [if_neg e, upd_ne _ _ e]; exact g6 k hk)
    (by rw [hcapS']; exact g5)
  let s' : Sto V := { s2 with ty := upd s2.ty t S' }
  have hs't : s'.ty t = S' := upd_self _ _ _
  have hs'ne : ∀ u, u ≠ t → s'.ty u = s.ty u := fun u hu => by
    show upd s2.ty t S' u = _
    rw [upd_ne _ _ hu, htyne u hu]
  have hslotid : slot s t J.1 = none := slot_none.2 k3
  have hslotnew : slot s' t J.1 = some A.1 := by
    rw [slot_some, hs't]
    refine ⟨k2, ?_⟩
    simp only [S', g2, hi2]; exact upd_self _ _ _
  have hslot : ∀ u j, (u ≠ t ∨ j ≠ J.1) → slot s' u j = slot s u j := by
    intro u j h
    by_cases e : u = t
    · subst e
      have hj : j ≠ J.1 := by rcases h with h | h; exacts [absurd rfl h, h]
      unfold slot
      rw [hs't]
      have hlk : S'.links j = (s.ty u).links j := by
        simp only [S', g2, hi2]; exact upd_ne _ _ hj
      rw [hlk]
      by_cases q : j < (s.ty u).nlinks
      · rw [if_pos q, if_pos (k4 j q)]
      · rw [if_neg q, if_neg (fun q' => q (k5 j q' hj))]
    · unfold slot; rw [hs'ne u e]
  have hlive : ∀ u a, liveS s u a → liveS s' u a := by
    rintro u a ⟨j, h⟩
    refine ⟨j, ?_⟩
    rw [hslot u j]
    · exact h
    · by_cases e : u = t
      · subst e
        right
        rintro rfl
        rw [hslotid] at h; cases h
      · exact Or.inl e
  have h5' : ∀ u, (s'.ty u).nback = (s2.ty u).nback ∧ (s'.ty u).nsparse = (s2.ty u).nsparse ∧
      (s'.ty u).sparse = (s2.ty u).sparse := by
    intro u
    by_cases e : u = t
    · subst e; rw [hs't]; exact ⟨rfl, rfl, rfl⟩
    · rw [hs'ne u e, htyne u e]; exact ⟨rfl, rfl, rfl⟩
  have r' : ∀ u a i, readAt s' u a i = readAt s2 u a i :=
    fun u a i => readAt_ty (s' := s') (s := s2) rfl rfl rfl (fun u => (h5' u).2) u a i
  have hinv : Inv zero s' := by
    constructor
    · intro u
      by_cases e : u = t
      · subst e; rw [hs't]; exact L'
      · rw [hs'ne u e]; exact I.L u
    · refine dinv_congr D2.1 rfl rfl rfl rfl h5' hlive ?_
      rintro u a ⟨j, h⟩
      by_cases e : u = t
      · subst e
        obtain ⟨h1, h2⟩ := slot_some.1 h
        rw [hs't] at h1 h2
        have := (L'.b1 j a h1 h2).1
        have := L'.occ_le
        exact Nat.lt_of_lt_of_le (by assumption) this
      · rw [hslot u j (Or.inl e)] at h
        rw [htyne u e]
        exact I.D.bound u a ⟨j, h⟩
  have hnl : ¬ liveS s t A.1 := by
    rintro ⟨j, h⟩
    obtain ⟨h1, h2⟩ := slot_some.1 h
    exact k6 j A.1 h1 h2 rfl
  refine ⟨s', J.1, ?_, hinv, htags2, hmod2, hslotid, ⟨A.1, hslotnew, hnl⟩, hslot, ?_, ?_⟩
  · unfold tie
    simp only [hA, hI]
    show (if A.1 < (s2.ty t).nback then some (s', J.1) else none) = some (s', J.1)
    rw [if_pos]
    exact k1
  · intro u a h i
    rw [r', D2.2 u a i h]
  · intro i
    unfold read
    rw [hslotnew]
    simp only
    rw [r', readAt_fresh D2.1 hnl k1 i]
    unfold freshVal findTag
    rw [htags2]

theorem eraseRec_sub {i : Nat} {l : List (Nat × V)} : (eraseRec i l).Sublist l := by
  induction l with
  | nil => exact List.Sublist.slnil
  | cons r rs ih =>
    rw [eraseRec]
    split
    · exact List.sublist_cons_self _ _
    · exact ih.cons_cons _

theorem eraseRec_not_mem {i : Nat} {l : List (Nat × V)} (h : (l.map (·.1)).Nodup) :
    ∀ r ∈ eraseRec i l, r.1 ≠ i := by
  induction l with
  | nil => intro r hr; simp [eraseRec] at hr
  | cons x xs ih =>
    simp only [List.map_cons, List.nodup_cons] at h
    intro r hr
    rw [eraseRec] at hr
    split at hr
    · next e =>
      intro e2
      exact h.1 (List.mem_map.2 ⟨r, hr, by rw [e2, e]⟩)
    · next e =>
      rcases List.mem_cons.1 hr with rfl | hr
      · exact e
      · exact ih h.2 r hr

/-- Erasing the records of all tags of a list leaves no record of these tags. -/
theorem eraseAll_spec (tags : List TagRec) (l : List (Nat × V)) (h : (l.map (·.1)).Nodup) :
    (tags.foldl (fun l τ => eraseRec τ.id l) l).Sublist l ∧
    ∀ r ∈ tags.foldl (fun l τ => eraseRec τ.id l) l, ∀ τ ∈ tags, τ.id ≠ r.1 := by
  induction tags generalizing l with
  | nil => exact ⟨List.Sublist.refl _, fun r _ τ hτ => by simp at hτ⟩
  | cons σ rest ih =>
    have hs := eraseRec_sub (i := σ.id) (l := l)
    obtain ⟨h1, h2⟩ := ih (eraseRec σ.id l) (List.Nodup.sublist (hs.map _) h)
    refine ⟨h1.trans hs, fun r hr τ hτ => ?_⟩
    rcases List.mem_cons.1 hτ with rfl | hτ
    · exact (eraseRec_not_mem h r (h1.subset hr)).symm
    · exact h2 r hr τ hτ

theorem destroy_spec {s : Sto V} (I : Inv zero s) {t : ET} {id : Nat} {a : Nat}
    (hm : s.modified = false) (hs : slot s t id = some a) :
    ∃ s', destroy zero s t id = some s' ∧ Inv zero s' ∧ s'.tags = s.tags ∧
      s'.modified = s.modified ∧
      slot s' t id = none ∧ (∀ u j, (u ≠ t ∨ j ≠ id) → slot s' u j = slot s u j) ∧
      (∀ u b, (u ≠ t ∨ b ≠ a) → ∀ i, readAt s' u b i = readAt s u b i) := by
  have L := I.L t
  obtain ⟨hid, hl⟩ := slot_some.1 hs
  obtain ⟨ho, hbk⟩ := L.b1 id a hid hl
  have hnb := L.occ_le
  let sparseTags := s.tags.filter fun τ => τ.defined t && τ.flag t
  let recs := sparseTags.foldl (fun l τ => eraseRec τ.id l) ((s.ty t).sparse a)
  let S1 : TS V := { s.ty t with sparse := upd (s.ty t).sparse a recs }
  let s1 : Sto V := { s with ty := upd s.ty t S1, dense := foldCols t (clearCell zero a) s.tags s.dense }
  let S2 : TS V := { S1 with
        links := upd S1.links id none
        back := upd S1.back a none
        emptySpace := a :: S1.emptySpace
        emptyLinks := id :: S1.emptyLinks }
  let s2 : Sto V := { s1 with ty := upd s1.ty t S2 }
  have hs1t : s1.ty t = S1 := upd_self _ _ _
  have hs2t : s2.ty t = S2 := upd_self _ _ _
  have hs2ne : ∀ u, u ≠ t → s2.ty u = s.ty u := by
    intro u hu
    show upd (upd s.ty t S1) t S2 u = s.ty u
    rw [upd_ne _ _ hu, upd_ne _ _ hu]
  have hrun : destroy zero s t id = some s2 := by
    unfold destroy
    rw [hs]
    simp only
    rw [if_neg]
    · show untie s1 t id = some s2
      unfold untie
      have hm1 : s1.modified = false := hm
      rw [if_neg (by rw [hm1]; decide)]
      have hsl : slot s1 t id = some a := by
        rw [slot_some, hs1t]; exact ⟨hid, hl⟩
      rw [hsl]
      simp only
      rw [hs1t, if_pos (show a < S1.nback from by show a < (s.ty t).nback; omega)]
    · rintro ⟨h1, h2⟩
      obtain ⟨τ, hτ⟩ := List.exists_mem_of_ne_nil _ h1
      rw [List.mem_filter] at hτ
      simp only [Bool.and_eq_true] at hτ
      have := I.D.spNeed τ hτ.1 t hτ.2.1 hτ.2.2
      omega
  obtain ⟨hsub, hnot⟩ := eraseAll_spec sparseTags ((s.ty t).sparse a) (I.D.spKeys t a)
  have hrecs : recs = [] := by
    apply List.eq_nil_iff_forall_not_mem.2
    intro r hr
    obtain ⟨-, τ, h1, h2, h3, h4⟩ := I.D.spTag t a r (hsub.subset hr)
    exact hnot r hr τ (List.mem_filter.2 ⟨h1, by simp [h3, h4]⟩) h2
  have hcolmem : ∀ τ ∈ s.tags, ∀ p, τ.colOf t = some p →
      s2.dense p = clearCell zero a τ (s.dense p) := fun τ hτ p hp =>
    foldCols_mem s.tags s.dense I.D.nodup (I.D.distAt t p) hτ hp
  have hcolne : ∀ τ ∈ s.tags, ∀ u p, u ≠ t → τ.colOf u = some p → s2.dense p = s.dense p := by
    intro τ hτ u p hu hp
    refine foldCols_other s.tags s.dense (fun σ hσ hc => hu ?_)
    exact (I.D.dist τ hτ σ hσ u t p hp hc).2
  have hslot : ∀ u j, (u ≠ t ∨ j ≠ id) → slot s2 u j = slot s u j := by
    intro u j h
    by_cases e : u = t
    · subst e
      have hj : j ≠ id := by rcases h with h | h; exacts [absurd rfl h, h]
      unfold slot
      rw [hs2t]
      show (if j < (s.ty u).nlinks then upd (s.ty u).links id none j else none) = _
      rw [upd_ne _ _ hj]
    · unfold slot; rw [hs2ne u e]
  have hslot0 : slot s2 t id = none := by
    rw [slot_none, hs2t]
    show ¬ (id < _ ∧ upd (s.ty t).links id none id ≠ none)
    rw [upd_self]; simp
  have hinj : ∀ j, slot s t j = some a → j = id := by
    intro j h
    obtain ⟨h1, h2⟩ := slot_some.1 h
    have := (L.b1 j a h1 h2).2
    rw [hbk] at this; cases this; rfl
  have hlive : ∀ u b, liveS s2 u b ↔ (liveS s u b ∧ (u ≠ t ∨ b ≠ a)) := by
    intro u b
    constructor
    · rintro ⟨j, h⟩
      by_cases e : u = t ∧ j = id
      · obtain ⟨rfl, rfl⟩ := e; rw [hslot0] at h; cases h
      · have hne : u ≠ t ∨ j ≠ id := by
          by_cases e1 : u = t
          · exact Or.inr (fun e2 => e ⟨e1, e2⟩)
          · exact Or.inl e1
        rw [hslot u j hne] at h
        refine ⟨⟨j, h⟩, ?_⟩
        by_cases e1 : u = t
        · right
          rintro rfl
          subst e1
          rcases hne with h1 | h1
          · exact h1 rfl
          · exact h1 (hinj j h)
        · exact Or.inl e1
    · rintro ⟨⟨j, h⟩, hne⟩
      refine ⟨j, ?_⟩
      rw [hslot]
      · exact h
      · by_cases e1 : u = t
        · right
          rintro rfl
          subst e1
          rw [hs] at h
          cases h
          rcases hne with h1 | h1 <;> exact h1 rfl
        · exact Or.inl e1
  have hnback : ∀ u, (s2.ty u).nback = (s.ty u).nback ∧ (s2.ty u).nsparse = (s.ty u).nsparse := by
    intro u
    by_cases e : u = t
    · subst e; rw [hs2t]; exact ⟨rfl, rfl⟩
    · rw [hs2ne u e]; exact ⟨rfl, rfl⟩
  have hsparse : ∀ u b, (u ≠ t ∨ b ≠ a) → (s2.ty u).sparse b = (s.ty u).sparse b := by
    intro u b h
    by_cases e : u = t
    · subst e
      rw [hs2t]
      show upd (s.ty u).sparse a recs b = _
      rw [upd_ne]
      rcases h with h | h; exacts [absurd rfl h, h]
    · rw [hs2ne u e]
  have hsparse0 : (s2.ty t).sparse a = [] := by
    rw [hs2t]
    show upd (s.ty t).sparse a recs a = _
    rw [upd_self, hrecs]
  refine ⟨s2, hrun, ⟨?_, ⟨I.D.ids, I.D.names, I.D.flagged, I.D.unflagged, I.D.colLt, ?_, ?_,
    I.D.dist, I.D.ed, ?_, ?_, ?_, ?_, ?_⟩⟩, rfl, rfl, hslot0, hslot, ?_⟩
  · intro u
    by_cases e : u = t
    · subst e
      rw [hs2t]
      have L1 : LInv u S1 := ⟨L.l1, L.l2, L.s1, L.s2, L.b1, L.b2, L.cap, L.mesh⟩
      exact linv_untie L1 hid hl
    · rw [hs2ne u e]; exact I.L u
  · intro τ hτ u p hp
    rw [(hnback u).1]
    by_cases e : u = t
    · subst e; rw [hcolmem τ hτ p hp]; exact I.D.colSize τ hτ u p hp
    · rw [hcolne τ hτ u p e hp]; exact I.D.colSize τ hτ u p hp
  · intro τ hτ u p hp b hb
    by_cases e : u = t
    · subst e
      rw [hcolmem τ hτ p hp]
      show upd (s.dense p).f a _ b = _
      by_cases e2 : b = a
      · subst e2; rw [upd_self]
      · rw [upd_ne _ _ e2]
        exact I.D.colZero τ hτ u p hp b (fun h => hb ((hlive u b).2 ⟨h, Or.inr e2⟩))
    · rw [hcolne τ hτ u p e hp]
      exact I.D.colZero τ hτ u p hp b (fun h => hb ((hlive u b).2 ⟨h, Or.inl e⟩))
  · intro u; rw [(hnback u).1, (hnback u).2]; exact I.D.sp u
  · intro τ hτ u; rw [(hnback u).1, (hnback u).2]; exact I.D.spNeed τ hτ u
  · intro u b r hr
    by_cases e : u = t ∧ b = a
    · obtain ⟨rfl, rfl⟩ := e; rw [hsparse0] at hr; simp at hr
    · have hne : u ≠ t ∨ b ≠ a := by
        by_cases e1 : u = t
        · exact Or.inr (fun e2 => e ⟨e1, e2⟩)
        · exact Or.inl e1
      rw [hsparse u b hne] at hr
      obtain ⟨h1, h2⟩ := I.D.spTag u b r hr
      exact ⟨(hlive u b).2 ⟨h1, hne⟩, h2⟩
  · intro u b
    by_cases e : u = t ∧ b = a
    · obtain ⟨rfl, rfl⟩ := e; rw [hsparse0]; simp
    · have hne : u ≠ t ∨ b ≠ a := by
        by_cases e1 : u = t
        · exact Or.inr (fun e2 => e ⟨e1, e2⟩)
        · exact Or.inl e1
      rw [hsparse u b hne]; exact I.D.spKeys u b
  · intro u b hb
    rw [(hnback u).1]
    exact I.D.bound u b ((hlive u b).1 hb).1
  · intro u b hne i
    apply readAt_congr (show s2.tags = s.tags from rfl)
    · intro τ _ _ _
      rw [(hnback u).2, hsparse u b hne]; exact ⟨Iff.rfl, rfl⟩
    · intro τ hτ p hp
      refine ⟨Iff.rfl, ?_⟩
      by_cases e : u = t
      · subst e
        rw [hcolmem τ hτ p hp]
        refine ⟨Iff.rfl, ?_⟩
        show upd (s.dense p).f a _ b = _
        rw [upd_ne]
        rcases hne with h | h; exacts [absurd rfl h, h]
      · rw [hcolne τ hτ u p e hp]; exact ⟨Iff.rfl, rfl⟩

end Verif.Storage
