import Verif.Storage.Elements

/-! # `ReorderEmpty` preserves the invariant and all data -/

namespace Verif.Storage

variable {V : Type} {zero : Nat → Option Nat → V}

/-- `links` and `back_links` are inverse to each other. -/
structure Bij (S : TS V) : Prop where
  k1 : ∀ i a, i < S.nlinks → S.links i = some a → a < S.nback ∧ S.back a = some i
  k2 : ∀ a i, a < S.nback → S.back a = some i → i < S.nlinks ∧ S.links i = some a

/-- What `ReorderEmpty` and `MoveStorage` keep. -/
structure Kept (s s' : Sto V) (t : ET) : Prop where
  tags : s'.tags = s.tags
  modified : s'.modified = s.modified
  other : ∀ u, u ≠ t → s'.ty u = s.ty u
  nlinks : (s'.ty t).nlinks = (s.ty t).nlinks
  links : ∀ id, (s'.ty t).links id = none ↔ (s.ty t).links id = none
  emptyLinks : (s'.ty t).emptyLinks = (s.ty t).emptyLinks
  nback : (s'.ty t).nback = (s.ty t).nback
  reads : ∀ u id i, read s' u id i = read s u id i

theorem Kept.refl (s : Sto V) (t : ET) : Kept s s t :=
  ⟨rfl, rfl, fun _ _ => rfl, rfl, fun _ => Iff.rfl, rfl, rfl, fun _ _ _ => rfl⟩

theorem Kept.trans {s s' s'' : Sto V} {t : ET} (h : Kept s s' t) (h' : Kept s' s'' t) :
    Kept s s'' t :=
  ⟨h'.tags.trans h.tags, h'.modified.trans h.modified,
    fun u hu => (h'.other u hu).trans (h.other u hu), h'.nlinks.trans h.nlinks,
    fun id => (h'.links id).trans (h.links id), h'.emptyLinks.trans h.emptyLinks,
    h'.nback.trans h.nback, fun u id i => (h'.reads u id i).trans (h.reads u id i)⟩

theorem move_spec {s : Sto V} {t : ET} (B : Bij (s.ty t)) (D : DInv zero s (liveS s))
    {old new id : Nat} (ho : old < (s.ty t).nback) (hn : new < (s.ty t).nback)
    (hbo : (s.ty t).back old = some id) (hbn : (s.ty t).back new = none) :
    ∃ s', moveStorage zero s t old new = some s' ∧ Kept s s' t ∧ Bij (s'.ty t) ∧
      DInv zero s' (liveS s') ∧
      ∀ a, (s'.ty t).back a = if a = new then some id else if a = old then none
        else (s.ty t).back a := by
  have hne : old ≠ new := by rintro rfl; rw [hbn] at hbo; cases hbo
  obtain ⟨hid, hlid⟩ := B.k2 old id ho hbo
  let S1 : TS V := { s.ty t with
        back := upd (upd (s.ty t).back old none) new (some id)
        links := upd (s.ty t).links id (some new)
        sparse := if (s.ty t).nsparse = 0 then (s.ty t).sparse
          else upd (upd (s.ty t).sparse new ((s.ty t).sparse old)) old ((s.ty t).sparse new) }
  let g : TagRec → Col V → Col V := fun τ c =>
    { c with f := upd (upd c.f new (c.f old)) old (zero τ.dtype τ.size) }
  let s' : Sto V := { s with ty := upd s.ty t S1, dense := foldCols t g s.tags s.dense }
  have hs't : s'.ty t = S1 := upd_self _ _ _
  have hs'ne : ∀ u, u ≠ t → s'.ty u = s.ty u := fun u hu => upd_ne _ _ hu
  have hback : ∀ a, S1.back a = if a = new then some id else if a = old then none
      else (s.ty t).back a := by
    intro a
    show upd (upd (s.ty t).back old none) new (some id) a = _
    by_cases e : a = new
    · rw [e, upd_self, if_pos rfl]
    · rw [upd_ne _ _ e, if_neg e]
      by_cases e2 : a = old
      · rw [e2, upd_self, if_pos rfl]
      · rw [upd_ne _ _ e2, if_neg e2]
  have hlinks : ∀ i, S1.links i = if i = id then some new else (s.ty t).links i := fun i => rfl
  have hrun : moveStorage zero s t old new = some s' := by
    unfold moveStorage
    simp only
    rw [if_pos ⟨ho, hn⟩, hbo]
    simp only
    rw [if_neg]
    rintro ⟨h1, h2⟩
    rcases D.sp t with h | h
    · exact h1 h
    · exact h2 ⟨by omega, by omega⟩
  have hlnew : ¬ liveS s t new := by
    rintro ⟨j, h⟩
    obtain ⟨h1, h2⟩ := slot_some.1 h
    have := (B.k1 j new h1 h2).2
    rw [hbn] at this; cases this
  have hlold : liveS s t old := ⟨id, slot_some.2 ⟨hid, hlid⟩⟩
  have hslot : ∀ j, slot s' t j = if j = id then some new else slot s t j := by
    intro j
    unfold slot
    rw [hs't, hlinks]
    show (if j < (s.ty t).nlinks then _ else none) = _
    by_cases e : j = id
    · subst e; simp [hid]
    · simp [e]
  have hslotne : ∀ u j, u ≠ t → slot s' u j = slot s u j := by
    intro u j hu; unfold slot; rw [hs'ne u hu]
  have hinj : ∀ j, slot s t j = some old → j = id := by
    intro j h
    obtain ⟨h1, h2⟩ := slot_some.1 h
    have := (B.k1 j old h1 h2).2
    rw [hbo] at this; cases this; rfl
  have hlive : ∀ a, liveS s' t a ↔ (a = new ∨ (liveS s t a ∧ a ≠ old)) := by
    intro a
    constructor
    · rintro ⟨j, h⟩
      rw [hslot] at h
      split at h
      · cases h; exact Or.inl rfl
      · next e =>
        refine Or.inr ⟨⟨j, h⟩, ?_⟩
        rintro rfl; exact e (hinj j h)
    · rintro (rfl | ⟨⟨j, h⟩, h2⟩)
      · exact ⟨id, by rw [hslot, if_pos rfl]⟩
      · refine ⟨j, ?_⟩
        rw [hslot, if_neg]
        · exact h
        · rintro rfl
          rw [slot_some.2 ⟨hid, hlid⟩] at h; cases h; exact h2 rfl
  have hliven : ∀ u a, u ≠ t → (liveS s' u a ↔ liveS s u a) := by
    intro u a hu
    unfold liveS
    simp only [hslotne u _ hu]
  have hsp : ∀ a, (s'.ty t).sparse a = if a = old then (s.ty t).sparse new
      else if a = new then (s.ty t).sparse old else (s.ty t).sparse a := by
    intro a
    have hnew0 : (s.ty t).sparse new = [] := by
      apply List.eq_nil_iff_forall_not_mem.2
      intro r hr; exact hlnew (D.spTag t new r hr).1
    rw [hs't]
    show (if (s.ty t).nsparse = 0 then (s.ty t).sparse
          else upd (upd (s.ty t).sparse new ((s.ty t).sparse old)) old ((s.ty t).sparse new)) a = _
    by_cases z : (s.ty t).nsparse = 0
    · rw [if_pos z]
      have hold0 : (s.ty t).sparse old = [] := by
        apply List.eq_nil_iff_forall_not_mem.2
        intro r hr
        obtain ⟨-, τ, h1, h2, h3, h4⟩ := D.spTag t old r hr
        have := D.spNeed τ h1 t h3 h4
        omega
      by_cases e : a = old
      · rw [if_pos e, e, hold0, hnew0]
      · rw [if_neg e]
        by_cases e2 : a = new
        · rw [if_pos e2, e2, hold0, hnew0]
        · rw [if_neg e2]
    · rw [if_neg z]
      by_cases e : a = old
      · rw [if_pos e, e, upd_self]
      · rw [if_neg e, upd_ne _ _ e]
        by_cases e2 : a = new
        · rw [if_pos e2, e2, upd_self]
        · rw [if_neg e2, upd_ne _ _ e2]
  have hcolmem : ∀ τ ∈ s.tags, ∀ p, τ.colOf t = some p → s'.dense p = g τ (s.dense p) :=
    fun τ hτ p hp => foldCols_mem s.tags s.dense D.nodup (D.distAt t p) hτ hp
  have hcolne : ∀ τ ∈ s.tags, ∀ u p, u ≠ t → τ.colOf u = some p → s'.dense p = s.dense p := by
    intro τ hτ u p hu hp
    refine foldCols_other s.tags s.dense (fun σ hσ hc => hu ?_)
    exact (D.dist τ hτ σ hσ u t p hp hc).2
  have hgf : ∀ τ (c : Col V) a, (g τ c).f a = if a = old then zero τ.dtype τ.size
      else if a = new then c.f old else c.f a := by
    intro τ c a
    show upd (upd c.f new (c.f old)) old (zero τ.dtype τ.size) a = _
    by_cases e : a = old
    · rw [if_pos e, e, upd_self]
    · rw [if_neg e, upd_ne _ _ e]
      by_cases e2 : a = new
      · rw [if_pos e2, e2, upd_self]
      · rw [if_neg e2, upd_ne _ _ e2]
  have hnb : ∀ u, (s'.ty u).nback = (s.ty u).nback ∧ (s'.ty u).nsparse = (s.ty u).nsparse := by
    intro u
    by_cases e : u = t
    · subst e; rw [hs't]; exact ⟨rfl, rfl⟩
    · rw [hs'ne u e]; exact ⟨rfl, rfl⟩
  refine ⟨s', hrun, ⟨rfl, rfl, hs'ne, by rw [hs't], ?_, by rw [hs't], (hnb t).1, ?_⟩, ?_,
    ⟨D.ids, D.names, D.flagged, D.unflagged, D.colLt, ?_, ?_, D.dist, D.ed, ?_, ?_, ?_, ?_, ?_⟩,
    fun a => by rw [hs't]; exact hback a⟩
  · intro j
    rw [hs't, hlinks]
    by_cases e : j = id
    · subst e; simp [hlid]
    · rw [if_neg e]
  · intro u j i
    unfold read
    by_cases e : u = t
    · subst e
      rw [hslot]
      by_cases ej : j = id
      · subst ej
        rw [if_pos rfl, slot_some.2 ⟨hid, hlid⟩]
        simp only
        apply readAt_congr (show s'.tags = s.tags from rfl)
        · intro τ hτ h1 h2
          have := D.spNeed τ hτ u h1 h2
          rw [(hnb u).2, hsp, if_neg hne.symm, if_pos rfl]
          exact ⟨iff_of_true (by omega) (by omega), rfl⟩
        · intro τ hτ p hp
          have := D.colSize τ hτ u p hp
          rw [hcolmem τ hτ p hp, hgf, if_neg hne.symm, if_pos rfl]
          exact ⟨Iff.rfl, iff_of_true (show new < (s.dense p).n by omega) (by omega), rfl⟩
      · rw [if_neg ej]
        cases hj : slot s u j with
        | none => rfl
        | some a =>
          simp only
          have h1 : a ≠ old := by rintro rfl; exact ej (hinj j hj)
          have h2 : a ≠ new := by rintro rfl; exact hlnew ⟨j, hj⟩
          apply readAt_congr (show s'.tags = s.tags from rfl)
          · intro τ hτ _ _
            rw [(hnb u).2, hsp, if_neg h1, if_neg h2]
            exact ⟨Iff.rfl, rfl⟩
          · intro τ hτ p hp
            rw [hcolmem τ hτ p hp, hgf, if_neg h1, if_neg h2]
            exact ⟨Iff.rfl, Iff.rfl, rfl⟩
    · rw [hslotne u j e]
      cases slot s u j with
      | none => rfl
      | some a =>
        simp only
        apply readAt_congr (show s'.tags = s.tags from rfl)
        · intro τ hτ _ _; rw [hs'ne u e]; exact ⟨Iff.rfl, rfl⟩
        · intro τ hτ p hp; rw [hcolne τ hτ u p e hp]; exact ⟨Iff.rfl, Iff.rfl, rfl⟩
  · rw [hs't]
    constructor
    · intro i a hi ha
      rw [hlinks] at ha
      rw [hback]
      split at ha
      · next e => cases ha; exact ⟨hn, by rw [if_pos rfl, e]⟩
      · next e =>
        obtain ⟨h1, h2⟩ := B.k1 i a hi ha
        have h3 : a ≠ new := by rintro rfl; rw [hbn] at h2; cases h2
        have h4 : a ≠ old := by rintro rfl; rw [hbo] at h2; cases h2; exact e rfl
        exact ⟨h1, by rw [if_neg h3, if_neg h4, h2]⟩
    · intro a i ha hb
      rw [hback] at hb
      rw [hlinks]
      split at hb
      · next e => cases hb; exact ⟨hid, by rw [if_pos rfl, e]⟩
      · split at hb
        · cases hb
        · next e2 =>
          obtain ⟨h1, h2⟩ := B.k2 a i ha hb
          refine ⟨h1, ?_⟩
          rw [if_neg]
          · exact h2
          · rintro rfl; rw [hlid] at h2; cases h2; exact e2 rfl
  · intro τ hτ u p hp
    rw [(hnb u).1]
    by_cases e : u = t
    · subst e; rw [hcolmem τ hτ p hp]; exact D.colSize τ hτ u p hp
    · rw [hcolne τ hτ u p e hp]; exact D.colSize τ hτ u p hp
  · intro τ hτ u p hp a ha
    by_cases e : u = t
    · subst e
      rw [hcolmem τ hτ p hp, hgf]
      split
      · rfl
      · next e1 =>
        split
        · next e2 => exact absurd ((hlive a).2 (Or.inl e2)) ha
        · exact D.colZero τ hτ u p hp a (fun h => ha ((hlive a).2 (Or.inr ⟨h, e1⟩)))
    · rw [hcolne τ hτ u p e hp]
      exact D.colZero τ hτ u p hp a (fun h => ha ((hliven u a e).2 h))
  · intro u; rw [(hnb u).1, (hnb u).2]; exact D.sp u
  · intro τ hτ u; rw [(hnb u).1, (hnb u).2]; exact D.spNeed τ hτ u
  · intro u a r hr
    by_cases e : u = t
    · subst e
      rw [hsp] at hr
      split at hr
      · exact absurd (D.spTag u new r hr).1 hlnew
      · next e1 =>
        split at hr
        · next e2 => exact ⟨(hlive a).2 (Or.inl e2), (D.spTag u old r hr).2⟩
        · obtain ⟨h1, h2⟩ := D.spTag u a r hr
          exact ⟨(hlive a).2 (Or.inr ⟨h1, e1⟩), h2⟩
    · rw [hs'ne u e] at hr
      obtain ⟨h1, h2⟩ := D.spTag u a r hr
      exact ⟨(hliven u a e).2 h1, h2⟩
  · intro u a
    by_cases e : u = t
    · subst e
      rw [hsp]
      split
      · exact D.spKeys u new
      · split
        · exact D.spKeys u old
        · exact D.spKeys u a
    · rw [hs'ne u e]; exact D.spKeys u a
  · intro u a ha
    rw [(hnb u).1]
    by_cases e : u = t
    · subst e
      rcases (hlive a).1 ha with rfl | ⟨h, _⟩
      · exact hn
      · exact D.bound u a h
    · exact D.bound u a ((hliven u a e).1 ha)

theorem reorderLoop_spec (t : ET) : ∀ (n : Nat) (holes : List Nat) (c : Nat) (s : Sto V),
    holes.length + c = n → Bij (s.ty t) → DInv zero s (liveS s) →
    (∀ a, a < (s.ty t).nback → (s.ty t).back a ≠ none → a < c) →
    (∀ a, a + 1 < c → (s.ty t).back a = none → a ∈ holes) →
    holes.Nodup → (∀ a ∈ holes, a < (s.ty t).nback ∧ (s.ty t).back a = none) →
    c ≤ (s.ty t).nback →
    ∃ s', reorderLoop zero t holes c s = some s' ∧ Kept s s' t ∧ Bij (s'.ty t) ∧
      DInv zero s' (liveS s') ∧
      ∃ N, N ≤ (s.ty t).nback ∧ ∀ a, a < (s.ty t).nback → ((s'.ty t).back a ≠ none ↔ a < N) := by
  intro n
  induction n with
  | zero =>
    intro holes c s hn B D k2 k3 nd kh hc
    have h1 : holes = [] := List.length_eq_zero_iff.1 (by omega)
    subst h1
    refine ⟨s, by rw [reorderLoop], Kept.refl _ _, B, D, 0, by omega, fun a ha => ?_⟩
    constructor
    · intro h; have := k2 a ha h; omega
    · intro h; omega
  | succ n ih =>
    intro holes c s hn B D k2 k3 nd kh hc
    cases holes with
    | nil =>
      refine ⟨s, by rw [reorderLoop], Kept.refl _ _, B, D, ?_⟩
      by_cases e : 0 < c ∧ (s.ty t).back (c - 1) = none
      · refine ⟨c - 1, by omega, fun a ha => ⟨fun h => ?_, fun h hb => ?_⟩⟩
        · have := k2 a ha h
          have : a ≠ c - 1 := by rintro rfl; exact h e.2
          omega
        · exact absurd (k3 a (by omega) hb) (by simp)
      · refine ⟨c, hc, fun a ha => ⟨fun h => k2 a ha h, fun h hb => ?_⟩⟩
        by_cases e2 : a + 1 < c
        · exact absurd (k3 a e2 hb) (by simp)
        · have : a = c - 1 := by omega
          subst this
          exact e ⟨by omega, hb⟩
    | cons last holes =>
      cases c with
      | zero =>
        refine ⟨s, by rw [reorderLoop], Kept.refl _ _, B, D, 0, by omega, fun a ha => ?_⟩
        constructor
        · intro h; have := k2 a ha h; omega
        · intro h; omega
      | succ c =>
        rw [List.nodup_cons] at nd
        simp only [List.length_cons] at hn
        rw [reorderLoop]
        by_cases h1 : last ≥ c
        · rw [if_pos h1]
          apply ih holes (c + 1) s (by omega) B D k2 ?_ nd.2 (fun a ha => kh a (by simp [ha])) hc
          intro a ha hb
          rcases List.mem_cons.1 (k3 a ha hb) with h | h
          · omega
          · exact h
        · rw [if_neg h1]
          by_cases h2 : (s.ty t).back c = none
          · rw [if_neg (by simpa using h2)]
            apply ih (last :: holes) c s (by simp only [List.length_cons]; omega) B D ?_ ?_
              (List.nodup_cons.2 nd) kh (by omega)
            · intro a ha hb
              have := k2 a ha hb
              have : a ≠ c := by rintro rfl; exact hb h2
              omega
            · intro a ha hb; exact k3 a (by omega) hb
          · rw [if_pos h2]
            obtain ⟨id, hid⟩ := Option.ne_none_iff_exists'.1 h2
            obtain ⟨hl1, hl2⟩ := kh last (by simp)
            obtain ⟨s1, e1, K1, B1, D1, hb1⟩ := move_spec B D (show c < _ by omega) hl1 hid hl2
            rw [e1]
            simp only
            obtain ⟨s2, e2, K2, B2, D2, N, hN, hNb⟩ := ih holes (c + 1) s1 (by omega) B1 D1
              (by
                intro a ha hb
                rw [K1.nback] at ha
                rw [hb1] at hb
                split at hb
                · omega
                · split at hb
                  · exact absurd rfl hb
                  · exact k2 a ha hb)
              (by
                intro a ha hb
                rw [hb1] at hb
                split at hb
                · cases hb
                · next e =>
                  split at hb
                  · omega
                  · rcases List.mem_cons.1 (k3 a ha hb) with h | h
                    · exact absurd h e
                    · exact h)
              nd.2
              (by
                intro a ha
                obtain ⟨h3, h4⟩ := kh a (by simp [ha])
                rw [K1.nback, hb1]
                refine ⟨h3, ?_⟩
                rw [if_neg (by rintro rfl; exact nd.1 ha)]
                split
                · rfl
                · exact h4)
              (by rw [K1.nback]; exact hc)
            rw [K1.nback] at hN hNb
            exact ⟨s2, e2, K1.trans K2, B2, D2, N, hN, hNb⟩

theorem skipFree_spec (S : TS V) (n : Nat) : skipFree S n ≤ n ∧
    (∀ a, a < n → S.back a ≠ none → a < skipFree S n) ∧
    (0 < skipFree S n → S.back (skipFree S n - 1) ≠ none) := by
  induction n with
  | zero => simp [skipFree]
  | succ n ih =>
    rw [skipFree]
    split
    · next h =>
      refine ⟨by omega, fun a ha hb => ?_, ih.2.2⟩
      apply ih.2.1 a _ hb
      have : a ≠ n := by rintro rfl; exact hb h
      omega
    · next h => exact ⟨by omega, fun a ha _ => ha, fun _ => by simpa using h⟩

/-- Number of live elements of a type. -/
def liveCount (S : TS V) : Nat := ((List.range S.nlinks).filter fun i => S.links i ≠ none).length

/-- If slots in use are `0 .. N-1` then `N` is the number of live elements. -/
theorem count_packed {S : TS V} (B : Bij S) {N : Nat} (hN : N ≤ S.nback)
    (h : ∀ a, a < S.nback → (S.back a ≠ none ↔ a < N)) : liveCount S = N := by
  let A := ((List.range S.nlinks).filter fun i => S.links i ≠ none).map fun i => (S.links i).getD 0
  have hA : A.Nodup := by
    apply List.Nodup.map_on
    · intro x hx y hy e
      simp only [List.mem_filter, List.mem_range, decide_eq_true_eq] at hx hy
      obtain ⟨a, ha⟩ := Option.ne_none_iff_exists'.1 hx.2
      obtain ⟨b, hb⟩ := Option.ne_none_iff_exists'.1 hy.2
      rw [ha, hb] at e
      simp only [Option.getD_some] at e
      subst e
      have h1 := (B.k1 x a hx.1 ha).2
      have h2 := (B.k1 y a hy.1 hb).2
      rw [h1] at h2; cases h2; rfl
    · exact List.nodup_range.filter _
  have hmem : ∀ a, a ∈ A ↔ a ∈ List.range N := by
    intro a
    simp only [A, List.mem_map, List.mem_filter, List.mem_range, decide_eq_true_eq]
    constructor
    · rintro ⟨i, ⟨h1, h2⟩, rfl⟩
      obtain ⟨b, hb⟩ := Option.ne_none_iff_exists'.1 h2
      obtain ⟨h3, h4⟩ := B.k1 i b h1 hb
      rw [hb]
      exact (h b h3).1 (by rw [h4]; simp)
    · intro ha
      obtain ⟨i, hi⟩ := Option.ne_none_iff_exists'.1 ((h a (by omega)).2 ha)
      obtain ⟨h1, h2⟩ := B.k2 a i (by omega) hi
      exact ⟨i, ⟨h1, by rw [h2]; simp⟩, by rw [h2]; rfl⟩
  have hp : A.Perm (List.range N) := (List.perm_ext_iff_of_nodup hA List.nodup_range).2 hmem
  have := hp.length_eq
  simpa [A, liveCount] using this

theorem count_live {S : TS V} (h1 : S.emptyLinks.Nodup)
    (h2 : ∀ i, i ∈ S.emptyLinks ↔ i < S.nlinks ∧ S.links i = none) :
    liveCount S = S.nlinks - S.emptyLinks.length := by
  have hp : S.emptyLinks.Perm ((List.range S.nlinks).filter fun i => S.links i = none) := by
    apply (List.perm_ext_iff_of_nodup h1 (List.nodup_range.filter _)).2
    intro i
    rw [h2]; simp
  have := hp.length_eq
  have hsum := List.length_eq_length_filter_add (l := List.range S.nlinks)
    (fun i => decide (S.links i = none))
  rw [List.length_range] at hsum
  have hh : liveCount S = ((List.range S.nlinks).filter fun i => !decide (S.links i = none)).length := by
    unfold liveCount
    congr 1
    apply List.filter_congr
    intro i _
    simp
  rw [hh, this]
  omega

theorem reorderEmpty_spec {s : Sto V} (I : Inv zero s) {t : ET} (ht : t ≠ 5) :
    ∃ s', reorderEmpty zero s t = some s' ∧ Inv zero s' ∧ s'.tags = s.tags ∧
      s'.modified = s.modified ∧
      (∀ u id, slot s' u id = none ↔ slot s u id = none) ∧
      (∀ u id, u ≠ t → slot s' u id = slot s u id) ∧
      (∀ u id i, read s' u id i = read s u id i) ∧
      (∀ a, liveS s' t a ↔ a < liveCount (s.ty t)) := by
  have L := I.L t
  have hocc := L.occ_le
  have B0 : Bij (s.ty t) := ⟨fun i a hi ha => by
    obtain ⟨h1, h2⟩ := L.b1 i a hi ha
    exact ⟨by omega, h2⟩, L.b2⟩
  obtain ⟨f1, f2, f3⟩ := skipFree_spec (s.ty t) (s.ty t).nback
  obtain ⟨s1, e1, K, B1, D1, N, hN, hNb⟩ := reorderLoop_spec (zero := zero) t _
    (s.ty t).emptySpace (skipFree (s.ty t) (s.ty t).nback) s rfl B0 I.D f2
    (by
      intro a ha hb
      have h0 := f3 (by omega)
      obtain ⟨i, hi⟩ := Option.ne_none_iff_exists'.1 h0
      obtain ⟨h1, h2⟩ := L.b2 _ i (by omega) hi
      have := (L.b1 i _ h1 h2).1
      exact (L.s2 a).2 ⟨by omega, hb⟩)
    L.s1
    (by
      intro a ha
      obtain ⟨h1, h2⟩ := (L.s2 a).1 ha
      exact ⟨by omega, h2⟩)
    f1
  have hcount1 : liveCount (s1.ty t) = N := count_packed B1 (by rw [K.nback]; exact hN)
    (fun a ha => hNb a (by rw [K.nback] at ha; exact ha))
  have hl2 : ∀ i, i ∈ (s1.ty t).emptyLinks ↔ i < (s1.ty t).nlinks ∧ (s1.ty t).links i = none := by
    intro i; rw [K.emptyLinks, K.nlinks, K.links]; exact L.l2 i
  have hcount2 := count_live (S := s1.ty t) (by rw [K.emptyLinks]; exact L.l1) hl2
  have hcount : liveCount (s.ty t) = N := by
    rw [← hcount1]
    unfold liveCount
    rw [K.nlinks]
    congr 1
    apply List.filter_congr
    intro i _
    simp only [ne_eq, decide_not, Bool.not_eq_eq_eq_not, Bool.not_not]
    exact decide_eq_decide.2 (K.links i).symm
  let S1 : TS V := { s1.ty t with emptySpace := [] }
  let s2 : Sto V := { s1 with ty := upd s1.ty t S1 }
  have hs2t : s2.ty t = S1 := upd_self _ _ _
  have hs2ne : ∀ u, u ≠ t → s2.ty u = s1.ty u := fun u hu => upd_ne _ _ hu
  have hoccS : S1.occupied = N := by
    show (s1.ty t).nlinks - (s1.ty t).emptyLinks.length + 0 = N
    omega
  have hNcap : N ≤ clampSize t S1.capacity := by
    have := le_clamp t S1.capacity (fun h => absurd h ht)
    have := le_physical S1.occupied
    unfold TS.capacity at *
    omega
  have hslot2 : ∀ u id, slot s2 u id = slot s1 u id := by
    intro u id
    by_cases e : u = t
    · subst e; unfold slot; rw [hs2t]
    · unfold slot; rw [hs2ne u e]
  have hlive2 : ∀ u a, liveS s2 u a ↔ liveS s1 u a := by
    intro u a; unfold liveS; simp only [hslot2]
  have h5 : ∀ u, (s2.ty u).nback = (s1.ty u).nback ∧ (s2.ty u).nsparse = (s1.ty u).nsparse ∧
      (s2.ty u).sparse = (s1.ty u).sparse := by
    intro u
    by_cases e : u = t
    · subst e; rw [hs2t]; exact ⟨rfl, rfl, rfl⟩
    · rw [hs2ne u e]; exact ⟨rfl, rfl, rfl⟩
  have D2 : DInv zero s2 (liveS s2) :=
    dinv_congr D1 rfl rfl rfl rfl h5 (fun u a h => (hlive2 u a).2 h)
      (fun u a h => D1.bound u a ((hlive2 u a).1 h))
  have hlt : ∀ a, liveS s1 t a ↔ a < N := by
    intro a
    constructor
    · rintro ⟨id, h⟩
      obtain ⟨h1, h2⟩ := slot_some.1 h
      obtain ⟨h3, h4⟩ := B1.k1 id a h1 h2
      rw [K.nback] at h3
      exact (hNb a h3).1 (by rw [h4]; simp)
    · intro ha
      obtain ⟨i, hi⟩ := Option.ne_none_iff_exists'.1 ((hNb a (by omega)).2 ha)
      obtain ⟨h1, h2⟩ := B1.k2 a i (by rw [K.nback]; omega) hi
      exact ⟨i, slot_some.2 ⟨h1, h2⟩⟩
  obtain ⟨D3, r3⟩ := dinv_reallocate D2 t S1.capacity (fun a h => by
    have := (hlt a).1 ((hlive2 t a).1 h); omega)
  let s3 := reallocate zero s2 t S1.capacity
  obtain ⟨g1, g2, g3, g4, g5, g6⟩ := reallocate_ty (zero := zero) s2 t S1.capacity
  rw [hs2t] at g1 g2 g3 g4 g6
  have hslot3 : ∀ u id, slot s3 u id = slot s1 u id := by
    intro u id
    rw [← hslot2]
    by_cases e : u = t
    · subst e; unfold slot; rw [g1, g2, hs2t]
    · unfold slot; rw [show s3.ty u = s2.ty u from reallocate_ty_ne _ _ e]
  have hlive3 : ∀ u a, liveS s3 u a ↔ liveS s1 u a := by
    intro u a; unfold liveS; simp only [hslot3]
  have hlive32 : liveS s3 = liveS s2 := by
    funext u a; rw [eq_iff_iff, hlive3, hlive2]
  have occ3 : (s3.ty t).occupied = N := by
    rw [← hoccS]; unfold TS.occupied; rw [g1, g3, g4]
  have hnone : ∀ u id, slot s3 u id = none ↔ slot s u id = none := by
    intro u id
    rw [hslot3]
    by_cases e : u = t
    · subst e; rw [slot_none, slot_none, K.nlinks, ne_eq, K.links]
    · unfold slot; rw [K.other u e]
  refine ⟨s3, ?_, ⟨?_, ?_⟩, K.tags, K.modified, hnone, ?_, ?_, ?_⟩
  · unfold reorderEmpty
    simp only
    rw [e1]
  · intro u
    by_cases e : u = t
    · subst e
      refine ⟨?_, ?_, ?_, ?_, ?_, ?_, ?_, fun h => absurd h ht⟩
      · rw [g4]; show (s1.ty u).emptyLinks.Nodup; rw [K.emptyLinks]; exact L.l1
      · intro i; rw [g4, g1, g2]; exact hl2 i
      · rw [g3]; exact List.nodup_nil
      · intro a
        rw [occ3, g3, g6]
        show a ∈ ([] : List Nat) ↔ _
        simp only [List.not_mem_nil, false_iff]
        rintro ⟨h1, h2⟩
        have h3 : a < (s1.ty u).nback := by rw [K.nback]; omega
        rw [if_pos (show a < S1.nback from h3)] at h2
        exact ((hNb a (by rw [K.nback] at h3; exact h3)).2 h1) h2
      · intro i a hi ha
        rw [g1] at hi
        rw [g2] at ha
        rw [occ3, g6]
        have h1 : a < N := (hlt a).1 ⟨i, slot_some.2 ⟨hi, ha⟩⟩
        obtain ⟨h3, h4⟩ := B1.k1 i a hi ha
        exact ⟨h1, by rw [if_pos (show a < S1.nback from h3)]; exact h4⟩
      · intro a i ha hb
        rw [g6] at hb
        rw [g1, g2]
        split at hb
        · next h => exact B1.k2 a i h hb
        · cases hb
      · rw [g5]
        unfold TS.capacity
        rw [occ3, hoccS]
    · rw [show s3.ty u = s2.ty u from reallocate_ty_ne _ _ e, hs2ne u e, K.other u e]
      exact I.L u
  · rw [hlive32]; exact D3
  · intro u id e
    rw [hslot3]; unfold slot; rw [K.other u e]
  · intro u id i
    rw [← K.reads]
    unfold read
    rw [hslot3]
    cases h : slot s1 u id with
    | none => rfl
    | some a =>
      simp only
      rw [r3 u a i ((hlive2 u a).2 ⟨id, h⟩)]
      exact readAt_ty (s' := s2) (s := s1) rfl rfl rfl (fun u => (h5 u).2) u a i
  · intro a
    rw [hlive3, hlt, hcount]

end Verif.Storage
