import Verif.Copy.Fill
import Verif.Storage.TagOps

/-! # The copy of a mesh: contents, and use afterwards -/

namespace Verif.Copy

open Verif.Storage

variable {V : Type} {zero : Nat → Option Nat → V}

/-- The one element of type MESH. -/
theorem mesh_slot {o : Sto V} (I : Inv zero o) (h : slot o 5 0 ≠ none) (j : Nat) :
    slot o 5 j = if j = 0 then some 0 else none := by
  have key : ∀ k a, slot o 5 k = some a → a = 0 := by
    intro k a hk
    obtain ⟨h1, h2⟩ := slot_some.1 hk
    have := ((I.L 5).b1 k a h1 h2).1
    have := (I.L 5).mesh rfl
    omega
  obtain ⟨a, ha⟩ := Option.ne_none_iff_exists'.1 h
  have e := key 0 a ha
  subst e
  by_cases hj : j = 0
  · rw [hj, if_pos rfl]; exact ha
  · rw [if_neg hj]
    cases hs : slot o 5 j with
    | none => rfl
    | some b =>
      have := key j b hs
      subst this
      exact absurd (I.slot_inj hs ha) hj

theorem clamp_mesh (n : Nat) : clampSize 5 n = 1 := by unfold clampSize; rw [if_pos rfl]

/-- TieElement(5) on storage without elements. -/
theorem tie_mesh (s : Sto V) (h : s.ty 5 = TS.empty V) (hm : s.modified = false) :
    ∃ s', tie zero s 5 = some (s', 0) ∧ s'.tags = s.tags ∧ s'.ndense = s.ndense ∧ s'.emptyDense = s.emptyDense ∧
      s'.modified = s.modified ∧
      (s'.ty 5).nlinks = 1 ∧ (s'.ty 5).links = upd (fun _ => none) 0 (some 0) ∧ (s'.ty 5).emptySpace = [] ∧
      (s'.ty 5).emptyLinks = [] ∧ (s'.ty 5).nback = 1 ∧ (∀ a, (s'.ty 5).sparse a = []) ∧
      (∀ u, u ≠ 5 → s'.ty u = s.ty u) ∧ s'.dense = foldCols 5 (fun τ c => c.resize zero τ 1) s.tags s.dense := by
  have hA : pickAddr (s.ty 5) s.modified = (0, TS.empty V) := by rw [h, hm]; rfl
  let S1 : TS V := { TS.empty V with nlinks := 1, links := upd (fun _ => none) 0 (some 0) }
  have hI : pickId (TS.empty V) 0 = (0, S1) := rfl
  have hcap : S1.capacity ≠ (s.ty 5).capacity := by
    rw [h]; show physical 1 ≠ physical 0; decide
  let s1 : Sto V := { s with ty := upd s.ty 5 S1 }
  have hs1 : s1.ty 5 = S1 := by show upd s.ty 5 S1 5 = S1; rw [upd_self]
  obtain ⟨r1, r2, r3, r4, r5, r6⟩ := reallocate_ty (zero := zero) s1 5 S1.capacity
  have rsp := reallocate_sparse (zero := zero) s1 5 S1.capacity
  have hc5 : clampSize 5 S1.capacity = 1 := clamp_mesh _
  rw [hc5] at r5
  rw [hs1] at r1 r2 r3 r4
  have e : tie zero s 5 = some ({ reallocate zero s1 5 S1.capacity with
      ty := upd (reallocate zero s1 5 S1.capacity).ty 5 { (reallocate zero s1 5 S1.capacity).ty 5 with
        back := upd ((reallocate zero s1 5 S1.capacity).ty 5).back 0 (some 0) } }, 0) := by
    unfold tie
    rw [hA]
    simp only
    rw [hI]
    simp only
    rw [if_pos hcap]
    show (if 0 < ((reallocate zero s1 5 S1.capacity).ty 5).nback then _ else _) = _
    rw [r5, if_pos (by decide)]
  refine ⟨_, e, rfl, rfl, rfl, rfl, ?_, ?_, ?_, ?_, ?_, ?_, ?_, ?_⟩
  · simp only [upd_self]; exact r1
  · simp only [upd_self]; exact r2
  · simp only [upd_self]; exact r3
  · simp only [upd_self]; exact r4
  · simp only [upd_self]; exact r5
  · intro a
    simp only [upd_self]
    split at rsp
    · rw [rsp.2, hs1]
      split
      · rfl
      · show (if _ then [] else []) = _
        simp
    · rw [rsp.2]
  · intro u hu
    simp only [upd_ne _ _ hu]
    rw [reallocate_ty_ne _ _ hu]
    exact upd_ne _ _ hu
  · rfl

/-- What a copy `s` of `o` consists of. -/
structure Copied (addr : Nat → Nat) (o s : Sto V) : Prop where
  tags : s.tags = o.tags.map (renamed addr)
  nd : s.ndense = o.ndense
  md : s.modified = o.modified
  slots : ∀ t j, slot s t j = slot o t j
  links : ∀ t, t ≠ 5 → (s.ty t).nlinks = (o.ty t).nlinks ∧ (s.ty t).links = (o.ty t).links ∧
    (s.ty t).emptySpace = (o.ty t).emptySpace ∧ (s.ty t).emptyLinks = (o.ty t).emptyLinks
  nback : ∀ t, (s.ty t).nback = (o.ty t).nback
  nsparse : ∀ t, (s.ty t).nsparse = if sparseOn o t then (o.ty t).nback else 0
  sparse : ∀ t a, (s.ty t).sparse a = []
  cols : ∀ t, ∀ τ ∈ o.tags, ∀ p, τ.colOf t = some p → s.dense p = o.dense p

theorem allTypes_mem' (t : ET) : t ∈ allTypes := by
  revert t; decide

theorem takeLinks_ne (o s : Sto V) {t : ET} (h : t ≠ 5) : (takeLinks o s).ty t = { s.ty t with
    nlinks := (o.ty t).nlinks, links := (o.ty t).links, emptySpace := (o.ty t).emptySpace
    emptyLinks := (o.ty t).emptyLinks } := if_neg h

theorem takeLinks_mesh (o s : Sto V) : (takeLinks o s).ty 5 = s.ty 5 := by
  unfold takeLinks; simp

/-- Filling a mesh that has one MESH element, the tags of `o` and no data. -/
theorem fill_copied {addr : Nat → Nat} {o s : Sto V} (I : Inv zero o) (A : Addr addr o) (hM : slot o 5 0 ≠ none)
    (ht : s.tags = o.tags.map (renamed addr)) (hnd : s.ndense = o.ndense)
    (h5 : ∀ j, slot s 5 j = if j = 0 then some 0 else none)
    (hc : ∀ t, ∀ τ ∈ o.tags, ∀ p, τ.colOf t = some p →
      (s.dense p).n = 0 ∨ ∀ a, (s.dense p).f a = zero τ.dtype τ.size)
    (hsp : ∀ t a, (s.ty t).sparse a = []) :
    ∃ s', fill zero addr o (takeLinks o s) = some s' ∧ Copied addr o { s' with modified := o.modified } ∧
      s'.emptyDense = s.emptyDense ∧
      (∀ t k, (s'.ty t).back k = if k < (s.ty t).nback then (s.ty t).back k else none) ∧
      (s'.ty 5).nlinks = (s.ty 5).nlinks ∧ (s'.ty 5).links = (s.ty 5).links ∧
      (s'.ty 5).emptySpace = (s.ty 5).emptySpace ∧ (s'.ty 5).emptyLinks = (s.ty 5).emptyLinks := by
  have hsl : ∀ t j, slot (takeLinks o s) t j = slot o t j := by
    intro t j
    by_cases h : t = 5
    · subst h
      rw [mesh_slot I hM, ← h5]
      unfold slot; rw [takeLinks_mesh]
    · unfold slot; rw [takeLinks_ne o s h]
  have S : Start zero addr o (takeLinks o s) allTypes := by
    refine ⟨ht, hnd, hsl, ?_, fun t _ => hc t, ?_⟩
    · intro t
      by_cases h : t = 5
      · subst h; rw [(I.L 5).cap, clamp_mesh, clamp_mesh]
      · rw [(I.L t).cap]
        unfold TS.capacity TS.occupied
        rw [takeLinks_ne o s h]
    · intro t a
      by_cases h : t = 5
      · subst h; rw [takeLinks_mesh]; exact hsp _ _
      · rw [takeLinks_ne o s h]; exact hsp _ _
  obtain ⟨s', e, F⟩ := fill_spec I A allTypes (by decide) _ S
  refine ⟨s', e, ⟨F.tags.trans ht, F.nd.trans hnd, rfl, ?_, ?_, fun t => F.nback t (allTypes_mem' t),
    fun t => F.nsparse t (allTypes_mem' t), F.sparse, fun t => F.cols t (allTypes_mem' t)⟩, F.ed, ?_, ?_⟩
  · intro t j
    rw [← hsl]
    show slot s' t j = _
    unfold slot
    rw [(F.links t).1, (F.links t).2.1]
  · intro t h
    have := F.links t
    rw [takeLinks_ne o s h] at this
    exact this
  · intro t k
    rw [F.back t (allTypes_mem' t)]
    by_cases h : t = 5
    · subst h; rw [takeLinks_mesh]
    · rw [takeLinks_ne o s h]
  · have := F.links 5
    rw [takeLinks_mesh] at this
    exact this

/-- The copy constructor. -/
theorem copyMesh_spec {addr : Nat → Nat} {o : Sto V} (I : Inv zero o) (A : Addr addr o) (hM : slot o 5 0 ≠ none) :
    ∃ s, copyMesh zero addr o = some s ∧ Copied addr o s ∧ s.emptyDense = [] ∧
      (∀ t, t ≠ 5 → ∀ k, (s.ty t).back k = none) ∧
      (s.ty 5).nlinks = 1 ∧ (s.ty 5).links = upd (fun _ => none) 0 (some 0) ∧
      (s.ty 5).emptySpace = [] ∧ (s.ty 5).emptyLinks = [] := by
  obtain ⟨s1, e1, h1, h2, h3, h4, h5, h6, h7, h8, h9, h10, h11, h12⟩ := tie_mesh (zero := zero)
    (startTags zero addr o ⟨fun _ => TS.empty V, [], 0, fun _ => ⟨0, fun _ => zero 0 none⟩, [], false⟩) rfl rfl
  have hslot : ∀ j, slot s1 5 j = if j = 0 then some 0 else none := by
    intro j
    unfold slot
    rw [h5, h6]
    by_cases hj : j = 0
    · subst hj; rfl
    · rw [if_neg (by omega), if_neg hj]
  have hcol : ∀ t, ∀ τ ∈ o.tags, ∀ p, τ.colOf t = some p →
      (s1.dense p).n = 0 ∨ ∀ a, (s1.dense p).f a = zero τ.dtype τ.size := by
    intro t τ hτ p hp
    rw [h12]
    obtain ⟨nd, dist⟩ := tags_renamed (s := s1) I.D h1 A
    have h1' : s1.tags = o.tags.map (renamed addr) := h1
    have nd' : (o.tags.map (renamed addr)).Nodup := by rw [← h1']; exact nd
    by_cases h : t = 5
    · subst h
      right
      intro a
      have := foldCols_mem (t := 5) (g := fun τ c => c.resize zero τ 1) _ (fun _ => (⟨0, fun _ => zero 0 none⟩ : Col V))
        nd' (fun τ g1 σ g2 g3 g4 => (dist 5 5 p τ (by rw [h1']; exact g1) σ (by rw [h1']; exact g2) g3 g4).1)
        (τ := renamed addr τ) (List.mem_map.2 ⟨τ, hτ, rfl⟩) (p := p) hp
      have h2 := congrArg (fun c => Col.f c a) this
      exact h2.trans (resize_of 1 (.inl rfl) a)
    · left
      have := foldCols_other (t := 5) (p := p) (g := fun τ c => c.resize zero τ 1) (o.tags.map (renamed addr))
        (fun _ => (⟨0, fun _ => zero 0 none⟩ : Col V)) (fun σ hσ hc => by
          obtain ⟨σ0, g, rfl⟩ := List.mem_map.1 hσ
          exact h (I.D.dist τ hτ σ0 g t 5 p hp hc).2)
      exact congrArg Col.n this
  have hsp : ∀ t a, (s1.ty t).sparse a = [] := by
    intro t a
    by_cases h : t = 5
    · subst h; exact h10 a
    · rw [h11 t h]; rfl
  obtain ⟨s', e, C, g1, g2, g3, g4, g5, g6⟩ := fill_copied I A hM h1 h2 hslot hcol hsp
  refine ⟨{ s' with modified := o.modified }, ?_, C, g1.trans h3, ?_, g3.trans h5, g4.trans h6, g5.trans h7, g6.trans h8⟩
  · unfold copyMesh
    rw [e1]
    simp only
    rw [e]
  · intro t ht k
    show (s'.ty t).back k = none
    rw [g2, h11 t ht]
    rfl

/-- Reading in the copy. -/
theorem Copied.read {addr : Nat → Nat} {o s : Sto V} (C : Copied addr o s) (I : Inv zero o) (A : Addr addr o)
    {τ : TagRec} (hτ : τ ∈ o.tags) {t : ET} (hd : τ.defined t = true) {id : Nat} (ha : slot o t id ≠ none) :
    Storage.read s t id (addr τ.id) = if τ.flag t then some none else Storage.read o t id τ.id := by
  obtain ⟨a, ha⟩ := Option.ne_none_iff_exists'.1 ha
  have hb := I.D.bound t a ⟨id, ha⟩
  unfold Storage.read
  rw [C.slots, ha]
  simp only
  by_cases hfl : τ.flag t = true
  · rw [readAt_sparse (find_renamed I.D A C.tags hτ) hd hfl, if_pos hfl, C.nsparse]
    have : sparseOn o t = true := List.any_eq_true.2 ⟨τ, hτ, by simp [hd, hfl]⟩
    rw [if_pos this, if_pos hb, C.sparse]; rfl
  · obtain ⟨p, hp⟩ := I.col hτ hd (by simpa using hfl)
    rw [readAt_dense (find_renamed I.D A C.tags hτ) hp, readAt_dense (I.D.find hτ) hp, if_neg hfl, C.nd, C.cols t τ hτ p hp]

/-- Another array `back_links`. -/
def withBack (B : ET → Nat → Option Nat) (s : Sto V) : Sto V :=
  { s with ty := fun t => { s.ty t with back := B t } }

/-- The copy has all it needs but `back_links`. -/
theorem copy_inv {addr : Nat → Nat} {o s : Sto V} (I : Inv zero o) (A : Addr addr o)
    (C : Copied addr o s) (hed : s.emptyDense = []) (h1 : (s.ty 5).nlinks = 1)
    (h2 : (s.ty 5).links = upd (fun _ => none) 0 (some 0)) (h3 : (s.ty 5).emptySpace = [])
    (h4 : (s.ty 5).emptyLinks = []) : ∃ B, Inv zero (withBack B s) := by
  refine ⟨fun t => if t = 5 then upd (fun _ => none) 0 (some 0) else (o.ty t).back, ?_, ?_⟩
  · intro t
    by_cases h : t = 5
    · subst h
      have hocc : ((withBack (fun t => if t = 5 then upd (fun _ => none) 0 (some 0) else (o.ty t).back) s).ty 5).occupied
          = 1 := by
        show (s.ty 5).nlinks - (s.ty 5).emptyLinks.length + (s.ty 5).emptySpace.length = 1
        rw [h1, h3, h4]; rfl
      refine ⟨?_, ?_, ?_, ?_, ?_, ?_, ?_, ?_⟩
      · show (s.ty 5).emptyLinks.Nodup; rw [h4]; exact List.nodup_nil
      · intro i
        show i ∈ (s.ty 5).emptyLinks ↔ i < (s.ty 5).nlinks ∧ (s.ty 5).links i = none
        rw [h4, h1, h2]
        constructor
        · intro h; cases h
        · rintro ⟨h5, h6⟩
          have : i = 0 := by omega
          subst this; rw [upd_self] at h6; cases h6
      · show (s.ty 5).emptySpace.Nodup; rw [h3]; exact List.nodup_nil
      · intro a
        rw [hocc]
        show a ∈ (s.ty 5).emptySpace ↔ a < 1 ∧ upd (fun _ => none) 0 (some 0) a = none
        rw [h3]
        constructor
        · intro h; cases h
        · rintro ⟨h5, h6⟩
          have : a = 0 := by omega
          subst this; rw [upd_self] at h6; cases h6
      · intro i a hi hl
        rw [hocc]
        change i < (s.ty 5).nlinks at hi
        change (s.ty 5).links i = some a at hl
        rw [h1] at hi
        have : i = 0 := by omega
        subst this
        rw [h2, upd_self] at hl
        cases hl
        exact ⟨by decide, rfl⟩
      · intro a i hn hb
        change upd (fun _ => none) 0 (some 0) a = some i at hb
        show i < (s.ty 5).nlinks ∧ (s.ty 5).links i = some a
        rw [h1, h2]
        by_cases ha : a = 0
        · subst ha; rw [upd_self] at hb; cases hb; exact ⟨by decide, rfl⟩
        · rw [upd_ne _ _ ha] at hb; cases hb
      · show (s.ty 5).nback = _
        rw [C.nback, (I.L 5).cap, clamp_mesh, clamp_mesh]
      · intro _; rw [hocc]
    · obtain ⟨q1, q2, q3, q4⟩ := C.links t h
      have L := I.L t
      have hocc : ((withBack (fun t => if t = 5 then upd (fun _ => none) 0 (some 0) else (o.ty t).back) s).ty t).occupied
          = (o.ty t).occupied := by
        show (s.ty t).nlinks - (s.ty t).emptyLinks.length + (s.ty t).emptySpace.length = _
        rw [q1, q3, q4]; rfl
      have hb : ((withBack (fun t => if t = 5 then upd (fun _ => none) 0 (some 0) else (o.ty t).back) s).ty t).back
          = (o.ty t).back := by
        show (if t = 5 then _ else _) = _
        rw [if_neg h]
      refine ⟨?_, ?_, ?_, ?_, ?_, ?_, ?_, ?_⟩
      · show (s.ty t).emptyLinks.Nodup; rw [q4]; exact L.l1
      · intro i
        show i ∈ (s.ty t).emptyLinks ↔ i < (s.ty t).nlinks ∧ (s.ty t).links i = none
        rw [q4, q1, q2]; exact L.l2 i
      · show (s.ty t).emptySpace.Nodup; rw [q3]; exact L.s1
      · intro a
        rw [hocc, hb]
        show a ∈ (s.ty t).emptySpace ↔ _
        rw [q3]; exact L.s2 a
      · intro i a hi hl
        rw [hocc, hb]
        change i < (s.ty t).nlinks at hi
        change (s.ty t).links i = some a at hl
        rw [q1] at hi; rw [q2] at hl
        exact L.b1 i a hi hl
      · intro a i hn hba
        rw [hb] at hba
        change a < (s.ty t).nback at hn
        rw [C.nback] at hn
        show i < (s.ty t).nlinks ∧ (s.ty t).links i = some a
        rw [q1, q2]; exact L.b2 a i hn hba
      · show (s.ty t).nback = clampSize t (physical (TS.occupied _))
        rw [hocc, C.nback]; exact L.cap
      · intro h5; exact absurd h5 h
  · have D := I.D
    have hlive : ∀ t a, liveS (withBack (fun t => if t = 5 then upd (fun _ => none) 0 (some 0) else (o.ty t).back) s) t a ↔
        liveS o t a := by
      intro t a
      unfold liveS
      exact exists_congr fun j => by rw [← C.slots]; rfl
    have hmem : ∀ τ ∈ (withBack (fun t => if t = 5 then upd (fun _ => none) 0 (some 0) else (o.ty t).back) s).tags,
        ∃ σ ∈ o.tags, τ = renamed addr σ := by
      intro τ hτ
      change τ ∈ s.tags at hτ
      rw [C.tags] at hτ
      obtain ⟨σ, h1, h2⟩ := List.mem_map.1 hτ
      exact ⟨σ, h1, h2.symm⟩
    refine ⟨?_, ?_, ?_, ?_, ?_, ?_, ?_, ?_, ?_, ?_, ?_, ?_, ?_, ?_⟩
    · show (s.tags.map (·.id)).Nodup
      rw [C.tags, List.map_map]
      have h1 : o.tags.map ((·.id) ∘ renamed addr) = (o.tags.map (·.id)).map addr := by
        rw [List.map_map]; rfl
      rw [h1]
      refine List.Nodup.map_on ?_ D.ids
      intro x hx y hy e
      obtain ⟨τ, h1, rfl⟩ := List.mem_map.1 hx
      obtain ⟨σ, h2, rfl⟩ := List.mem_map.1 hy
      exact A.inj τ h1 σ h2 e
    · show (s.tags.map (·.name)).Nodup
      rw [C.tags, List.map_map]; exact D.names
    · intro τ hτ t hf
      obtain ⟨σ, h, rfl⟩ := hmem τ hτ
      exact D.flagged σ h t hf
    · intro τ hτ t hf
      obtain ⟨σ, h, rfl⟩ := hmem τ hτ
      exact D.unflagged σ h t hf
    · intro τ hτ t p hp
      obtain ⟨σ, h, rfl⟩ := hmem τ hτ
      show p < s.ndense ∧ p ∉ s.emptyDense
      rw [C.nd, hed]
      exact ⟨(D.colLt σ h t p hp).1, by simp⟩
    · intro τ hτ t p hp
      obtain ⟨σ, h, rfl⟩ := hmem τ hτ
      show (s.dense p).n = (s.ty t).nback
      rw [C.cols t σ h p hp, C.nback]; exact D.colSize σ h t p hp
    · intro τ hτ t p hp a ha
      obtain ⟨σ, h, rfl⟩ := hmem τ hτ
      show (s.dense p).f a = _
      rw [C.cols t σ h p hp]
      exact D.colZero σ h t p hp a (fun x => ha ((hlive t a).2 x))
    · intro τ hτ σ hσ t u p hp hq
      obtain ⟨τ0, h, rfl⟩ := hmem τ hτ
      obtain ⟨σ0, h', rfl⟩ := hmem σ hσ
      obtain ⟨e1, e2⟩ := D.dist τ0 h σ0 h' t u p hp hq
      rw [e1]; exact ⟨rfl, e2⟩
    · show s.emptyDense.Nodup ∧ ∀ p ∈ s.emptyDense, _
      rw [hed]; exact ⟨List.nodup_nil, nofun⟩
    · intro t
      show (s.ty t).nsparse = 0 ∨ (s.ty t).nsparse = (s.ty t).nback
      rw [C.nsparse, C.nback]
      split
      · exact .inr rfl
      · exact .inl rfl
    · intro τ hτ t hd hf
      obtain ⟨σ, h, rfl⟩ := hmem τ hτ
      show (s.ty t).nsparse = (s.ty t).nback
      rw [C.nsparse, C.nback]
      have hd' : σ.defined t = true := hd
      have hf' : σ.flag t = true := hf
      have : sparseOn o t = true := List.any_eq_true.2 ⟨σ, h, by simp [hd', hf']⟩
      rw [if_pos this]
    · intro t a r hr
      change r ∈ (s.ty t).sparse a at hr
      rw [C.sparse] at hr; cases hr
    · intro t a
      show (((s.ty t).sparse a).map (·.1)).Nodup
      rw [C.sparse]; exact List.nodup_nil
    · intro t a ha
      show a < (s.ty t).nback
      rw [C.nback]
      exact D.bound t a ((hlive t a).1 ha)

end Verif.Copy
