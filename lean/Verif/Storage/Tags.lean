import Verif.Storage.Cells

/-! # Creation and deletion of tags -/

namespace Verif.Storage

variable {V : Type} {zero : Nat → Option Nat → V}

/-! ## Updating one tag of the list -/

/-- Applying `F` to the tag with address `i`. -/
def mapTag (i : Nat) (F : TagRec → TagRec) (l : List TagRec) : List TagRec :=
  l.map fun σ => if σ.id = i then F σ else σ

theorem mapTag_map {β : Type} (f : TagRec → β) {i : Nat} {F : TagRec → TagRec}
    (hF : ∀ σ, f (F σ) = f σ) (l : List TagRec) : (mapTag i F l).map f = l.map f := by
  unfold mapTag
  rw [List.map_map]
  apply List.map_congr_left
  intro σ _
  simp only [Function.comp]
  split
  · exact hF σ
  · rfl

theorem mem_mapTag {i : Nat} {F : TagRec → TagRec} {l : List TagRec} {σ : TagRec} :
    σ ∈ mapTag i F l ↔ (∃ τ ∈ l, τ.id = i ∧ σ = F τ) ∨ (σ ∈ l ∧ σ.id ≠ i) := by
  unfold mapTag
  rw [List.mem_map]
  constructor
  · rintro ⟨τ, h1, rfl⟩
    split
    · next h => exact Or.inl ⟨τ, h1, h, rfl⟩
    · next h => exact Or.inr ⟨h1, h⟩
  · rintro (⟨τ, h1, h2, rfl⟩ | ⟨h1, h2⟩)
    · exact ⟨τ, h1, by rw [if_pos h2]⟩
    · exact ⟨σ, h1, by rw [if_neg h2]⟩

theorem find_mapTag {i : Nat} {F : TagRec → TagRec} (hF : ∀ σ, (F σ).id = σ.id)
    (l : List TagRec) (k : Nat) :
    (mapTag i F l).find? (fun σ => σ.id = k) =
      if k = i then (l.find? (fun σ => σ.id = k)).map F else l.find? (fun σ => σ.id = k) := by
  induction l with
  | nil => simp [mapTag]
  | cons τ rest ih =>
    have e : mapTag i F (τ :: rest) = (if τ.id = i then F τ else τ) :: mapTag i F rest := rfl
    rw [e]
    by_cases h1 : τ.id = k
    · subst h1
      by_cases h2 : τ.id = i
      · rw [if_pos h2, if_pos h2, List.find?_cons_of_pos (by simp [hF]),
          List.find?_cons_of_pos (by simp)]
        rfl
      · rw [if_neg h2, if_neg h2, List.find?_cons_of_pos (by simp),
          List.find?_cons_of_pos (by simp)]
    · rw [List.find?_cons_of_neg, ih, List.find?_cons_of_neg (by simpa using h1)]
      split
      · simpa [hF] using h1
      · simpa using h1

theorem mem_unique {s : Sto V} {live} (D : DInv zero s live) {i : Nat} {τ σ : TagRec}
    (hf : findTag s i = some τ) (h1 : σ ∈ s.tags) (h2 : σ.id = i) : σ = τ := by
  have := D.find h1
  rw [h2, hf] at this
  cases this; rfl

/-! ## Creation on one type -/

/-- Old tags keep everything: what `CreateTag` on one type guarantees. -/
structure Created (zero : Nat → Option Nat → V) (s s' : Sto V) (i : Nat) (new : ET → Prop)
    (sparse : ET → Bool) : Prop where
  ty : ∀ u, (s'.ty u).nlinks = (s.ty u).nlinks ∧ (s'.ty u).links = (s.ty u).links
  modified : s'.modified = s.modified
  tag : ∀ τ, findTag s i = some τ → ∃ τ', findTag s' i = some τ' ∧ τ'.name = τ.name ∧
    τ'.dtype = τ.dtype ∧ τ'.size = τ.size ∧
    (∀ u, new u → τ'.defined u = true ∧ τ'.flag u = sparse u) ∧
    ∀ u, ¬ new u → τ'.pos u = τ.pos u ∧ τ'.flag u = τ.flag u
  names : s'.tags.map (·.name) = s.tags.map (·.name)
  others : ∀ k, k ≠ i → findTag s' k = findTag s k
  reads : ∀ u a k, liveS s u a → (k ≠ i ∨ ¬ new u) → readAt s' u a k = readAt s u a k
  fresh : ∀ u a τ, findTag s i = some τ → liveS s u a → new u →
    readAt s' u a i = some (if sparse u then none else some (zero τ.dtype τ.size))

theorem slot_ty {s s' : Sto V}
    (h : ∀ u, (s'.ty u).nlinks = (s.ty u).nlinks ∧ (s'.ty u).links = (s.ty u).links) :
    ∀ u j, slot s' u j = slot s u j := by
  intro u j; unfold slot; rw [(h u).1, (h u).2]

theorem liveS_ty {s s' : Sto V}
    (h : ∀ u, (s'.ty u).nlinks = (s.ty u).nlinks ∧ (s'.ty u).links = (s.ty u).links) :
    liveS s' = liveS s := by
  funext u a; unfold liveS; simp only [slot_ty h]

theorem newCol_spec {s : Sto V} {live} (D : DInv zero s live) :
    (∀ τ ∈ s.tags, ∀ t p, τ.colOf t = some p → p ≠ newCol s) ∧
    newCol s < (if s.emptyDense = [] then s.ndense + 1 else s.ndense) ∧
    newCol s ∉ s.emptyDense.tail := by
  unfold newCol
  cases h : s.emptyDense with
  | nil =>
    refine ⟨fun τ hτ t p hp => ?_, by simp, by simp⟩
    have := (D.colLt τ hτ t p hp).1
    simp only
    omega
  | cons q rest =>
    have hed := D.ed
    rw [h] at hed
    rw [List.nodup_cons] at hed
    refine ⟨fun τ hτ t p hp => ?_, ?_, hed.1.1⟩
    · have := (D.colLt τ hτ t p hp).2
      rw [h] at this
      rintro rfl
      exact this (by simp)
    · have := hed.2 q (by simp)
      simp only [reduceCtorEq, if_false]
      exact this

theorem createOn_spec {s : Sto V} (D : DInv zero s (liveS s)) (hcap : ∀ t, LInv t (s.ty t))
    {i : Nat} {t : ET} {sp : Bool} {τ : TagRec} (hf : findTag s i = some τ)
    (hpre : τ.pos t = .undef → if sp then (s.ty t).nsparse = (s.ty t).nback
      else τ.flag t = false) :
    (createOn zero s i t sp).ty = s.ty ∧
    DInv zero (createOn zero s i t sp) (liveS s) ∧
    Created zero s (createOn zero s i t sp) i (fun u => u = t ∧ τ.pos t = .undef) (fun _ => sp) := by
  obtain ⟨hm, hi⟩ := find_mem hf
  have hdef0 : (if τ.pos t ≠ .undef then s else s) = s := by split <;> rfl
  by_cases hu : τ.pos t = .undef
  swap
  · have e : createOn zero s i t sp = s := by
      unfold createOn; rw [hf]; simp only; rw [if_pos hu]
    rw [e]
    refine ⟨rfl, D, fun _ => ⟨rfl, rfl⟩, rfl, ?_, rfl, fun _ _ => rfl, fun _ _ _ _ _ => rfl, ?_⟩
    · intro τ' h'
      exact ⟨τ', h', rfl, rfl, rfl, fun u h => absurd h.2 hu, fun u _ => ⟨rfl, rfl⟩⟩
    · intro u a _ _ _ h; exact absurd h.2 hu
  have hpre := hpre hu
  have hundef : ∀ k, τ.colOf t ≠ some k := by
    intro k h; rw [(colOf_some.1 h).2] at hu; cases hu
  cases sp with
  | true =>
    simp only [if_true] at hpre
    let F : TagRec → TagRec := fun σ => { σ with pos := upd σ.pos t .sparse, flag := upd σ.flag t true }
    have e : createOn zero s i t true = { s with tags := mapTag i F s.tags } := by
      unfold createOn; rw [hf]; simp only [hu]; rfl
    rw [e]
    let s' : Sto V := { s with tags := mapTag i F s.tags }
    have hfind : ∀ k, findTag s' k = if k = i then (findTag s k).map F else findTag s k :=
      fun k => find_mapTag (F := F) (fun _ => rfl) _ k
    have hFpos : ∀ σ u, u ≠ t → (F σ).pos u = σ.pos u ∧ (F σ).flag u = σ.flag u :=
      fun σ u h => ⟨upd_ne _ _ h, upd_ne _ _ h⟩
    have hFt : ∀ σ, (F σ).pos t = .sparse ∧ (F σ).flag t = true :=
      fun σ => ⟨upd_self _ _ _, upd_self _ _ _⟩
    have hFcol : ∀ u p, (F τ).colOf u = some p ↔ τ.colOf u = some p := by
      intro u p
      by_cases h : u = t
      · subst h
        constructor
        · intro h; rw [colOf_some, (hFt τ).2] at h; simp at h
        · intro h; exact absurd h (hundef p)
      · rw [colOf_some, colOf_some, (hFpos τ u h).1, (hFpos τ u h).2]
    have hmem : ∀ σ, σ ∈ mapTag i F s.tags ↔ σ = F τ ∨ (σ ∈ s.tags ∧ σ.id ≠ i) := by
      intro σ
      rw [mem_mapTag]
      constructor
      · rintro (⟨ρ, h1, h2, rfl⟩ | h)
        · rw [mem_unique D hf h1 h2]; exact Or.inl rfl
        · exact Or.inr h
      · rintro (rfl | h)
        · exact Or.inl ⟨τ, hm, hi, rfl⟩
        · exact Or.inr h
    have hFdef : ∀ u, (F τ).defined u = true → u ≠ t → τ.defined u = true := by
      intro u h h2
      unfold TagRec.defined at *
      rw [(hFpos τ u h2).1] at h; exact h
    refine ⟨rfl, ⟨?_, ?_, ?_, ?_, ?_, ?_, ?_, ?_, D.ed, D.sp, ?_, ?_, D.spKeys, D.bound⟩,
      fun _ => ⟨rfl, rfl⟩, rfl, ?_, ?_, ?_, ?_, ?_⟩
    · show ((mapTag i F s.tags).map _).Nodup
      rw [mapTag_map (·.id) (F := F) (fun _ => rfl)]; exact D.ids
    · show ((mapTag i F s.tags).map _).Nodup
      rw [mapTag_map (·.name) (F := F) (fun _ => rfl)]; exact D.names
    · intro σ hσ u hfl
      rcases (hmem σ).1 hσ with rfl | ⟨h, _⟩
      · by_cases h : u = t
        · subst h; exact Or.inr (hFt τ).1
        · rw [(hFpos τ u h).1]; rw [(hFpos τ u h).2] at hfl; exact D.flagged τ hm u hfl
      · exact D.flagged σ h u hfl
    · intro σ hσ u hfl
      rcases (hmem σ).1 hσ with rfl | ⟨h, _⟩
      · by_cases h : u = t
        · subst h; rw [(hFt τ).2] at hfl; cases hfl
        · rw [(hFpos τ u h).1]; rw [(hFpos τ u h).2] at hfl; exact D.unflagged τ hm u hfl
      · exact D.unflagged σ h u hfl
    · intro σ hσ u p hp
      rcases (hmem σ).1 hσ with rfl | ⟨h, _⟩
      · exact D.colLt τ hm u p ((hFcol u p).1 hp)
      · exact D.colLt σ h u p hp
    · intro σ hσ u p hp
      rcases (hmem σ).1 hσ with rfl | ⟨h, _⟩
      · exact D.colSize τ hm u p ((hFcol u p).1 hp)
      · exact D.colSize σ h u p hp
    · intro σ hσ u p hp
      rcases (hmem σ).1 hσ with rfl | ⟨h, _⟩
      · exact D.colZero τ hm u p ((hFcol u p).1 hp)
      · exact D.colZero σ h u p hp
    · intro σ hσ ρ hρ u w p h1 h2
      rcases (hmem σ).1 hσ with rfl | ⟨h3, h4⟩ <;> rcases (hmem ρ).1 hρ with rfl | ⟨h5, h6⟩
      · exact ⟨rfl, (D.dist τ hm τ hm u w p ((hFcol u p).1 h1) ((hFcol w p).1 h2)).2⟩
      · have := (D.dist τ hm ρ h5 u w p ((hFcol u p).1 h1) h2).1
        rw [← this] at h6; exact absurd hi h6
      · have := (D.dist σ h3 τ hm u w p h1 ((hFcol w p).1 h2)).1
        rw [this] at h4; exact absurd hi h4
      · exact D.dist σ h3 ρ h5 u w p h1 h2
    · intro σ hσ u hd hfl
      rcases (hmem σ).1 hσ with rfl | ⟨h, _⟩
      · by_cases h : u = t
        · subst h; exact hpre
        · rw [(hFpos τ u h).2] at hfl
          exact D.spNeed τ hm u (hFdef u hd h) hfl
      · exact D.spNeed σ h u hd hfl
    · intro u a r hr
      obtain ⟨h1, σ, h2, h3, h4, h5⟩ := D.spTag u a r hr
      refine ⟨h1, ?_⟩
      by_cases h : σ.id = i
      · have := mem_unique D hf h2 h
        subst this
        have hut : u ≠ t := by
          rintro rfl; rw [TagRec.defined, hu] at h4; simp at h4
        refine ⟨F σ, (hmem _).2 (Or.inl rfl), h3, ?_, ?_⟩
        · unfold TagRec.defined at *; rw [(hFpos σ u hut).1]; exact h4
        · rw [(hFpos σ u hut).2]; exact h5
      · exact ⟨σ, (hmem _).2 (Or.inr ⟨h2, h⟩), h3, h4, h5⟩
    · intro τ' h'
      rw [hf] at h'; cases h'
      refine ⟨F τ, by rw [show findTag _ i = findTag s' i from rfl, hfind, if_pos rfl, hf]; rfl,
        rfl, rfl, rfl, ?_, ?_⟩
      · rintro u ⟨rfl, _⟩
        exact ⟨by unfold TagRec.defined; rw [(hFt τ).1]; rfl, (hFt τ).2⟩
      · intro u h
        exact hFpos τ u (fun e => h ⟨e, hu⟩)
    · exact mapTag_map (·.name) (F := F) (fun _ => rfl) _
    · intro k hk
      rw [show findTag _ k = findTag s' k from rfl, hfind, if_neg hk]
    · intro u a k hl hk
      show readAt s' u a k = _
      unfold readAt
      rw [hfind]
      by_cases h : k = i
      · subst h
        rw [if_pos rfl, hf]
        have hut : u ≠ t := fun e => hk.elim (fun h => h rfl) (fun h => h ⟨e, hu⟩)
        simp only [Option.map_some]
        have hdd : (F τ).defined u = τ.defined u := by
          unfold TagRec.defined; rw [(hFpos τ u hut).1]
        rw [hdd, (hFpos τ u hut).1, (hFpos τ u hut).2]
      · rw [if_neg h]
    · rintro u a τ' h' hl ⟨rfl, _⟩
      have hb := D.bound u a hl
      show readAt s' u a i = _
      rw [readAt_sparse (s := s') (τ := F τ) (by rw [hfind, if_pos rfl, hf]; rfl)
        (by unfold TagRec.defined; rw [(hFt τ).1]; rfl) (hFt τ).2]
      rw [if_pos (show a < (s.ty u).nsparse by omega), if_pos rfl]
      rw [getRec_none]
      intro r hr e
      obtain ⟨h1, σ, h2, h3, h4, h5⟩ := D.spTag u a r hr
      have := mem_unique D hf h2 (h3.trans e)
      subst this
      rw [TagRec.defined, hu] at h4; simp at h4
  | false =>
    simp only [Bool.false_eq_true, if_false] at hpre
    obtain ⟨c1, c2, c3⟩ := newCol_spec D
    generalize hP : newCol s = P at *
    let F : TagRec → TagRec := fun σ => { σ with pos := upd σ.pos t (.col P) }
    let C : Col V := (⟨0, fun _ => zero τ.dtype τ.size⟩ : Col V).resize zero τ
      (clampSize t (s.ty t).capacity)
    let s' : Sto V := { s with
        tags := mapTag i F s.tags
        dense := upd s.dense P C
        ndense := if s.emptyDense = [] then s.ndense + 1 else s.ndense
        emptyDense := s.emptyDense.tail }
    have e : createOn zero s i t false = s' := by
      unfold createOn; rw [hf]; simp only [hu, hP]; rfl
    rw [e]
    have hCn : C.n = (s.ty t).nback := by
      rw [(hcap t).cap]; rfl
    have hCf : ∀ a, C.f a = zero τ.dtype τ.size := fun a => resize_zero rfl
    have hdP : s'.dense P = C := upd_self _ _ _
    have hdne : ∀ q, q ≠ P → s'.dense q = s.dense q := fun q hq => upd_ne _ _ hq
    have hnd : s.ndense ≤ s'.ndense := by
      show s.ndense ≤ if s.emptyDense = [] then s.ndense + 1 else s.ndense
      split <;> omega
    have hfind : ∀ k, findTag s' k = if k = i then (findTag s k).map F else findTag s k :=
      fun k => find_mapTag (F := F) (fun _ => rfl) _ k
    have hFpos : ∀ σ u, u ≠ t → (F σ).pos u = σ.pos u :=
      fun σ u h => upd_ne _ _ h
    have hFt : ∀ σ, (F σ).pos t = .col P := fun σ => upd_self _ _ _
    have hFcol : ∀ u p, (F τ).colOf u = some p ↔ (u = t ∧ p = P) ∨ (u ≠ t ∧ τ.colOf u = some p) := by
      intro u p
      by_cases h : u = t
      · subst h
        rw [colOf_some, hFt]
        show τ.flag u = false ∧ _ ↔ _
        rw [hpre]
        simp [eq_comm]
      · rw [colOf_some, colOf_some, hFpos τ u h]
        simp [h, F]
    have hmem : ∀ σ, σ ∈ mapTag i F s.tags ↔ σ = F τ ∨ (σ ∈ s.tags ∧ σ.id ≠ i) := by
      intro σ
      rw [mem_mapTag]
      constructor
      · rintro (⟨ρ, h1, h2, rfl⟩ | h)
        · rw [mem_unique D hf h1 h2]; exact Or.inl rfl
        · exact Or.inr h
      · rintro (rfl | h)
        · exact Or.inl ⟨τ, hm, hi, rfl⟩
        · exact Or.inr h
    have hFdef : ∀ u, (F τ).defined u = true → u ≠ t → τ.defined u = true := by
      intro u h h2
      unfold TagRec.defined at *
      rw [hFpos τ u h2] at h; exact h
    have hold : ∀ σ ∈ s.tags, ∀ u p, σ.colOf u = some p → p < s'.ndense ∧ p ∉ s'.emptyDense := by
      intro σ hσ u p hp
      obtain ⟨h1, h2⟩ := D.colLt σ hσ u p hp
      exact ⟨by omega, fun h => h2 (List.mem_of_mem_tail h)⟩
    have hFfl : ∀ σ, (F σ).flag = σ.flag := fun _ => rfl
    refine ⟨rfl, ⟨?_, ?_, ?_, ?_, ?_, ?_, ?_, ?_, ?_, D.sp, ?_, ?_, D.spKeys, D.bound⟩,
      fun _ => ⟨rfl, rfl⟩, rfl, ?_, ?_, ?_, ?_, ?_⟩
    · show ((mapTag i F s.tags).map _).Nodup
      rw [mapTag_map (·.id) (F := F) (fun _ => rfl)]; exact D.ids
    · show ((mapTag i F s.tags).map _).Nodup
      rw [mapTag_map (·.name) (F := F) (fun _ => rfl)]; exact D.names
    · intro σ hσ u hfl
      rcases (hmem σ).1 hσ with rfl | ⟨h, _⟩
      · rw [hFfl] at hfl
        by_cases h : u = t
        · subst h; rw [hpre] at hfl; cases hfl
        · rw [hFpos τ u h]; exact D.flagged τ hm u hfl
      · exact D.flagged σ h u hfl
    · intro σ hσ u hfl
      rcases (hmem σ).1 hσ with rfl | ⟨h, _⟩
      · by_cases h : u = t
        · subst h; rw [hFt]; simp
        · rw [hFpos τ u h]; exact D.unflagged τ hm u hfl
      · exact D.unflagged σ h u hfl
    · intro σ hσ u p hp
      rcases (hmem σ).1 hσ with rfl | ⟨h, _⟩
      · rcases (hFcol u p).1 hp with ⟨_, rfl⟩ | ⟨_, h⟩
        · exact ⟨c2, c3⟩
        · exact hold τ hm u p h
      · exact hold σ h u p hp
    · intro σ hσ u p hp
      rcases (hmem σ).1 hσ with rfl | ⟨h, _⟩
      · rcases (hFcol u p).1 hp with ⟨rfl, rfl⟩ | ⟨_, h⟩
        · rw [hdP]; exact hCn
        · rw [hdne p (c1 τ hm u p h)]; exact D.colSize τ hm u p h
      · rw [hdne p (c1 σ h u p hp)]; exact D.colSize σ h u p hp
    · intro σ hσ u p hp a ha
      rcases (hmem σ).1 hσ with rfl | ⟨h, _⟩
      · rcases (hFcol u p).1 hp with ⟨rfl, rfl⟩ | ⟨_, h⟩
        · rw [hdP]; exact hCf a
        · rw [hdne p (c1 τ hm u p h)]; exact D.colZero τ hm u p h a ha
      · rw [hdne p (c1 σ h u p hp)]; exact D.colZero σ h u p hp a ha
    · intro σ hσ ρ hρ u w p h1 h2
      rcases (hmem σ).1 hσ with rfl | ⟨h3, h4⟩ <;> rcases (hmem ρ).1 hρ with rfl | ⟨h5, h6⟩
      · rcases (hFcol u p).1 h1 with ⟨rfl, rfl⟩ | ⟨_, h7⟩ <;>
          rcases (hFcol w p).1 h2 with ⟨rfl, h8⟩ | ⟨_, h8⟩
        · exact ⟨rfl, rfl⟩
        · exact absurd rfl (c1 τ hm w p h8)
        · exact absurd h8 (c1 τ hm u p h7)
        · exact ⟨rfl, (D.dist τ hm τ hm u w p h7 h8).2⟩
      · rcases (hFcol u p).1 h1 with ⟨rfl, rfl⟩ | ⟨_, h7⟩
        · exact absurd rfl (c1 ρ h5 w p h2)
        · have := (D.dist τ hm ρ h5 u w p h7 h2).1
          rw [← this] at h6; exact absurd hi h6
      · rcases (hFcol w p).1 h2 with ⟨rfl, rfl⟩ | ⟨_, h7⟩
        · exact absurd rfl (c1 σ h3 u p h1)
        · have := (D.dist σ h3 τ hm u w p h1 h7).1
          rw [this] at h4; exact absurd hi h4
      · exact D.dist σ h3 ρ h5 u w p h1 h2
    · exact ⟨D.ed.1.sublist (List.tail_sublist _), fun p hp => by
        have := D.ed.2 p (List.mem_of_mem_tail hp); omega⟩
    · intro σ hσ u hd hfl
      rcases (hmem σ).1 hσ with rfl | ⟨h, _⟩
      · rw [hFfl] at hfl
        by_cases h : u = t
        · subst h; rw [hpre] at hfl; cases hfl
        · exact D.spNeed τ hm u (hFdef u hd h) hfl
      · exact D.spNeed σ h u hd hfl
    · intro u a r hr
      obtain ⟨h1, σ, h2, h3, h4, h5⟩ := D.spTag u a r hr
      refine ⟨h1, ?_⟩
      by_cases h : σ.id = i
      · have := mem_unique D hf h2 h
        subst this
        have hut : u ≠ t := by
          rintro rfl; rw [TagRec.defined, hu] at h4; simp at h4
        refine ⟨F σ, (hmem _).2 (Or.inl rfl), h3, ?_, h5⟩
        unfold TagRec.defined at *; rw [hFpos σ u hut]; exact h4
      · exact ⟨σ, (hmem _).2 (Or.inr ⟨h2, h⟩), h3, h4, h5⟩
    · intro τ' h'
      rw [hf] at h'; cases h'
      refine ⟨F τ, by rw [hfind, if_pos rfl, hf]; rfl, rfl, rfl, rfl, ?_, ?_⟩
      · rintro u ⟨rfl, _⟩
        exact ⟨by unfold TagRec.defined; rw [hFt τ]; rfl, hpre⟩
      · intro u h
        exact ⟨hFpos τ u (fun e => h ⟨e, hu⟩), rfl⟩
    · exact mapTag_map (·.name) (F := F) (fun _ => rfl) _
    · intro k hk
      rw [hfind, if_neg hk]
    · intro u a k hl hk
      unfold readAt
      rw [hfind]
      have hcell : ∀ σ ∈ s.tags, ∀ p, σ.colOf u = some p →
          (if p < s'.ndense ∧ a < (s'.dense p).n then some (some ((s'.dense p).f a)) else none) =
          (if p < s.ndense ∧ a < (s.dense p).n then some (some ((s.dense p).f a)) else none) := by
        intro σ hσ p hp
        have h1 := (D.colLt σ hσ u p hp).1
        rw [hdne p (c1 σ hσ u p hp)]
        have h2 : p < s'.ndense := by omega
        simp [h1, h2]
      by_cases h : k = i
      · subst h
        rw [if_pos rfl, hf]
        have hut : u ≠ t := fun e => hk.elim (fun h => h rfl) (fun h => h ⟨e, hu⟩)
        simp only [Option.map_some]
        have hdd : (F τ).defined u = τ.defined u := by
          unfold TagRec.defined; rw [hFpos τ u hut]
        rw [hdd, hFpos τ u hut, hFfl]
        by_cases hfl : τ.flag u = true
        · simp [hfl]; rfl
        · cases hp : τ.pos u with
          | undef => rfl
          | sparse => rfl
          | col p =>
            simp only [hfl]
            rw [hcell τ hm p (colOf_some.2 ⟨by simpa using hfl, hp⟩)]
      · rw [if_neg h]
        cases hσ : findTag s k with
        | none => rfl
        | some σ =>
          simp only
          by_cases hfl : σ.flag u = true
          · simp [hfl]; rfl
          · cases hp : σ.pos u with
            | undef => rfl
            | sparse => rfl
            | col p =>
              simp only [hfl]
              rw [hcell σ (find_mem hσ).1 p (colOf_some.2 ⟨by simpa using hfl, hp⟩)]
    · rintro u a τ' h' hl ⟨rfl, _⟩
      rw [hf] at h'; cases h'
      have hb := D.bound u a hl
      rw [readAt_dense (s := s') (τ := F τ) (p := P) (by rw [hfind, if_pos rfl, hf]; rfl)
        ((hFcol u P).2 (Or.inl ⟨rfl, rfl⟩)), hdP, hCf]
      rw [if_pos ⟨c2, by omega⟩]
      rfl

end Verif.Storage
