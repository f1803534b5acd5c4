import Verif.Storage.Model
import Mathlib.Data.Finset.Card
import Mathlib.Data.Finset.Range
import Mathlib.Data.List.Nodup

/-! # Lemmas on storage -/

namespace Verif.Storage

variable {V : Type} {zero : Nat → Option Nat → V}

theorem upd_self {α β : Type} [DecidableEq α] (f : α → β) (a : α) (b : β) : upd f a b a = b := by
  simp [upd]

theorem upd_ne {α β : Type} [DecidableEq α] (f : α → β) {a x : α} (b : β) (h : x ≠ a) :
    upd f a b x = f x := by simp [upd, h]

theorem le_physical (n : Nat) : n ≤ physical n := by
  unfold physical chunkElems
  split <;> omega

theorem le_clamp (t : ET) (n : Nat) (h : t = 5 → n ≤ 1) : n ≤ clampSize t n := by
  unfold clampSize
  split
  · next e => exact h e
  · split <;> omega

theorem clamp_pos (t : ET) (n : Nat) : 0 < clampSize t n := by
  unfold clampSize
  split
  · omega
  · split <;> omega

/-! ## Folds over columns -/

section fold
variable {t : ET} {g : TagRec → Col V → Col V} {p : Nat}

theorem foldCols_other (tags : List TagRec) (D : Nat → Col V)
    (h : ∀ τ ∈ tags, τ.colOf t ≠ some p) : foldCols t g tags D p = D p := by
  induction tags generalizing D with
  | nil => rfl
  | cons σ rest ih =>
    have h1 := h σ (by simp)
    show foldCols t g rest _ p = D p
    rw [ih _ (fun τ hτ => h τ (by simp [hτ]))]
    cases e : σ.colOf t with
    | none => simp only [e]
    | some q =>
      simp only [e]
      rw [upd_ne]
      rintro rfl
      exact h1 e

theorem foldCols_mem (tags : List TagRec) (D : Nat → Col V) (hn : tags.Nodup)
    (hd : ∀ τ ∈ tags, ∀ σ ∈ tags, τ.colOf t = some p → σ.colOf t = some p → τ = σ)
    {τ : TagRec} (hτ : τ ∈ tags) (hc : τ.colOf t = some p) :
    foldCols t g tags D p = g τ (D p) := by
  induction tags generalizing D with
  | nil => simp at hτ
  | cons σ rest ih =>
    rw [List.nodup_cons] at hn
    by_cases e : σ = τ
    · subst e
      show foldCols t g rest _ p = _
      rw [foldCols_other]
      · simp only [hc]; rw [upd_self]
      · intro ρ hρ hcρ
        have := hd σ (by simp) ρ (by simp [hρ]) hc hcρ
        subst this
        exact hn.1 hρ
    · have hm : τ ∈ rest := by
        rcases List.mem_cons.1 hτ with h | h
        · exact absurd h.symm e
        · exact h
      show foldCols t g rest _ p = _
      rw [ih _ hn.2 (fun a ha b hb => hd a (by simp [ha]) b (by simp [hb])) hm]
      cases e2 : σ.colOf t with
      | none => simp only [e2]
      | some q =>
        simp only [e2]
        rw [upd_ne]
        rintro rfl
        exact e (hd σ (by simp) τ hτ e2 hc)

end fold

/-! ## The data invariant -/

/-- Consistency of data storage, for a given set `live t` of slots in use. -/
structure DInv (zero : Nat → Option Nat → V) (s : Sto V) (live : ET → Nat → Prop) : Prop where
  ids : (s.tags.map (·.id)).Nodup
  names : (s.tags.map (·.name)).Nodup
  flagged : ∀ τ ∈ s.tags, ∀ t, τ.flag t = true → τ.pos t = .undef ∨ τ.pos t = .sparse
  unflagged : ∀ τ ∈ s.tags, ∀ t, τ.flag t = false → τ.pos t ≠ .sparse
  colLt : ∀ τ ∈ s.tags, ∀ t p, τ.colOf t = some p → p < s.ndense ∧ p ∉ s.emptyDense
  colSize : ∀ τ ∈ s.tags, ∀ t p, τ.colOf t = some p → (s.dense p).n = (s.ty t).nback
  colZero : ∀ τ ∈ s.tags, ∀ t p, τ.colOf t = some p → ∀ a, ¬ live t a →
    (s.dense p).f a = zero τ.dtype τ.size
  dist : ∀ τ ∈ s.tags, ∀ σ ∈ s.tags, ∀ t u p, τ.colOf t = some p → σ.colOf u = some p →
    τ = σ ∧ t = u
  ed : s.emptyDense.Nodup ∧ ∀ p ∈ s.emptyDense, p < s.ndense
  sp : ∀ t, (s.ty t).nsparse = 0 ∨ (s.ty t).nsparse = (s.ty t).nback
  spNeed : ∀ τ ∈ s.tags, ∀ t, τ.defined t = true → τ.flag t = true →
    (s.ty t).nsparse = (s.ty t).nback
  spTag : ∀ t a, ∀ r ∈ (s.ty t).sparse a, live t a ∧
    ∃ τ ∈ s.tags, τ.id = r.1 ∧ τ.defined t = true ∧ τ.flag t = true
  spKeys : ∀ t a, (((s.ty t).sparse a).map (·.1)).Nodup
  bound : ∀ t a, live t a → a < (s.ty t).nback

theorem DInv.nodup {s : Sto V} {live} (I : DInv zero s live) : s.tags.Nodup :=
  List.Nodup.of_map _ I.ids

theorem DInv.distAt {s : Sto V} {live} (I : DInv zero s live) (t : ET) (p : Nat) :
    ∀ τ ∈ s.tags, ∀ σ ∈ s.tags, τ.colOf t = some p → σ.colOf t = some p → τ = σ :=
  fun τ h1 σ h2 h3 h4 => (I.dist τ h1 σ h2 t t p h3 h4).1

theorem find_of_mem_nodup {β : Type} [DecidableEq β] {f : TagRec → β} {l : List TagRec}
    (h : (l.map f).Nodup) {τ : TagRec} (hτ : τ ∈ l) :
    l.find? (fun σ => f σ = f τ) = some τ := by
  induction l with
  | nil => simp at hτ
  | cons σ rest ih =>
    simp only [List.map_cons, List.nodup_cons] at h
    rcases List.mem_cons.1 hτ with rfl | hm
    · simp
    · rw [List.find?_cons_of_neg]
      · exact ih h.2 hm
      · simp only [decide_eq_true_eq]
        intro e
        exact h.1 (List.mem_map.2 ⟨τ, hm, e.symm⟩)

theorem DInv.find {s : Sto V} {live} (I : DInv zero s live) {τ : TagRec} (h : τ ∈ s.tags) :
    findTag s τ.id = some τ := find_of_mem_nodup I.ids h

theorem find_mem {s : Sto V} {i : Nat} {τ : TagRec} (h : findTag s i = some τ) :
    τ ∈ s.tags ∧ τ.id = i :=
  ⟨List.mem_of_find?_eq_some h, by simpa using List.find?_some h⟩

theorem colOf_some {τ : TagRec} {t : ET} {p : Nat} :
    τ.colOf t = some p ↔ τ.flag t = false ∧ τ.pos t = .col p := by
  unfold TagRec.colOf
  split
  · next h => simp [h]
  · next h =>
    split
    · next q e => simp [e, h]
    · next e => simp only [false_iff, reduceCtorEq]; rintro ⟨_, e2⟩; exact e p e2

/-- Reads in two states with the same tags agree if the records agree. -/
theorem readAt_congr {s s' : Sto V} {t : ET} {a a' i : Nat} (ht : s'.tags = s.tags)
    (hs : ∀ τ ∈ s.tags, τ.defined t = true → τ.flag t = true →
      (a' < (s'.ty t).nsparse ↔ a < (s.ty t).nsparse) ∧
        (s'.ty t).sparse a' = (s.ty t).sparse a)
    (hd : ∀ τ ∈ s.tags, ∀ p, τ.colOf t = some p →
      (p < s'.ndense ↔ p < s.ndense) ∧ (a' < (s'.dense p).n ↔ a < (s.dense p).n) ∧
        (s'.dense p).f a' = (s.dense p).f a) :
    readAt s' t a' i = readAt s t a i := by
  have e : findTag s' i = findTag s i := by rw [findTag, findTag, ht]
  unfold readAt
  rw [e]
  cases h : findTag s i with
  | none => rfl
  | some τ =>
    simp only
    have hm := (find_mem h).1
    by_cases hdef : τ.defined t = true
    · simp only [hdef, if_true]
      by_cases hf : τ.flag t = true
      · simp only [hf, if_true]
        obtain ⟨h1, h2⟩ := hs τ hm hdef hf
        rw [h2]
        simp only [h1]
      · simp only [hf]
        cases hp : τ.pos t with
        | undef => rfl
        | sparse => rfl
        | col p =>
          obtain ⟨h1, h2, h3⟩ := hd τ hm p (colOf_some.2 ⟨by simpa using hf, hp⟩)
          simp [h1, h2, h3]
    · simp only [hdef]; rfl

/-! ## Reallocation -/

theorem resize_keep {τ : TagRec} {c : Col V} {m a : Nat} (h1 : a < c.n) (h2 : a < m) :
    (c.resize zero τ m).f a = c.f a := by
  have := le_physical c.n
  have := le_physical m
  unfold Col.resize
  simp only
  split
  · rw [if_pos ⟨h1, h2⟩]
  · rw [if_pos (by omega)]

theorem resize_zero {τ : TagRec} {c : Col V} {m a : Nat} (h : c.f a = zero τ.dtype τ.size) :
    (c.resize zero τ m).f a = zero τ.dtype τ.size := by
  unfold Col.resize
  simp only
  split <;> split <;> first | exact h | rfl

theorem reallocate_tags (s : Sto V) (t : ET) (m : Nat) :
    (reallocate zero s t m).tags = s.tags := rfl

theorem reallocate_ty_ne (s : Sto V) {t u : ET} (m : Nat) (h : u ≠ t) :
    (reallocate zero s t m).ty u = s.ty u := by
  simp only [reallocate]; rw [upd_ne _ _ h]

/-- Properties of the reallocated type. -/
theorem reallocate_ty (s : Sto V) (t : ET) (m : Nat) :
    ((reallocate zero s t m).ty t).nlinks = (s.ty t).nlinks ∧
    ((reallocate zero s t m).ty t).links = (s.ty t).links ∧
    ((reallocate zero s t m).ty t).emptySpace = (s.ty t).emptySpace ∧
    ((reallocate zero s t m).ty t).emptyLinks = (s.ty t).emptyLinks ∧
    ((reallocate zero s t m).ty t).nback = clampSize t m ∧
    ∀ k, ((reallocate zero s t m).ty t).back k =
      if k < (s.ty t).nback then (s.ty t).back k else none := by
  simp only [reallocate]
  rw [upd_self]
  split
  · unfold resizeSparse
    split <;> simp
  · simp

theorem reallocate_sparse (s : Sto V) (t : ET) (m : Nat) :
    if (s.tags.any fun τ => τ.defined t && τ.flag t) then
      ((reallocate zero s t m).ty t).nsparse = clampSize t m ∧
      ((reallocate zero s t m).ty t).sparse =
        if (s.ty t).nsparse = clampSize t m then (s.ty t).sparse
        else fun k => if k < (s.ty t).nsparse then (s.ty t).sparse k else []
    else ((reallocate zero s t m).ty t).nsparse = 0 ∧
      ((reallocate zero s t m).ty t).sparse = fun _ => [] := by
  simp only [reallocate]
  rw [upd_self]
  split
  · unfold resizeSparse
    simp only
    split
    · next h => exact ⟨h, rfl⟩
    · exact ⟨rfl, rfl⟩
  · exact ⟨rfl, rfl⟩

theorem dinv_reallocate {s : Sto V} {live : ET → Nat → Prop} (I : DInv zero s live) (t : ET)
    (m : Nat) (hm : ∀ a, live t a → a < clampSize t m) :
    DInv zero (reallocate zero s t m) live ∧
    ∀ u a i, live u a → readAt (reallocate zero s t m) u a i = readAt s u a i := by
  obtain ⟨-, -, -, -, hnb, -⟩ := reallocate_ty (zero := zero) s t m
  have hsp := reallocate_sparse (zero := zero) s t m
  have hcolmem : ∀ τ ∈ s.tags, ∀ p, τ.colOf t = some p →
      (reallocate zero s t m).dense p = (s.dense p).resize zero τ (clampSize t m) := by
    intro τ hτ p hp
    exact foldCols_mem (g := fun τ c => c.resize zero τ (clampSize t m)) s.tags s.dense I.nodup
      (I.distAt t p) hτ hp
  have hcolne : ∀ τ ∈ s.tags, ∀ u p, u ≠ t → τ.colOf u = some p →
      (reallocate zero s t m).dense p = s.dense p := by
    intro τ hτ u p hu hp
    refine foldCols_other (g := fun τ c => c.resize zero τ (clampSize t m)) s.tags s.dense
      (fun σ hσ hc => hu ?_)
    exact (I.dist τ hτ σ hσ u t p hp hc).2
  have hneed : ∀ τ ∈ s.tags, τ.defined t = true → τ.flag t = true →
      (s.tags.any fun τ => τ.defined t && τ.flag t) = true := by
    intro τ hτ h1 h2
    exact List.any_eq_true.2 ⟨τ, hτ, by simp [h1, h2]⟩
  have hspKeep : ∀ a, live t a → ∀ τ ∈ s.tags, τ.defined t = true → τ.flag t = true →
      ((reallocate zero s t m).ty t).sparse a = (s.ty t).sparse a := by
    intro a ha τ hτ h1 h2
    rw [if_pos (hneed τ hτ h1 h2)] at hsp
    rw [hsp.2]
    split
    · rfl
    · simp only
      rw [if_pos]
      rw [I.spNeed τ hτ t h1 h2]; exact I.bound t a ha
  have hspSub : ∀ a, ((reallocate zero s t m).ty t).sparse a = (s.ty t).sparse a ∨
      ((reallocate zero s t m).ty t).sparse a = [] := by
    intro a
    split at hsp
    · rw [hsp.2]
      split
      · exact Or.inl rfl
      · simp only; split
        · exact Or.inl rfl
        · exact Or.inr rfl
    · rw [hsp.2]; exact Or.inr rfl
  refine ⟨⟨I.ids, I.names, I.flagged, I.unflagged, I.colLt, ?_, ?_, I.dist, I.ed, ?_, ?_, ?_, ?_,
    ?_⟩, ?_⟩
  · intro τ hτ u p hp
    by_cases e : u = t
    · subst e
      rw [hcolmem τ hτ p hp, hnb]; rfl
    · rw [hcolne τ hτ u p e hp, reallocate_ty_ne _ _ e]
      exact I.colSize τ hτ u p hp
  · intro τ hτ u p hp a ha
    by_cases e : u = t
    · subst e
      rw [hcolmem τ hτ p hp]
      exact resize_zero (I.colZero τ hτ u p hp a ha)
    · rw [hcolne τ hτ u p e hp]
      exact I.colZero τ hτ u p hp a ha
  · intro u
    by_cases e : u = t
    · subst e
      split at hsp
      · exact Or.inr (by rw [hsp.1, hnb])
      · exact Or.inl hsp.1
    · rw [reallocate_ty_ne _ _ e]; exact I.sp u
  · intro τ hτ u h1 h2
    by_cases e : u = t
    · subst e
      rw [if_pos (hneed τ hτ h1 h2)] at hsp
      rw [hsp.1, hnb]
    · rw [reallocate_ty_ne _ _ e]; exact I.spNeed τ hτ u h1 h2
  · intro u a r hr
    by_cases e : u = t
    · subst e
      rcases hspSub a with h | h
      · rw [h] at hr; exact I.spTag u a r hr
      · rw [h] at hr; simp at hr
    · rw [reallocate_ty_ne _ _ e] at hr; exact I.spTag u a r hr
  · intro u a
    by_cases e : u = t
    · subst e
      rcases hspSub a with h | h
      · rw [h]; exact I.spKeys u a
      · rw [h]; simp
    · rw [reallocate_ty_ne _ _ e]; exact I.spKeys u a
  · intro u a ha
    by_cases e : u = t
    · subst e; rw [hnb]; exact hm a ha
    · rw [reallocate_ty_ne _ _ e]; exact I.bound u a ha
  · intro u a i ha
    apply readAt_congr (reallocate_tags s t m)
    · intro τ hτ h1 h2
      by_cases e : u = t
      · subst e
        refine ⟨?_, hspKeep a ha τ hτ h1 h2⟩
        rw [if_pos (hneed τ hτ h1 h2)] at hsp
        rw [hsp.1, I.spNeed τ hτ u h1 h2]
        exact iff_of_true (hm a ha) (I.bound u a ha)
      · rw [reallocate_ty_ne _ _ e]; exact ⟨Iff.rfl, rfl⟩
    · intro τ hτ p hp
      refine ⟨Iff.rfl, ?_⟩
      by_cases e : u = t
      · subst e
        rw [hcolmem τ hτ p hp]
        have hn := I.colSize τ hτ u p hp
        have hb := I.bound u a ha
        refine ⟨iff_of_true (hm a ha) (by omega), resize_keep (by omega) (hm a ha)⟩
      · rw [hcolne τ hτ u p e hp]; exact ⟨Iff.rfl, rfl⟩

end Verif.Storage
