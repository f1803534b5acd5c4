import Verif.Copy.Back

/-! # Assignment of meshes -/

namespace Verif.Copy

open Verif.Storage

variable {V : Type} {zero : Nat → Option Nat → V}

/-- A tag without sparse data. -/
structure DenseTag (s : Sto V) (τ : TagRec) : Prop where
  flag : ∀ t, τ.flag t = false
  pos : ∀ t, τ.pos t ≠ .sparse
  lt : ∀ t p, τ.pos t = .col p → p < s.ndense

theorem deleteOn_dense {s : Sto V} {i : Nat} {τ : TagRec} (hf : findTag s i = some τ) (D : DenseTag s τ) (t : ET) :
    ∃ s' τ', deleteOn zero s i t = some s' ∧ s'.ty = s.ty ∧ findTag s' i = some τ' ∧ DenseTag s' τ' ∧
      s'.modified = s.modified := by
  have hmap : ∀ s' : Sto V, s'.tags = s.tags.map (fun σ => if σ.id = i then { σ with pos := upd σ.pos t .undef } else σ) →
      findTag s' i = some { τ with pos := upd τ.pos t .undef } := by
    intro s' h
    unfold findTag
    rw [h]
    have := find_mapTag (i := i) (F := fun σ => { σ with pos := upd σ.pos t .undef }) (fun _ => rfl) s.tags i
    rw [if_pos rfl] at this
    unfold findTag at hf
    rw [hf] at this
    exact this
  unfold deleteOn
  rw [hf]
  simp only
  by_cases hu : τ.pos t = .undef
  · rw [if_pos hu]
    exact ⟨s, τ, rfl, rfl, hf, D, rfl⟩
  · rw [if_neg hu, D.flag t, if_neg (by simp)]
    cases hp : τ.pos t with
    | undef => exact absurd hp hu
    | sparse => exact absurd hp (D.pos t)
    | col p =>
      simp only [D.lt t p hp, if_true]
      refine ⟨_, _, rfl, rfl, hmap _ rfl, ⟨D.flag, ?_, ?_⟩, rfl⟩
      · intro u
        show upd τ.pos t .undef u ≠ .sparse
        by_cases h : u = t
        · subst h; rw [upd_self]; simp
        · rw [upd_ne _ _ h]; exact D.pos u
      · intro u q
        show upd τ.pos t .undef u = .col q → q < s.ndense
        by_cases h : u = t
        · subst h; rw [upd_self]; simp
        · rw [upd_ne _ _ h]; exact D.lt u q

theorem deleteOnAll_dense {i : Nat} (mask : ET → Bool) (l : List ET) : ∀ {s : Sto V} {τ : TagRec},
    findTag s i = some τ → DenseTag s τ →
    ∃ s', deleteOnAll zero s i mask l = some s' ∧ s'.ty = s.ty ∧ s'.modified = s.modified := by
  induction l with
  | nil => intro s τ _ _; exact ⟨s, rfl, rfl, rfl⟩
  | cons t l ih =>
    intro s τ hf D
    unfold deleteOnAll
    split
    · obtain ⟨s1, τ1, e1, h1, h2, h3, h4⟩ := deleteOn_dense (zero := zero) hf D t
      rw [e1]
      obtain ⟨s2, e2, h5, h6⟩ := ih h2 h3
      exact ⟨s2, e2, h5.trans h1, h6.trans h4⟩
    · exact ih hf D

theorem deleteTag_dense {s : Sto V} {i : Nat} {τ : TagRec} (hf : findTag s i = some τ) (D : DenseTag s τ)
    (mask : ET → Bool) : ∃ s', deleteTag zero s i mask = some s' ∧ s'.ty = s.ty ∧ s'.modified = s.modified := by
  obtain ⟨s1, e1, h1, h2⟩ := deleteOnAll_dense (zero := zero) mask allTypes hf D
  unfold deleteTag
  rw [hf]
  simp only [e1]
  split
  · refine ⟨_, rfl, ?_, h2⟩
    simp only [D.flag, Bool.and_false, Bool.false_and]
    exact h1
  · exact ⟨_, rfl, h1, h2⟩

/-- `operator =`. -/
theorem assignMesh_spec {addr : Nat → Nat} {o d : Sto V} {priv : Nat} {τ : TagRec} (I : Inv zero o) (A : Addr addr o)
    (hM : slot o 5 0 ≠ none) (J : Inv zero d) (hM' : slot d 5 0 ≠ none) (hf : findTag d priv = some τ)
    (hfl : ∀ t, τ.flag t = false) : ∃ s, assignMesh zero addr priv o d = some s ∧ Copied addr o s := by
  have hτ := (find_mem hf).1
  obtain ⟨d1, e1, h1, -⟩ := deleteTag_dense (zero := zero) (s := dropLinks d) (τ := τ) hf
    ⟨hfl, fun t => J.D.unflagged τ hτ t (hfl t), fun t p hp => (J.D.colLt τ hτ t p (colOf_some.2 ⟨hfl t, hp⟩)).1⟩
    (fun _ => true)
  have h5 : (dropLinks d).ty 5 = d.ty 5 := by unfold dropLinks; simp
  obtain ⟨s', e, C, -⟩ := fill_copied (s := startTags zero addr o
    { d1 with ty := fun t => { d1.ty t with nsparse := 0, sparse := fun _ => [] } }) I A hM rfl rfl (by
      intro j
      rw [← mesh_slot J hM' j]
      unfold slot
      show (if j < (d1.ty 5).nlinks then (d1.ty 5).links j else none) = _
      rw [h1, h5]) (fun _ _ _ _ _ => .inl rfl) (fun _ _ => rfl)
  refine ⟨_, ?_, C⟩
  unfold assignMesh
  rw [e1]
  simp only
  rw [e]

end Verif.Copy
