import Verif.Copy.Later

/-! # CopyTagData -/

namespace Verif.Copy

open Verif.Storage

variable {V : Type} {zero : Nat → Option Nat → V}

/-- The output of `τ → σ` is in place on the elements of `P`, all else is unchanged. -/
structure Part (zero : Nat → Option Nat → V) (τ σ : TagRec) (P : ET → Nat → Prop) (s s' : Sto V) : Prop where
  reach : Reach zero s'
  tags : s'.tags = s.tags
  slots : ∀ t id, slot s' t id = slot s t id
  output : ∀ t id, P t id → Storage.read s' t id σ.id = outcome zero σ t (Storage.read s t id τ.id)
  other : ∀ t id k, (k ≠ σ.id ∨ ¬ P t id) → Storage.read s' t id k = Storage.read s t id k

theorem Part.refl {τ σ : TagRec} {s : Sto V} (R : Reach zero s) {P : ET → Nat → Prop} (h : ∀ t id, ¬ P t id) :
    Part zero τ σ P s s :=
  ⟨R, rfl, fun _ _ => rfl, fun t id hp => absurd hp (h t id), fun _ _ _ _ => rfl⟩

theorem Part.trans {τ σ : TagRec} {s s1 s2 : Sto V} {P Q O : ET → Nat → Prop} (hne : τ.id ≠ σ.id)
    (H : Part zero τ σ P s s1) (K : Part zero τ σ Q s1 s2) (hO : ∀ t id, O t id ↔ P t id ∨ Q t id) :
    Part zero τ σ O s s2 := by
  refine ⟨K.reach, K.tags.trans H.tags, fun t id => (K.slots t id).trans (H.slots t id), ?_, ?_⟩
  · intro t id ho
    by_cases hq : Q t id
    · rw [K.output t id hq, H.other t id τ.id (.inl hne)]
    · rw [K.other t id σ.id (.inr hq)]
      exact H.output t id (((hO t id).1 ho).resolve_right hq)
  · intro t id k hk
    rw [K.other t id k (hk.imp_right fun h q => h ((hO t id).2 (.inr q))),
      H.other t id k (hk.imp_right fun h q => h ((hO t id).2 (.inl q)))]

theorem find_tags {s s' : Sto V} (h : s'.tags = s.tags) (i : Nat) : findTag s' i = findTag s i := by
  unfold findTag; rw [h]

theorem copyValue_ne {s : Sto V} {t : ET} {id i : Nat} {σ : TagRec} {v : V} (h : i ≠ σ.id) :
    copyValue zero s t id i σ v = write s t id σ.id v := by
  unfold copyValue
  rw [if_neg]
  simp [h]

theorem copyDatum_spec {s : Sto V} {τ σ : TagRec} {t : ET} {id : Nat} {v : V} (R : Reach zero s) (hne : τ.id ≠ σ.id)
    (hσ : findTag s σ.id = some σ) (hd : σ.defined t = true) (ha : alive s t id)
    (hr : Storage.read s t id τ.id = some (some v)) :
    ∃ s', copyDatum zero τ σ t s id = some s' ∧ Part zero τ σ (fun u j => u = t ∧ j = id) s s' := by
  obtain ⟨s', e, R', h1, h2, h3, h4⟩ := C09_write R ha hσ hd v
  refine ⟨s', ?_, R', h4, h3, ?_, ?_⟩
  · unfold copyDatum
    rw [hr]
    exact (copyValue_ne hne).trans e
  · rintro u j ⟨rfl, rfl⟩
    rw [h1, hr]; rfl
  · intro u j k hk
    refine h2 u j k ?_
    by_cases h : u = t
    · by_cases h' : j = id
      · exact .inr (.inr (hk.resolve_right fun g => g ⟨h, h'⟩))
      · exact .inr (.inl h')
    · exact .inl h

theorem dense_read {s : Sto V} (R : Reach zero s) {τ : TagRec} {t : ET} {id : Nat} (hτ : findTag s τ.id = some τ)
    (hd : τ.defined t = true) (hf : τ.flag t = false) (ha : alive s t id) :
    ∃ v, Storage.read s t id τ.id = some (some v) := by
  obtain ⟨b, h1, h2⟩ := C09_haveData R ha hτ (fun h => hd)
  have : b = true := by
    unfold haveData at h1
    rw [hτ] at h1
    simp only [hf] at h1
    have hb : (τ.pos t != Pos.undef) = b := Option.some.inj h1
    rw [← hb]; exact hd
  exact h2.1 this

theorem sparse_none {s : Sto V} (R : Reach zero s) {τ : TagRec} {t : ET} {id : Nat} (hτ : findTag s τ.id = some τ)
    (hd : τ.defined t = true) (ha : alive s t id) (h : haveData s t id τ.id = some false) :
    Storage.read s t id τ.id = some none := by
  obtain ⟨a, ha'⟩ := Option.ne_none_iff_exists'.1 ha
  cases hf : τ.flag t with
  | false =>
    unfold haveData at h
    rw [hτ] at h
    simp only [hf] at h
    have hb : (τ.pos t != Pos.undef) = false := Option.some.inj h
    unfold TagRec.defined at hd
    rw [hb] at hd; cases hd
  | true =>
    have hn := R.inv.D.spNeed τ (find_mem hτ).1 t hd hf
    have hb := R.inv.D.bound t a ⟨id, ha'⟩
    unfold haveData at h
    rw [hτ] at h
    simp only [hf, if_true, ha', hn, hb] at h
    unfold Storage.read
    rw [ha']
    simp only
    rw [readAt_sparse hτ hd hf, hn, if_pos hb]
    have h' := Option.some.inj h
    cases hg : getRec τ.id ((s.ty t).sparse a) with
    | none => rfl
    | some v => rw [hg] at h'; cases h'

theorem copySparse_spec {s : Sto V} {τ σ : TagRec} {t : ET} {id : Nat} (R : Reach zero s) (hne : τ.id ≠ σ.id)
    (hτ : findTag s τ.id = some τ) (hσ : findTag s σ.id = some σ) (hdτ : τ.defined t = true) (hd : σ.defined t = true)
    (ha : alive s t id) :
    ∃ s', copySparse zero τ σ t s id = some s' ∧ Part zero τ σ (fun u j => u = t ∧ j = id) s s' := by
  obtain ⟨b, h1, h2⟩ := C09_haveData R ha hτ (fun _ => hdτ)
  unfold copySparse
  rw [h1]
  cases b with
  | true =>
    obtain ⟨v, hv⟩ := h2.1 rfl
    exact copyDatum_spec R hne hσ hd ha hv
  | false =>
    have hr := sparse_none R hτ hdτ ha h1
    obtain ⟨b', g1, g2⟩ := C09_haveData R ha hσ (fun _ => hd)
    simp only
    rw [g1]
    cases b' with
    | true =>
      obtain ⟨s', e, R', k1, k2, k3, k4⟩ := C09_delData R ha hσ hd
      refine ⟨s', e, R', k4, k3, ?_, ?_⟩
      · rintro u j ⟨rfl, rfl⟩
        rw [k1, hr]; rfl
      · intro u j k hk
        refine k2 u j k ?_
        by_cases h : u = t
        · by_cases h' : j = id
          · exact .inr (.inr (hk.resolve_right fun g => g ⟨h, h'⟩))
          · exact .inr (.inl h')
        · exact .inl h
    | false =>
      refine ⟨s, rfl, R, rfl, fun _ _ => rfl, ?_, fun _ _ _ _ => rfl⟩
      rintro u j ⟨rfl, rfl⟩
      have hs := sparse_none R hσ hd ha g1
      rw [hs, hr]
      have hf : σ.flag u = true := by
        cases hf : σ.flag u with
        | true => rfl
        | false =>
          obtain ⟨v, hv⟩ := dense_read R hσ hd hf ha
          rw [hs] at hv; cases hv
      unfold outcome
      simp only [hf]; rfl

/-- A loop over elements of one type. -/
theorem loop_spec {τ σ : TagRec} {t : ET} (hne : τ.id ≠ σ.id) (f : Sto V → Nat → Option (Sto V))
    (step : ∀ s id, Reach zero s → findTag s τ.id = some τ → findTag s σ.id = some σ → alive s t id →
      ∃ s', f s id = some s' ∧ Part zero τ σ (fun u j => u = t ∧ j = id) s s') (l : List Nat) :
    ∀ s, Reach zero s → findTag s τ.id = some τ → findTag s σ.id = some σ → (∀ id ∈ l, alive s t id) →
      ∃ s', forEach f l s = some s' ∧ Part zero τ σ (fun u j => u = t ∧ j ∈ l) s s' := by
  induction l with
  | nil => intro s R _ _ _; exact ⟨s, rfl, .refl R fun _ _ h => by cases h.2⟩
  | cons a l ih =>
    intro s R h1 h2 ha
    obtain ⟨s1, e1, H⟩ := step s a R h1 h2 (ha a List.mem_cons_self)
    obtain ⟨s2, e2, K⟩ := ih s1 H.reach (by rw [find_tags H.tags]; exact h1) (by rw [find_tags H.tags]; exact h2)
      (fun id hid => by unfold alive; rw [H.slots]; exact ha id (List.mem_cons_of_mem _ hid))
    refine ⟨s2, by rw [forEach, e1]; exact e2, H.trans hne K fun u j => ?_⟩
    simp only [List.mem_cons]
    constructor
    · rintro ⟨h, h' | h'⟩
      · exact .inl ⟨h, h'⟩
      · exact .inr ⟨h, h'⟩
    · rintro (⟨h, h'⟩ | ⟨h, h'⟩)
      · exact ⟨h, .inl h'⟩
      · exact ⟨h, .inr h'⟩

theorem mem_visited {hidden : ET → Nat → Bool} {s : Sto V} {t : ET} {id : Nat} :
    id ∈ visited hidden s t ↔ alive s t id ∧ hidden t id = false := by
  unfold visited alive
  rw [List.mem_filter, List.mem_range]
  constructor
  · rintro ⟨-, h⟩
    simp only [Bool.and_eq_true, Bool.not_eq_true'] at h
    exact ⟨fun e => (by rw [e] at h; cases h.1), h.2⟩
  · rintro ⟨h1, h2⟩
    obtain ⟨a, ha⟩ := Option.ne_none_iff_exists'.1 h1
    refine ⟨(slot_some.1 ha).1, ?_⟩
    rw [ha, h2]; rfl

/-- The elements of one type. -/
theorem copyTagOn_spec {hidden : ET → Nat → Bool} {τ σ : TagRec} (hne : τ.id ≠ σ.id) (t : ET) (s : Sto V)
    (R : Reach zero s) (hτ : findTag s τ.id = some τ) (hσ : findTag s σ.id = some σ) :
    ∃ s', copyTagOn zero hidden τ σ s t = some s' ∧ Part zero τ σ
      (fun u j => u = t ∧ alive s u j ∧ hidden u j = false ∧ τ.defined u = true ∧ σ.defined u = true) s s' := by
  unfold copyTagOn
  by_cases hd : (τ.defined t && σ.defined t) = true
  · rw [if_pos hd]
    rw [Bool.and_eq_true] at hd
    have hl : ∀ id ∈ visited hidden s t, alive s t id := fun id h => (mem_visited.1 h).1
    have fin : ∀ s', Part zero τ σ (fun u j => u = t ∧ j ∈ visited hidden s t) s s' → Part zero τ σ
        (fun u j => u = t ∧ alive s u j ∧ hidden u j = false ∧ τ.defined u = true ∧ σ.defined u = true) s s' := by
      intro s' P
      have hiff : ∀ u j, (u = t ∧ alive s u j ∧ hidden u j = false ∧ τ.defined u = true ∧ σ.defined u = true) ↔
          (u = t ∧ j ∈ visited hidden s t) := by
        intro u j
        rw [mem_visited]
        constructor
        · rintro ⟨rfl, h1, h2, -⟩; exact ⟨rfl, h1, h2⟩
        · rintro ⟨rfl, h1, h2⟩; exact ⟨rfl, h1, h2, hd.1, hd.2⟩
      exact ⟨P.reach, P.tags, P.slots, fun u j h => P.output u j ((hiff u j).1 h),
        fun u j k h => P.other u j k (h.imp_right fun g q => g ((hiff u j).2 q))⟩
    by_cases hf : τ.flag t = true
    · rw [if_pos hf]
      obtain ⟨s', e, P⟩ := loop_spec (zero := zero) hne (copySparse zero τ σ t)
        (fun s id R h1 h2 ha => copySparse_spec R hne h1 h2 hd.1 hd.2 ha) (visited hidden s t) s R hτ hσ hl
      exact ⟨s', e, fin s' P⟩
    · rw [if_neg hf]
      obtain ⟨s', e, P⟩ := loop_spec (zero := zero) hne (copyDatum zero τ σ t)
        (fun s id R h1 h2 ha => by
          obtain ⟨v, hv⟩ := dense_read R h1 hd.1 (by simpa using hf) ha
          exact copyDatum_spec R hne h2 hd.2 ha hv) (visited hidden s t) s R hτ hσ hl
      exact ⟨s', e, fin s' P⟩
  · rw [if_neg hd]
    refine ⟨s, rfl, .refl R ?_⟩
    rintro u j ⟨rfl, -, -, h1, h2⟩
    exact hd (by rw [h1, h2]; rfl)

theorem types_spec {hidden : ET → Nat → Bool} {τ σ : TagRec} (hne : τ.id ≠ σ.id) (ts : List ET) :
    ∀ s, Reach zero s → findTag s τ.id = some τ → findTag s σ.id = some σ →
    ∃ s', forEach (copyTagOn zero hidden τ σ) ts s = some s' ∧ Part zero τ σ
      (fun u j => u ∈ ts ∧ alive s u j ∧ hidden u j = false ∧ τ.defined u = true ∧ σ.defined u = true) s s' := by
  induction ts with
  | nil => intro s R _ _; exact ⟨s, rfl, .refl R fun _ _ h => by cases h.1⟩
  | cons t ts ih =>
    intro s R h1 h2
    obtain ⟨s1, e1, H⟩ := copyTagOn_spec (hidden := hidden) hne t s R h1 h2
    obtain ⟨s2, e2, K⟩ := ih s1 H.reach (by rw [find_tags H.tags]; exact h1) (by rw [find_tags H.tags]; exact h2)
    refine ⟨s2, by rw [forEach, e1]; exact e2, H.trans hne K fun u j => ?_⟩
    have : alive s1 u j ↔ alive s u j := by unfold alive; rw [H.slots]
    rw [this, List.mem_cons]
    tauto

/-- The whole call. -/
theorem copyTagData_spec {hidden : ET → Nat → Bool} {τ σ : TagRec} {i j : Nat} {s : Sto V} (R : Reach zero s)
    (hM : alive s 5 0) (hh : hidden 5 0 = false) (hi : findTag s i = some τ) (hj : findTag s j = some σ) (hne : i ≠ j)
    (hty : τ.dtype = σ.dtype) (hsz : τ.size = σ.size)
    (hm : τ.defined 5 = true → σ.defined 5 = true → Storage.read s 5 0 i ≠ some none) :
    ∃ s', copyTagData zero hidden s i j = some s' ∧ Reach zero s' ∧ CopiedTag zero hidden τ σ s s' := by
  have ei := (find_mem hi).2
  have ej := (find_mem hj).2
  subst ei ej
  obtain ⟨s1, e1, H⟩ := types_spec (hidden := hidden) hne [0, 1, 2, 3, 4] s R hi hj
  have hmeshOnly : ∀ k, alive s 5 k → k = 0 := by
    intro k hk
    have := mesh_slot R.inv hM k
    by_cases h : k = 0
    · exact h
    · rw [if_neg h] at this; exact absurd this hk
  have fin : ∀ s2, Part zero τ σ (fun u j => u = 5 ∧ j = 0 ∧ τ.defined u = true ∧ σ.defined u = true) s1 s2 →
      Reach zero s2 ∧ CopiedTag zero hidden τ σ s s2 := by
    intro s2 K
    have P : Part zero τ σ (fun u j => alive s u j ∧ hidden u j = false ∧ τ.defined u = true ∧ σ.defined u = true) s s2 := by
      refine H.trans hne K fun u j => ?_
      have h5 : u ∈ [(0 : ET), 1, 2, 3, 4] ∨ u = 5 := by
        revert u; decide
      constructor
      · rintro ⟨h1, h2, h3, h4⟩
        rcases h5 with h5 | rfl
        · exact .inl ⟨h5, h1, h2, h3, h4⟩
        · exact .inr ⟨rfl, hmeshOnly j h1, h3, h4⟩
      · rintro (⟨-, h1, h2, h3, h4⟩ | ⟨rfl, rfl, h3, h4⟩)
        · exact ⟨h1, h2, h3, h4⟩
        · exact ⟨hM, hh, h3, h4⟩
    refine ⟨P.reach, P.tags, P.slots, fun t id h1 h2 h3 h4 => P.output t id ⟨h1, h2, h3, h4⟩, ?_⟩
    intro t id k hk
    refine P.other t id k (hk.imp_right ?_)
    rintro (h | h | h) ⟨-, h2, h3, h4⟩
    · rw [h] at h2; cases h2
    · rw [h] at h3; cases h3
    · rw [h] at h4; cases h4
  have hcall : ∀ r, copyTagMesh zero τ σ s1 = r → copyTagData zero hidden s τ.id σ.id = r := by
    intro r h
    unfold copyTagData
    rw [hi, hj]
    simp only
    rw [if_pos ⟨hty, hsz⟩, e1]
    exact h
  by_cases hd : (τ.defined 5 && σ.defined 5) = true
  · have hd' := hd
    rw [Bool.and_eq_true] at hd'
    have hM1 : alive s1 5 0 := by unfold alive; rw [H.slots]; exact hM
    have hr : Storage.read s1 5 0 τ.id = Storage.read s 5 0 τ.id := H.other 5 0 τ.id (.inl hne)
    have hτ1 : findTag s1 τ.id = some τ := by rw [find_tags H.tags]; exact hi
    have hσ1 : findTag s1 σ.id = some σ := by rw [find_tags H.tags]; exact hj
    have hv : ∃ v, Storage.read s1 5 0 τ.id = some (some v) := by
      obtain ⟨b, h1, h2⟩ := C09_haveData H.reach hM1 hτ1 (fun _ => hd'.1)
      cases b with
      | true => exact h2.1 rfl
      | false =>
        have := sparse_none H.reach hτ1 hd'.1 hM1 h1
        rw [hr] at this
        exact absurd this (hm hd'.1 hd'.2)
    obtain ⟨v, hv⟩ := hv
    obtain ⟨s2, e2, K⟩ := copyDatum_spec (zero := zero) H.reach hne hσ1 hd'.2 hM1 hv
    have K' : Part zero τ σ (fun u j => u = 5 ∧ j = 0 ∧ τ.defined u = true ∧ σ.defined u = true) s1 s2 :=
      ⟨K.reach, K.tags, K.slots, fun t id h => K.output t id ⟨h.1, h.2.1⟩, fun t id k h => K.other t id k
        (h.imp_right fun g q => g ⟨q.1, q.2, by rw [q.1]; exact hd'.1, by rw [q.1]; exact hd'.2⟩)⟩
    refine ⟨s2, hcall _ ?_, fin s2 K'⟩
    unfold copyTagMesh
    rw [if_pos hd, hv]
    unfold copyDatum at e2
    rw [hv] at e2
    exact e2
  · refine ⟨s1, hcall _ (by unfold copyTagMesh; rw [if_neg hd]), fin s1 (.refl H.reach ?_)⟩
    rintro u j ⟨rfl, -, h1, h2⟩
    exact hd (by rw [h1, h2]; rfl)

end Verif.Copy
