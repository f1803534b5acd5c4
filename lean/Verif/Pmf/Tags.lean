import Verif.Pmf.Data

/-!
# Reading back the descriptions of tags and all data
-/

namespace Verif.Pmf
open Verif.Topology Verif.Binary

/-- The tag was created for `t` and has no data. -/
structure Ready (t u : TagRec) : Prop where
  name : u.name = t.name
  dtype : u.dtype = t.dtype
  size : u.size = t.size
  defined : ∀ ty, ty < 6 → u.defined ty = t.defined ty
  sparse : ∀ ty, ty < 6 → t.defined ty = true → u.sparse ty = t.sparse ty
  data : ∀ ty k, ty < 6 → t.defined ty = true → u.data ty k = newRec t.dtype (t.sparse ty) t.size

variable {m : Machine} {lw : Nat} {no ol : List (List Nat)}

theorem width_le (hm : Machines m lw) : m.width ≤ 8 := by
  have := hm.w8
  simp only [List.mem_cons, List.not_mem_nil, or_false] at this
  omega

theorem rSize_wSize (hm : Machines m lw) {t : TagRec} (H : HeadOk m lw t) (r : Bytes) :
    rSize lw m.conv (wI m (sizeCode m t.size) ++ r) = some (t.size, r) := by
  have hp : 0 < 256 ^ m.width := by positivity
  have hp' : 0 < 256 ^ lw := by positivity
  have hle : 256 ^ m.width ≤ 256 ^ 8 := Nat.pow_le_pow_right (by omega) (width_le hm)
  have hlt : sizeCode m t.size < 256 ^ m.width := by
    cases h : t.size with
    | none => simp only [sizeCode]; omega
    | some s => have := (H.size s h).1; simp only [sizeCode]; omega
  have e : rI 8 m.conv (wI m (sizeCode m t.size) ++ r) = some (sizeCode m t.size, r) := by
    have := rI_mem (lw := 8) (o := m.order) (w := m.width) (v := sizeCode m t.size) hm.w (by omega) hlt r
    rw [Nat.mod_eq_of_lt (by omega)] at this
    exact this
  have hw : m.conv.width ∈ [1, 2, 4, 8] := hm.w8
  unfold rSize
  simp only [e, if_pos hw]
  cases h : t.size with
  | none => simp only [sizeCode, Machine.conv, if_true]
  | some s =>
    obtain ⟨h1, h2⟩ := H.size s h
    have n1 : ¬ s = 256 ^ m.width - 1 := by omega
    have n2 : ¬ s = 256 ^ lw - 1 := by omega
    have n3 : s % 256 ^ lw = s := Nat.mod_eq_of_lt (by omega)
    simp only [sizeCode, Machine.conv, if_neg n1, n3, if_neg n2]

/-- The description that is read for `t`. -/
def infoOf (t : TagRec) (pos : Option Nat) : TagInfo := ⟨t.name, t.dtype, maskOf t.sparse, maskOf t.defined, t.size, pos⟩

theorem infoOf_ok (t : TagRec) (pos : Option Nat) : InfoOk t (infoOf t pos) :=
  ⟨rfl, rfl, rfl, fun _ h => inMask_maskOf _ h, fun _ h => inMask_maskOf _ h⟩

/-- The state with other tags of the file and of the mesh. -/
def withInfos (st : Ld) (infos : List TagInfo) (L : List TagRec) : Ld :=
  { st with tags := infos, M := { st.M with tags := L } }

theorem rTag_wTag (hm : Machines m lw) {st : Ld} (hu : st.u = m.conv) {t : TagRec} (H : HeadOk m lw t)
    (infos : List TagInfo) (L : List TagRec) (r : Bytes) :
    rTag lw no ol (withInfos st infos L) (wTag m t ++ r) =
      if checkSkip t.name no ol then some (withInfos st (infos ++ [infoOf t none]) L, r)
      else match createTag L t.name t.dtype (maskOf t.sparse) (maskOf t.defined) t.size with
        | none => none
        | some (tags, k) => some (withInfos st (infos ++ [infoOf t (some k)]) tags, r) := by
  have hlen : t.name.length % 256 = t.name.length := Nat.mod_eq_of_lt H.nameLen.1
  have hu' : (withInfos st infos L).u = m.conv := hu
  have h4 : ¬ 4096 ≤ t.name.length := by have := H.nameLen.1; omega
  unfold rTag
  simp only [wTag, List.append_assoc, hlen, hu', rI_wI hm H.nameLen.2, rN_append t.name _ _ rfl, if_neg h4,
    List.cons_append, List.nil_append, rSize_wSize hm H, takeWhile_nz _ H.name]
  simp only [withInfos, hu, infoOf]
  rfl

theorem ready_extend {t u : TagRec} (hn : u.name = t.name) (hd : NoData u) (C : Compat t u) :
    ∃ u', extendTag u t.dtype (maskOf t.sparse) (maskOf t.defined) t.size = some u' ∧ Ready t u' := by
  refine ⟨_, if_pos ⟨C.dtype, Or.inr C.size.symm⟩, hn, C.dtype, C.size, ?_, ?_, ?_⟩
  · intro ty h
    simp only [inMask_maskOf _ h]
    cases hu : u.defined ty with
    | false => rfl
    | true => simp [(C.types ty h hu).1]
  · intro ty h ht
    simp only [inMask_maskOf _ h, ht]
    cases hu : u.defined ty with
    | false => simp
    | true => simp [(C.types ty h hu).2]
  · intro ty k h ht
    simp only [inMask_maskOf _ h, ht, C.dtype, C.size]
    cases hu : u.defined ty with
    | false => simp
    | true => simp [hd ty k hu, C.dtype, C.size, (C.types ty h hu).2]

theorem ready_new (t : TagRec) : Ready t ⟨t.name, t.dtype, fun ty => inMask (maskOf t.sparse) ty && inMask (maskOf t.defined) ty,
    inMask (maskOf t.defined), t.size,
    fun ty _ => if inMask (maskOf t.defined) ty then newRec t.dtype (inMask (maskOf t.sparse) ty) t.size else none⟩ := by
  refine ⟨rfl, rfl, rfl, ?_, ?_, ?_⟩
  · intro ty h; exact inMask_maskOf _ h
  · intro ty h ht; simp only [inMask_maskOf _ h, ht, Bool.and_true]
  · intro ty k h ht; simp only [inMask_maskOf _ h, ht, if_true]

/-- The names of tags. -/
def names (L : List TagRec) : List (List Nat) := L.map fun u : TagRec => u.name

theorem names_inj {L : List TagRec} (h : (names L).Nodup) {j k : Nat} {u v : TagRec} (hj : L[j]? = some u)
    (hk : L[k]? = some v) (e : u.name = v.name) : j = k := by
  obtain ⟨h1, rfl⟩ := List.getElem?_eq_some_iff.1 hj
  obtain ⟨h2, rfl⟩ := List.getElem?_eq_some_iff.1 hk
  have h1' : j < (names L).length := by simpa [names] using h1
  have h2' : k < (names L).length := by simpa [names] using h2
  exact (List.Nodup.getElem_inj_iff h (hi := h1') (hj := h2')).1 (by simpa [names] using e)

/-- What the creation of a tag gives. -/
structure Created (t : TagRec) (L L' : List TagRec) (k : Nat) : Prop where
  ready : ∃ u, L'[k]? = some u ∧ Ready t u
  other : ∀ (j : Nat) (u : TagRec), L[j]? = some u → u.name ≠ t.name → L'[j]? = some u
  back : ∀ u : TagRec, u ∈ L' → u.name ≠ t.name → u ∈ L
  nodup : (names L').Nodup
  names : ∀ x, x ∈ names L' ↔ x ∈ names L ∨ x = t.name

theorem createTag_spec {t : TagRec} {L : List TagRec} (hnd : (names L).Nodup)
    (h : ∀ u ∈ L, u.name = t.name → NoData u ∧ Compat t u) :
    ∃ L' k, createTag L t.name t.dtype (maskOf t.sparse) (maskOf t.defined) t.size = some (L', k) ∧ Created t L L' k := by
  unfold createTag
  cases hf : L.findIdx? fun u : TagRec => decide (u.name = t.name) with
  | some k =>
    obtain ⟨hk, h1, -⟩ := List.findIdx?_eq_some_iff_getElem.1 hf
    have h1 : L[k].name = t.name := by simpa using h1
    have hm := List.getElem_mem hk
    obtain ⟨u', e, R⟩ := ready_extend h1 (h _ hm h1).1 (h _ hm h1).2
    have hnames : names (L.set k u') = names L := by
      unfold names
      rw [List.map_set, R.name, ← h1]
      have hk' : k < (L.map fun u : TagRec => u.name).length := by simpa using hk
      have := List.set_getElem_self (as := L.map fun u : TagRec => u.name) (i := k) hk'
      rwa [List.getElem_map] at this
    simp only [List.getElem?_eq_getElem hk, e]
    refine ⟨_, _, rfl, ⟨u', by simp [hk], R⟩, ?_, ?_, ?_, ?_⟩
    · intro j u hj hne
      have hjk : k ≠ j := by
        rintro rfl
        rw [List.getElem?_eq_getElem hk] at hj
        cases hj
        exact hne h1
      rw [List.getElem?_set_ne hjk]; exact hj
    · intro u hu hne
      rcases List.mem_or_eq_of_mem_set hu with hu | rfl
      · exact hu
      · exact absurd R.name hne
    · rw [hnames]; exact hnd
    · intro x
      rw [hnames]
      constructor
      · exact Or.inl
      · rintro (hx | rfl)
        · exact hx
        · rw [← h1]; exact List.mem_map.2 ⟨_, hm, rfl⟩
  | none =>
    have hf := List.findIdx?_eq_none_iff.1 hf
    have hnm : t.name ∉ names L := by
      intro hx
      obtain ⟨u, hu, hx⟩ := List.mem_map.1 hx
      have := hf u hu
      simp only [decide_eq_false_iff_not] at this
      exact this hx
    refine ⟨_, _, rfl, ⟨_, by simp, ready_new t⟩, ?_, ?_, ?_, ?_⟩
    · intro j u hj hne
      obtain ⟨hj', -⟩ := List.getElem?_eq_some_iff.1 hj
      rw [List.getElem?_append_left hj']; exact hj
    · intro u hu hne
      rcases List.mem_append.1 hu with hu | hu
      · exact hu
      · rw [List.mem_singleton] at hu; subst hu; exact absurd rfl hne
    · unfold names
      rw [List.map_append, List.nodup_append]
      refine ⟨hnd, by simp, ?_⟩
      rintro a ha b hb rfl
      simp only [List.map_cons, List.map_nil, List.mem_singleton] at hb
      subst hb
      exact hnm ha
    · intro x
      simp [names]

/-- A tag of the file, its description and the tag of the mesh. -/
structure Rel (no ol : List (List Nat)) (L : List TagRec) (t : TagRec) (i : TagInfo) : Prop where
  info : InfoOk t i
  skip : i.pos = none ↔ checkSkip t.name no ol = true
  ready : ∀ p, i.pos = some p → ∃ u, L[p]? = some u ∧ Ready t u

theorem rTags_wTags (hm : Machines m lw) {st : Ld} (hu : st.u = m.conv) (r : Bytes) : ∀ (ts : List TagRec)
    (infos : List TagInfo) (L : List TagRec), (∀ t ∈ ts, HeadOk m lw t) → (names ts).Nodup → (names L).Nodup →
    (∀ t ∈ ts, ∀ u ∈ L, u.name = t.name → NoData u ∧ Compat t u) →
    ∃ infos' L', rFold (rTag lw no ol) ts.length (withInfos st infos L) (ts.flatMap (wTag m) ++ r) =
        some (withInfos st (infos ++ infos') L', r) ∧ List.Forall₂ (Rel no ol L') ts infos' ∧ (names L').Nodup ∧
      (∀ x, x ∈ names L' ↔ x ∈ names L ∨ ∃ t ∈ ts, checkSkip t.name no ol = false ∧ t.name = x) ∧
      (∀ (j : Nat) (u : TagRec), L[j]? = some u → (∀ t ∈ ts, checkSkip t.name no ol = false → t.name ≠ u.name) →
        L'[j]? = some u) ∧
      (∀ u : TagRec, u ∈ L' → (∀ t ∈ ts, checkSkip t.name no ol = false → t.name ≠ u.name) → u ∈ L)
  | [], infos, L, _, _, hL, _ => ⟨[], L, by simp [rFold], .nil, hL, by simp, fun _ _ h _ => h, fun _ h _ => h⟩
  | t :: ts, infos, L, hh, hn, hL, hc => by
    have hnt : t.name ∉ names ts := (List.nodup_cons.1 hn).1
    have hn' : (names ts).Nodup := (List.nodup_cons.1 hn).2
    have e := rTag_wTag (no := no) (ol := ol) hm hu (hh t (List.mem_cons_self ..)) infos L (ts.flatMap (wTag m) ++ r)
    have hh' : ∀ t' ∈ ts, HeadOk m lw t' := fun t' h => hh t' (List.mem_cons_of_mem _ h)
    by_cases hs : checkSkip t.name no ol = true
    · rw [if_pos hs] at e
      obtain ⟨infos', L', e1, F, h1, h2, h3, h4⟩ := rTags_wTags hm hu r ts (infos ++ [infoOf t none]) L hh' hn' hL
        (fun t' h => hc t' (List.mem_cons_of_mem _ h))
      refine ⟨infoOf t none :: infos', L', ?_, .cons ⟨infoOf_ok t none, by simp [infoOf, hs], by simp [infoOf]⟩ F, h1, ?_, ?_, ?_⟩
      · simp only [List.length_cons, List.flatMap_cons, List.append_assoc, rFold, e, e1]
        simp
      · intro x
        rw [h2]
        simp [hs]
      · intro j u hj hu'
        exact h3 j u hj (fun t' h => hu' t' (List.mem_cons_of_mem _ h))
      · intro u hu' h
        exact h4 u hu' (fun t' h' => h t' (List.mem_cons_of_mem _ h'))
    · rw [if_neg hs] at e
      obtain ⟨L1, k, e2, C⟩ := createTag_spec hL (hc t (List.mem_cons_self ..))
      rw [e2] at e
      obtain ⟨infos', L', e1, F, h1, h2, h3, h4⟩ := rTags_wTags hm hu r ts (infos ++ [infoOf t (some k)]) L1 hh' hn' C.nodup
        (by
          intro t' ht' u hu' he
          have hne : u.name ≠ t.name := by
            intro h
            rw [← h, he] at hnt
            exact hnt (List.mem_map.2 ⟨t', ht', rfl⟩)
          exact hc t' (List.mem_cons_of_mem _ ht') u (C.back u hu' hne) he)
      refine ⟨infoOf t (some k) :: infos', L', ?_, .cons ⟨infoOf_ok t (some k), by simp [infoOf, hs], ?_⟩ F, h1, ?_, ?_, ?_⟩
      · simp only [List.length_cons, List.flatMap_cons, List.append_assoc, rFold, e, e1]
        simp
      · rintro p hp
        obtain rfl : k = p := by simpa [infoOf] using hp
        obtain ⟨u, hk, R⟩ := C.ready
        exact ⟨u, h3 k u hk (fun t' ht' _ he => hnt (by rw [← R.name, ← he]; exact List.mem_map.2 ⟨t', ht', rfl⟩)), R⟩
      · intro x
        rw [h2, C.names]
        have hs' : checkSkip t.name no ol = false := by simpa using hs
        constructor
        · rintro ((h | h) | ⟨t', h, h'⟩)
          · exact Or.inl h
          · exact Or.inr ⟨t, List.mem_cons_self .., hs', h.symm⟩
          · exact Or.inr ⟨t', List.mem_cons_of_mem _ h, h'⟩
        · rintro (h | ⟨t', h, h'⟩)
          · exact Or.inl (Or.inl h)
          · rcases List.mem_cons.1 h with rfl | h
            · exact Or.inl (Or.inr h'.2.symm)
            · exact Or.inr ⟨t', h, h'⟩
      · intro j u hj hu'
        have h5 : u.name ≠ t.name := fun h => hu' t (List.mem_cons_self ..) (by simpa using hs) h.symm
        exact h3 j u (C.other j u hj h5) (fun t' h => hu' t' (List.mem_cons_of_mem _ h))
      · intro u hu' h
        exact C.back u (h4 u hu' (fun t' h' => h t' (List.mem_cons_of_mem _ h')))
          (fun e => h t (List.mem_cons_self ..) (by simpa using hs) e.symm)

variable {num : Nat → Nat}

theorem names_after (pos : Option Nat) (t : TagRec) (P : Nat → Nat → Bool) (L : List TagRec) :
    names (after pos (patch t P) L) = names L := by
  cases pos with
  | none => rfl
  | some p =>
    unfold names after
    simp only
    apply List.ext_getElem?
    intro j
    rw [List.getElem?_map, List.getElem?_map, List.getElem?_modify]
    cases L[j]? with
    | none => simp
    | some u => by_cases h : p = j <;> simp [h, patch]

theorem after_other {pos : Option Nat} {j : Nat} (h : pos ≠ some j) (f : TagRec → TagRec) (L : List TagRec) :
    (after pos f L)[j]? = L[j]? := by
  cases pos with
  | none => rfl
  | some p =>
    have : p ≠ j := fun e => h (by rw [e])
    simp [after, List.getElem?_modify, this]

theorem forall₂_mem {α β : Type} {P Q : α → β → Prop} {l : List α} {l' : List β} (F : List.Forall₂ P l l')
    (h : ∀ a b, a ∈ l → b ∈ l' → P a b → Q a b) : List.Forall₂ Q l l' := by
  induction F with
  | nil => exact .nil
  | cons hab _ ih =>
    exact .cons (h _ _ (List.mem_cons_self ..) (List.mem_cons_self ..) hab)
      (ih fun a b ha hb => h a b (List.mem_cons_of_mem _ ha) (List.mem_cons_of_mem _ hb))

theorem rDatas_wDatas (hm : Machines m lw) {st : Ld} (S : Links m num st) (r : Bytes) : ∀ (ts : List TagRec)
    (infos : List TagInfo) (L : List TagRec) (bs : Bytes), (∀ t ∈ ts, DataOk m lw num t) → (names ts).Nodup →
    (names L).Nodup → List.Forall₂ (Rel no ol L) ts infos → wAll (wData m num) ts = some bs →
    ∃ L', rFor (fun st i b => rFor (fun st ty b => rType lw i st ty b) (List.range 6) st b) infos (withTags st L) (bs ++ r) =
        some (withTags st L', r) ∧ names L' = names L ∧
      List.Forall₂ (fun t i => ∀ p, i.pos = some p → ∃ u, L'[p]? = some (patch t (allData t num) u) ∧ Ready t u) ts infos ∧
      (∀ j, (∀ i ∈ infos, i.pos ≠ some j) → L'[j]? = L[j]?)
  | [], [], L, bs, _, _, _, _, e => by
    cases e
    exact ⟨L, rfl, rfl, .nil, fun _ _ => rfl⟩
  | t :: ts, i :: infos, L, bs, hd, hn, hL, .cons R F, e => by
    obtain ⟨b, bs', e1, e2, rfl⟩ := wAll_cons e
    have hnt : t.name ∉ names ts := (List.nodup_cons.1 hn).1
    have hp : PosOk t i.pos L := by
      intro p hp
      obtain ⟨u, h1, h2⟩ := R.ready p hp
      exact ⟨u, h1, h2.dtype, h2.size⟩
    have e3 := rData_wData hm S (hd t (List.mem_cons_self ..)) R.info hp e1 (bs' ++ r)
    have hpos : ∀ (ts' : List TagRec) (infos' : List TagInfo), t.name ∉ names ts' → List.Forall₂ (Rel no ol L) ts' infos' →
        ∀ i' ∈ infos', ∀ p, i'.pos = some p → i.pos ≠ some p := by
      intro ts' infos' hnt' F' i' hi' p hp' hp''
      induction F' with
      | nil => cases hi'
      | @cons t' i'' ts' infos' R' F' ih =>
        rcases List.mem_cons.1 hi' with rfl | hi'
        · obtain ⟨u, h1, h2⟩ := R.ready p hp''
          obtain ⟨u', h1', h2'⟩ := R'.ready p hp'
          rw [h1] at h1'
          cases h1'
          exact hnt' (by rw [← h2.name, h2'.name]; exact List.mem_cons_self ..)
        · exact ih (fun h => hnt' (List.mem_cons_of_mem _ h)) hi'
    have F2 : List.Forall₂ (Rel no ol (after i.pos (patch t (allData t num)) L)) ts infos := by
      refine forall₂_mem F ?_
      rintro t' i' _ hz R'
      refine ⟨R'.info, R'.skip, fun p hp' => ?_⟩
      obtain ⟨u, h1, h2⟩ := R'.ready p hp'
      exact ⟨u, by rw [after_other (hpos ts infos hnt F i' hz p hp')]; exact h1, h2⟩
    obtain ⟨L', e4, h1, h2, h3⟩ := rDatas_wDatas hm S r ts infos _ bs' (fun x hx => hd x (List.mem_cons_of_mem _ hx))
      (List.nodup_cons.1 hn).2 (by rw [names_after]; exact hL) F2 e2
    refine ⟨L', ?_, by rw [h1, names_after], .cons ?_ h2, ?_⟩
    · simp only [rFor, List.append_assoc]
      rw [e3]
      exact e4
    · intro p hp'
      obtain ⟨u, h4, h5⟩ := R.ready p hp'
      refine ⟨u, ?_, h5⟩
      rw [h3 p (fun i' hi' h => hpos ts infos hnt F i' hi' p h hp')]
      simp [hp', after, List.getElem?_modify, h4]
    · intro j hj
      rw [h3 j (fun i' hi' => hj i' (List.mem_cons_of_mem _ hi')), after_other (hj i (List.mem_cons_self ..))]

end Verif.Pmf
