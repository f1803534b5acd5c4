import Verif.Unknowns.Spec
import Mathlib.Data.List.Nodup
import Mathlib.Data.List.Range
import Mathlib.Data.List.Count
import Mathlib.Tactic.Tauto

/-!
# Lemmas on the registry and the numbering
-/

namespace Verif.Unknowns

/-! ## The registry -/

/-- The invariant of the registry. -/
structure RInv (s : Registry) : Prop where
  len : s.act.length = s.reg.length
  nodup : s.del.Nodup
  free : ∀ i, i ∈ s.del ↔ s.reg[i]? = some none
  inactive : ∀ (i : Nat), s.reg[i]? = some none → s.act[i]? = some false
  active : ∀ (i : Nat) (b : Entry), s.reg[i]? = some (some b) → s.act[i]? = some true →
    b.regIndex = some i ∧ ∀ t, b.types t = true → b.offDefined t = true

theorem rinv_init : RInv Registry.init :=
  ⟨rfl, by simp [Registry.init], by simp [Registry.init], by simp [Registry.init], by simp [Registry.init]⟩

theorem register_spec (s : Registry) (h : RInv s) (b : Entry) :
    ∃ s' r, register s b = some (s', r) ∧ RInv s' ∧ isRegistered s r = false ∧ s'.reg[r]? = some (some (stored b r)) ∧
      s'.act[r]? = some true ∧ ∀ i, i ≠ r → s'.reg[i]? = s.reg[i]? ∧ s'.act[i]? = s.act[i]? := by
  unfold register
  cases hd : s.del.getLast? with
  | none =>
    rw [List.getLast?_eq_none_iff] at hd
    have hlen := h.len
    refine ⟨_, _, rfl, ⟨by simp [hlen], h.nodup, fun i => ?_, fun i hi => ?_, fun i b' hb ha => ?_⟩, ?_, ?_, ?_, fun i hi => ?_⟩
    · rw [hd]
      simp only [List.not_mem_nil, false_iff]
      intro hi
      rcases Nat.lt_trichotomy i s.reg.length with hlt | heq | hgt
      · rw [List.getElem?_append_left hlt] at hi
        have := (h.free i).2 hi
        rw [hd] at this; cases this
      · subst heq; simp at hi
      · rw [List.getElem?_eq_none (by simp; omega)] at hi; cases hi
    · rcases Nat.lt_trichotomy i s.reg.length with hlt | heq | hgt
      · rw [List.getElem?_append_left hlt] at hi
        rw [List.getElem?_append_left (by omega)]
        exact h.inactive i hi
      · subst heq; simp at hi
      · rw [List.getElem?_eq_none (by simp; omega)] at hi; cases hi
    · rcases Nat.lt_trichotomy i s.reg.length with hlt | heq | hgt
      · rw [List.getElem?_append_left hlt] at hb
        rw [List.getElem?_append_left (by omega)] at ha
        exact h.active i b' hb ha
      · subst heq
        simp at hb
        subst hb
        exact ⟨rfl, fun t ht => by simp [stored]; left; exact ht⟩
      · rw [List.getElem?_eq_none (by simp; omega)] at hb; cases hb
    · unfold isRegistered; rw [List.getElem?_eq_none (by omega)]
    · simp
    · simp [← hlen]
    · simp only
      rcases Nat.lt_or_ge i s.reg.length with hlt | hge
      · rw [List.getElem?_append_left hlt, List.getElem?_append_left (by omega)]; exact ⟨rfl, rfl⟩
      · rw [List.getElem?_eq_none (by simp; omega), List.getElem?_eq_none (l := s.reg) (by omega),
          List.getElem?_eq_none (by simp; omega), List.getElem?_eq_none (l := s.act) (by omega)]; exact ⟨rfl, rfl⟩
  | some r =>
    have hmem : r ∈ s.del := List.mem_of_getLast? hd
    have hfree := (h.free r).1 hmem
    have hr : r < s.reg.length := (List.getElem?_eq_some_iff.1 hfree).1
    have hlen := h.len
    simp only [h.inactive r hfree]
    have hdel : s.del = s.del.dropLast ++ [r] := by
      have := List.dropLast_append_getLast? r hd; exact this.symm
    have hnd := h.nodup
    rw [hdel, List.nodup_append] at hnd
    refine ⟨_, _, rfl, ⟨by simp [hlen], hnd.1, fun i => ?_, fun i hi => ?_, fun i b' hb ha => ?_⟩, ?_, ?_, ?_, fun i hi => ?_⟩
    · by_cases hi : i = r
      · subst hi
        simp [hr]
        intro hmem'
        exact hnd.2.2 i hmem' i (by simp) rfl
      · rw [List.getElem?_set_ne (fun hh => hi hh.symm), ← h.free i]
        conv_rhs => rw [hdel]
        simp [hi]
    · by_cases hir : i = r
      · subst hir; simp [hr] at hi
      · rw [List.getElem?_set_ne (fun hh => hir hh.symm)] at hi ⊢
        exact h.inactive i hi
    · by_cases hir : i = r
      · subst hir
        simp [hr] at hb
        subst hb
        exact ⟨rfl, fun t ht => by simp [stored]; left; exact ht⟩
      · rw [List.getElem?_set_ne (fun hh => hir hh.symm)] at hb ha
        exact h.active i b' hb ha
    · unfold isRegistered; rw [hfree]
    · simp [hr]
    · simp [hlen, hr]
    · rw [List.getElem?_set_ne (fun hh => hi hh.symm), List.getElem?_set_ne (fun hh => hi hh.symm)]; exact ⟨rfl, rfl⟩

theorem unregister_spec (s : Registry) (h : RInv s) (i : Nat) (hi : isRegistered s i = true) :
    ∃ s', unregister s i = some s' ∧ RInv s' ∧ s'.reg[i]? = some none ∧
      ∀ j, j ≠ i → s'.reg[j]? = s.reg[j]? ∧ s'.act[j]? = s.act[j]? := by
  unfold isRegistered at hi
  unfold unregister
  have hlen := h.len
  cases hb : s.reg[i]? with
  | none => rw [hb] at hi; cases hi
  | some o =>
    cases o with
    | none => rw [hb] at hi; cases hi
    | some b =>
      have hlt : i < s.reg.length := (List.getElem?_eq_some_iff.1 hb).1
      have hni : i ∉ s.del := fun hm => by
        have := (h.free i).1 hm; rw [hb] at this; cases this
      refine ⟨_, rfl, ⟨by simp [hlen], ?_, fun j => ?_, fun j hj => ?_, fun j b' hj ha => ?_⟩, by simp [hlt], fun j hj => ?_⟩
      · rw [List.nodup_append]
        refine ⟨h.nodup, by simp, ?_⟩
        intro a ha c hc
        simp at hc; subst hc
        rintro rfl; exact hni ha
      · by_cases hji : j = i
        · subst hji; simp [hlt]
        · rw [List.getElem?_set_ne (fun hh => hji hh.symm), ← h.free j]; simp [hji]
      · by_cases hji : j = i
        · subst hji; simp [hlen, hlt]
        · rw [List.getElem?_set_ne (fun hh => hji hh.symm)] at hj ⊢; exact h.inactive j hj
      · by_cases hji : j = i
        · subst hji; simp [hlt] at hj
        · rw [List.getElem?_set_ne (fun hh => hji hh.symm)] at hj ha; exact h.active j b' hj ha
      · rw [List.getElem?_set_ne (fun hh => hj hh.symm), List.getElem?_set_ne (fun hh => hj hh.symm)]; exact ⟨rfl, rfl⟩

/-- Replacement of a registered entry together with its activity flag. -/
theorem rinv_replace (s : Registry) (h : RInv s) (i : Nat) (b b' : Entry) (a : Bool) (hb : s.reg[i]? = some (some b))
    (ha : a = true → b'.regIndex = some i ∧ ∀ t, b'.types t = true → b'.offDefined t = true) :
    RInv ⟨s.reg.set i (some b'), s.act.set i a, s.del⟩ := by
  have hlt : i < s.reg.length := (List.getElem?_eq_some_iff.1 hb).1
  have hlen := h.len
  refine ⟨by simp [hlen], h.nodup, fun j => ?_, fun j hj => ?_, fun j c hj hact => ?_⟩
  · by_cases hji : j = i
    · subst hji
      simp [hlt]
      intro hm
      have := (h.free j).1 hm; rw [hb] at this; cases this
    · rw [List.getElem?_set_ne (fun hh => hji hh.symm)]; exact h.free j
  · by_cases hji : j = i
    · subst hji; simp [hlt] at hj
    · rw [List.getElem?_set_ne (fun hh => hji hh.symm)] at hj ⊢; exact h.inactive j hj
  · by_cases hji : j = i
    · subst hji
      simp [hlt] at hj
      subst hj
      simp [hlen, hlt] at hact
      exact ha hact
    · rw [List.getElem?_set_ne (fun hh => hji hh.symm)] at hj hact; exact h.active j c hj hact

theorem step_inv (s s' : Registry) (h : RInv s) (o : Op) (hs : step s o = some s') : RInv s' := by
  cases o with
  | register b =>
    obtain ⟨s1, r, h1, h2, _⟩ := register_spec s h b
    simp only [step, h1, Option.map_some, Option.some.injEq] at hs
    exact hs ▸ h2
  | unregister i =>
    simp only [step] at hs
    by_cases hi : isRegistered s i = true
    · obtain ⟨s1, h1, h2, _⟩ := unregister_spec s h i hi
      rw [h1] at hs
      exact Option.some.inj hs ▸ h2
    · exfalso
      unfold isRegistered at hi
      unfold unregister at hs
      split at hs
      · rename_i hb; rw [hb] at hi; exact hi rfl
      · cases hs
  | deactivate i =>
    simp only [step, deactivate] at hs
    split at hs
    · rename_i b hb
      exact Option.some.inj hs ▸ rinv_replace s h i b _ false hb (by simp)
    · cases hs
  | activate i =>
    simp only [step, activate] at hs
    split at hs
    · rename_i b hb
      exact Option.some.inj hs ▸ rinv_replace s h i b _ true hb (fun _ => ⟨rfl, fun t (ht : b.types t = true) => by simp [ht]⟩)
    · cases hs

theorem run_inv (s s' : Registry) (h : RInv s) (os : List Op) (hs : run s os = some s') : RInv s' := by
  induction os generalizing s with
  | nil => simp only [run, Option.some.injEq] at hs; exact hs ▸ h
  | cons o os ih =>
    rw [run] at hs
    cases hst : step s o with
    | none => rw [hst] at hs; cases hs
    | some s1 => rw [hst] at hs; exact ih s1 (step_inv s s1 h o hst) hs

/-! ## Numbering -/

theorem number_spec (off : Offsets) (last : Nat) (vs : List (Key × Option Nat)) (hn : (vs.map (·.1)).Nodup)
    (hs : ∀ v ∈ vs, v.2.isSome) :
    ∃ off' last', number off last vs = some (off', last') ∧ last ≤ last' ∧
      (∀ q, q ∉ vs.map (·.1) → off' q = off q) ∧
      (∀ q n, (q, some n) ∈ vs → last ≤ off' q ∧ off' q + n ≤ last') ∧
      (∀ q n q' n', (q, some n) ∈ vs → (q', some n') ∈ vs → q ≠ q' → off' q + n ≤ off' q' ∨ off' q' + n' ≤ off' q) ∧
      (∀ i, last ≤ i → i < last' → ∃ q n, (q, some n) ∈ vs ∧ off' q ≤ i ∧ i < off' q + n) := by
  induction vs generalizing off last with
  | nil => exact ⟨off, last, rfl, le_refl _, fun _ _ => rfl, by simp, by simp, fun i h1 h2 => by omega⟩
  | cons v vs ih =>
    obtain ⟨key, sz⟩ := v
    have hsz := hs (key, sz) (by simp)
    cases sz with
    | none => simp at hsz
    | some n =>
      rw [List.map_cons, List.nodup_cons] at hn
      obtain ⟨off', last', h1, h2, h3, h4, h5, h6⟩ := ih (fun q => if q = key then last else off q) (last + n) hn.2
        (fun v hv => hs v (List.mem_cons_of_mem _ hv))
      have hkey : off' key = last := by rw [h3 key hn.1]; simp
      refine ⟨off', last', by rw [number]; exact h1, by omega, fun q hq => ?_, fun q m hm => ?_, ?_, fun i hi1 hi2 => ?_⟩
      · simp only [List.map_cons, List.mem_cons, not_or] at hq
        rw [h3 q hq.2]; simp [hq.1]
      · rcases List.mem_cons.1 hm with he | hm
        · simp only [Prod.mk.injEq, Option.some.injEq] at he
          obtain ⟨rfl, rfl⟩ := he
          rw [hkey]; omega
        · have := h4 q m hm; omega
      · intro q m q' m' hm hm' hne
        rcases List.mem_cons.1 hm with he | hm1 <;> rcases List.mem_cons.1 hm' with he' | hm1'
        · simp only [Prod.mk.injEq, Option.some.injEq] at he he'
          exact absurd (he.1.trans he'.1.symm) hne
        · simp only [Prod.mk.injEq, Option.some.injEq] at he
          obtain ⟨rfl, rfl⟩ := he
          have := h4 q' m' hm1'; rw [hkey]; omega
        · simp only [Prod.mk.injEq, Option.some.injEq] at he'
          obtain ⟨rfl, rfl⟩ := he'
          have := h4 q m hm1; rw [hkey]; omega
        · exact h5 q m q' m' hm1 hm1' hne
      · by_cases hlt : i < last + n
        · exact ⟨key, n, by simp, by omega, by omega⟩
        · obtain ⟨q, m, hm, hq⟩ := h6 i (by omega) hi2
          exact ⟨q, m, List.mem_cons_of_mem _ hm, hq⟩

theorem mem_visitEntry (views : Nat → MeshView) (it : Nat) (b : Entry) (q : Key) (sz : Option Nat) :
    (q, sz) ∈ visitEntry views it b ↔ ∃ t k, q = (it, t, k) ∧ t ≤ 5 ∧ b.types t = true ∧ k < (views b.mesh).lastLocalID t ∧
      (views b.mesh).valid t k = true ∧ (t = 5 ∨ (views b.mesh).ghost t k = false) ∧
      b.isValid (views b.mesh) t k = true ∧ b.size (views b.mesh) t k ≠ some 0 ∧ sz = b.size (views b.mesh) t k := by
  unfold visitEntry
  simp only [List.mem_flatMap]
  constructor
  · rintro ⟨t, ht, hm⟩
    split at hm
    · rename_i hty
      rw [List.mem_filterMap] at hm
      obtain ⟨k, hk, hm⟩ := hm
      rw [List.mem_range] at hk
      split at hm
      · rename_i hc
        simp only [Option.some.injEq, Prod.mk.injEq] at hm
        simp only [Bool.and_eq_true, Bool.or_eq_true, beq_iff_eq, Bool.not_eq_true', bne_iff_ne, ne_eq] at hc
        refine ⟨t, k, hm.1.symm, ?_, hty, hk, hc.1.1.1, hc.1.1.2, hc.1.2, hc.2, hm.2.symm⟩
        simp at ht; omega
      · cases hm
    · cases hm
  · rintro ⟨t, k, rfl, ht, hty, hk, h1, h2, h3, h4, rfl⟩
    refine ⟨t, ?_, ?_⟩
    · have : t = 0 ∨ t = 1 ∨ t = 2 ∨ t = 3 ∨ t = 4 ∨ t = 5 := by omega
      simp; omega
    · rw [if_pos hty, List.mem_filterMap]
      refine ⟨k, List.mem_range.2 hk, ?_⟩
      rw [if_pos]
      simp only [Bool.and_eq_true, Bool.or_eq_true, beq_iff_eq, Bool.not_eq_true', bne_iff_ne, ne_eq]
      exact ⟨⟨⟨h1, h2⟩, h3⟩, h4⟩

theorem mem_visit (s : Registry) (views : Nat → MeshView) (q : Key) (sz : Option Nat) :
    (q, sz) ∈ visit s views ↔ ∃ b, s.reg[q.1]? = some (some b) ∧ s.act[q.1]? = some true ∧ (q, sz) ∈ visitEntry views q.1 b := by
  unfold visit
  rw [List.mem_flatMap]
  constructor
  · rintro ⟨it, hit, hm⟩
    split at hm
    · rename_i b ha hb
      have : q.1 = it := by
        obtain ⟨t, k, h, _⟩ := (mem_visitEntry views it b q sz).1 hm
        rw [h]
      subst this
      exact ⟨b, hb, ha, hm⟩
    · cases hm
  · rintro ⟨b, hb, ha, hm⟩
    refine ⟨q.1, List.mem_range.2 (List.getElem?_eq_some_iff.1 hb).1, ?_⟩
    rw [ha, hb]; exact hm

theorem visitEntry_nodup (views : Nat → MeshView) (it : Nat) (b : Entry) : ((visitEntry views it b).map (·.1)).Nodup := by
  unfold visitEntry
  simp only
  rw [List.map_flatMap, List.nodup_flatMap]
  constructor
  · intro t _
    split
    · rw [List.map_filterMap]
      apply List.Nodup.filterMap _ List.nodup_range
      intro k k' q hk hk'
      simp only [Option.mem_def, Option.map_eq_some_iff] at hk hk'
      obtain ⟨x, hx, rfl⟩ := hk
      obtain ⟨y, hy, hxy⟩ := hk'
      split at hx
      · split at hy
        · cases hx; cases hy; simp at hxy; exact hxy.symm
        · cases hy
      · cases hx
    · simp
  · have hdis : ∀ t t' : Nat, t ≠ t' → Function.onFun List.Disjoint (fun t => List.map (·.1)
        (if b.types t = true then (List.range ((views b.mesh).lastLocalID t)).filterMap fun k =>
          if (views b.mesh).valid t k && (t == 5 || !(views b.mesh).ghost t k) && b.isValid (views b.mesh) t k &&
            b.size (views b.mesh) t k != some 0 then some ((it, t, k), b.size (views b.mesh) t k) else none else [])) t t' := by
      intro t t' hne q hq hq'
      have key : ∀ u, q ∈ List.map (·.1)
        (if b.types u = true then (List.range ((views b.mesh).lastLocalID u)).filterMap fun k =>
          if (views b.mesh).valid u k && (u == 5 || !(views b.mesh).ghost u k) && b.isValid (views b.mesh) u k &&
            b.size (views b.mesh) u k != some 0 then some ((it, u, k), b.size (views b.mesh) u k) else none else []) →
          q.2.1 = u := by
        intro u hu
        split at hu
        · rw [List.mem_map] at hu
          obtain ⟨x, hx, rfl⟩ := hu
          rw [List.mem_filterMap] at hx
          obtain ⟨k, _, hx⟩ := hx
          split at hx
          · cases hx; rfl
          · cases hx
        · simp at hu
      exact hne ((key t hq).symm.trans (key t' hq'))
    have hnd : ([5, 4, 3, 2, 1, 0] : List Nat).Pairwise (· ≠ ·) := by decide
    exact hnd.imp (fun {a c} h => hdis a c h)

theorem visit_nodup (s : Registry) (views : Nat → MeshView) : ((visit s views).map (·.1)).Nodup := by
  unfold visit
  rw [List.map_flatMap, List.nodup_flatMap]
  constructor
  · intro it _
    split
    · exact visitEntry_nodup views it _
    · simp
  · have hnd : (List.range s.reg.length).Pairwise (· ≠ ·) := List.nodup_range
    refine hnd.imp (fun {a c} hne q hq hq' => ?_)
    have key : ∀ u, q ∈ List.map (·.1) (match s.act[u]?, s.reg[u]? with
        | some true, some (some b) => visitEntry views u b
        | _, _ => []) → q.1 = u := by
      intro u hu
      split at hu
      · rw [List.mem_map] at hu
        obtain ⟨x, hx, rfl⟩ := hu
        obtain ⟨t, k, h, _⟩ := (mem_visitEntry views u _ x.1 x.2).1 hx
        rw [h]
      · simp at hu
    exact hne ((key a hq).symm.trans (key c hq'))

/-! ## Sizes -/

theorem countP_prefix {α : Type} (p : α → Bool) (l : List α)
    (h : ∀ (i j : Nat), i < j → (∃ x, l[j]? = some x ∧ p x = true) → ∃ x, l[i]? = some x ∧ p x = true) (i : Nat) :
    i < l.countP p ↔ ∃ x, l[i]? = some x ∧ p x = true := by
  induction l generalizing i with
  | nil => simp
  | cons a l ih =>
    by_cases ha : p a = true
    · rw [List.countP_cons_of_pos ha]
      cases i with
      | zero => simp [ha]
      | succ i =>
        rw [Nat.succ_lt_succ_iff, ih]
        · simp
        · intro i j hij hj
          have := h (i + 1) (j + 1) (by omega) (by simpa using hj)
          simpa using this
    · have hall : ∀ (j : Nat) (x : α), (a :: l)[j]? = some x → p x = false := by
        intro j x hj
        by_contra hp
        simp only [Bool.not_eq_false] at hp
        rcases Nat.eq_zero_or_pos j with h0 | h0
        · subst h0; simp at hj; subst hj; exact ha hp
        · obtain ⟨y, hy, hpy⟩ := h 0 j h0 ⟨x, hj, hp⟩
          simp at hy; subst hy; exact ha hpy
      have hz : (a :: l).countP p = 0 := by
        rw [List.countP_eq_zero]
        intro x hx
        obtain ⟨j, hj, hjx⟩ := List.mem_iff_getElem.1 hx
        simp [hall j x (by rw [List.getElem?_eq_getElem hj, hjx])]
      rw [hz]
      constructor
      · intro h; omega
      · rintro ⟨x, hx, hp⟩
        rw [hall i x hx] at hp; cases hp

theorem countStatus_eq (m : MeshView) (t k : Nat) (tags : List Nat) (row : List Bool) (h : tags.length ≤ row.length) :
    countStatus m t k tags row = some ((tags.zip row).countP fun x => m.haveData x.1 t k && x.2) := by
  induction tags generalizing row with
  | nil => simp [countStatus]
  | cons tag tags ih =>
    cases row with
    | nil => simp at h
    | cons f row =>
      have h' : tags.length ≤ row.length := by simpa using h
      rw [countStatus]
      by_cases hd : m.haveData tag t k = true
      · rw [if_pos hd]
        simp only [ih row h', List.zip_cons_cons, List.countP_cons, hd, Bool.true_and]
        cases f <;> simp
      · rw [if_neg hd]
        simp only [List.tail_cons, ih row h', List.zip_cons_cons, List.countP_cons, hd]
        simp

theorem size_spec (m : MeshView) (b : Entry) (hw : WellUsed m b) (t k : Nat) (ha : Applies m b t k) :
    ∃ n, b.size m t k = some n ∧ ∀ pos, pos < n ↔ HasUnknown m b t k pos := by
  obtain ⟨hmulti, hstat, hdown⟩ := hw
  have hd := hdown t k ha
  unfold Entry.size
  unfold HasUnknown at hd ⊢
  cases hk : b.kind with
  | multi parts => exact absurd hk (hmulti parts)
  | simple sm =>
    rw [hk] at hd
    cases sm with
    | single tag =>
      refine ⟨_, rfl, fun pos => ?_⟩
      simp only
      by_cases h : m.haveData tag t k = true
      · simp [h]
      · simp [h]
    | block tags =>
      exact ⟨_, rfl, fun pos => countP_prefix (fun tag => m.haveData tag t k) tags (fun i j hij hj => hd i j hij hj) pos⟩
    | vector tag =>
      refine ⟨_, rfl, fun pos => ?_⟩
      by_cases h : m.haveData tag t k = true
      · simp [h]
      · simp [h]
    | status tags st tbl =>
      obtain ⟨row, hrow, hlen⟩ := hstat tags st tbl hk t k ha
      simp only [Simple.size, hrow, countStatus_eq m t k tags row hlen]
      refine ⟨_, rfl, fun pos => ?_⟩
      have conv : ∀ (pos : Nat), (∃ tag row', tags[pos]? = some tag ∧ m.haveData tag t k = true ∧
          tbl[m.intData st t k]? = some row' ∧ row'[pos]? = some true) ↔
          ∃ x : Nat × Bool, (tags.zip row)[pos]? = some x ∧ (m.haveData x.1 t k && x.2) = true := by
        intro pos
        constructor
        · rintro ⟨tag, row', h1, h2, h3, h4⟩
          rw [hrow, Option.some.injEq] at h3
          subst h3
          exact ⟨(tag, true), by rw [List.getElem?_zip_eq_some]; exact ⟨h1, h4⟩, by simp [h2]⟩
        · rintro ⟨⟨tag, f⟩, h1, h2⟩
          rw [List.getElem?_zip_eq_some] at h1
          simp only [Bool.and_eq_true] at h2
          exact ⟨tag, row, h1.1, h2.1, hrow, by rw [h1.2, h2.2]⟩
      simp only [hrow] at conv
      rw [conv]
      refine countP_prefix (fun x => m.haveData x.1 t k && x.2) (tags.zip row) (fun i j hij hj => ?_) pos
      rw [← conv] at hj ⊢
      have := hd i j hij
      simp only [hrow] at this
      exact this hj

end Verif.Unknowns
