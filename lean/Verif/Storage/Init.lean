import Verif.Storage.TagOps

/-! # The initial state -/

namespace Verif.Storage

variable {V : Type} {zero : Nat → Option Nat → V}

/-- A state without tags. -/
def bare (zero : Nat → Option Nat → V) (T : ET → TS V) : Sto V :=
  ⟨T, [], 0, fun _ => ⟨0, fun _ => zero 0 none⟩, [], false⟩

/-- The type MESH with its one element. -/
def meshTS (V : Type) : TS V :=
  ⟨1, fun x => if x = 0 then some 0 else none, 1, fun x => if x = 0 then some 0 else none, [], [],
    0, fun _ => []⟩

theorem tie_bare : tie zero (bare zero fun _ => TS.empty V) 5 =
    some (bare zero (fun u => if u = 5 then meshTS V else TS.empty V), 0) := by
  simp [tie, pickAddr, pickId, bare, meshTS, TS.empty, TS.capacity, TS.occupied, physical,
    chunkElems, reallocate, clampSize, upd_self, foldCols]
  funext u
  by_cases hu : u = 5
  · subst hu; rfl
  · simp [upd, hu]

/-- Effect of `ReallocateData` on a type if there are no tags. -/
def bareRe (t : ET) (S : TS V) : TS V :=
  { S with nback := clampSize t S.capacity, nsparse := 0, sparse := fun _ => [] }

theorem reallocate_bare (T : ET → TS V) (t : ET)
    (h : ∀ a, (T t).nback ≤ a → (T t).back a = none) :
    reallocate zero (bare zero T) t ((bare zero T).ty t).capacity =
      bare zero (upd T t (bareRe t (T t))) := by
  unfold reallocate
  simp only [bare, foldCols, List.any_nil, List.foldl_nil]
  congr 2
  unfold bareRe
  simp only [Bool.false_eq_true, if_false]
  congr 1
  funext k
  by_cases hk : k < (T t).nback
  · exact if_pos hk
  · exact (if_neg hk).trans (h k (by omega)).symm

theorem fold_bare (ts : List ET) : ∀ (T : ET → TS V), ts.Nodup →
    (∀ t ∈ ts, ∀ a, (T t).nback ≤ a → (T t).back a = none) →
    ts.foldl (fun s t => reallocate zero s t (s.ty t).capacity) (bare zero T) =
      bare zero (fun u => if u ∈ ts then bareRe u (T u) else T u) := by
  induction ts with
  | nil => intro T _ _; simp
  | cons t ts ih =>
    intro T hnd h
    rw [List.nodup_cons] at hnd
    rw [List.foldl_cons, reallocate_bare T t (h t (by simp))]
    rw [ih _ hnd.2]
    · congr 1
      funext u
      by_cases e : u = t
      · subst e; simp [hnd.1, upd_self]
      · rw [upd_ne _ _ e]; simp [e]
    · intro u hu
      rw [upd_ne _ _ (by rintro rfl; exact hnd.1 hu)]
      exact h u (by simp [hu])

/-- `Mesh::Init` succeeds; the only element is the one of type MESH. -/
theorem init_spec : ∃ s, initSto zero = some s ∧ s.tags = [] ∧ s.ndense = 0 ∧ s.emptyDense = [] ∧
    s.modified = false ∧ ∀ t, (s.ty t).emptySpace = [] ∧ (s.ty t).emptyLinks = [] ∧
      (s.ty t).nsparse = 0 ∧ (∀ a, (s.ty t).sparse a = []) ∧
      (s.ty t).nlinks = (if t = 5 then 1 else 0) ∧
      (s.ty t).nback = (if t = 5 then 1 else 1024) ∧
      (s.ty t).links 0 = (if t = 5 then some 0 else none) ∧
      ∀ a, (s.ty t).back a = (if t = 5 ∧ a = 0 then some 0 else none) := by
  refine ⟨bare zero (fun u => if u ∈ allTypes then bareRe u (if u = 5 then meshTS V else TS.empty V)
    else if u = 5 then meshTS V else TS.empty V), ?_, rfl, rfl, rfl, rfl, ?_⟩
  · unfold initSto
    rw [show (⟨fun _ => TS.empty V, [], 0, fun _ => ⟨0, fun _ => zero 0 none⟩, [], false⟩ : Sto V) =
      bare zero (fun _ => TS.empty V) from rfl, tie_bare]
    simp only
    rw [fold_bare _ _ allTypes_nodup]
    intro t _ a ha
    split at ha <;> split
    · simp only [meshTS] at ha ⊢; rw [if_neg (by omega)]
    · contradiction
    · contradiction
    · rfl
  · intro t
    simp only [bare, allTypes_mem, if_true]
    by_cases ht : t = 5
    · subst ht
      refine ⟨rfl, rfl, rfl, fun a => rfl, rfl, rfl, rfl, fun a => ?_⟩
      simp [bareRe, meshTS]
    · simp [ht, bareRe, TS.empty, clampSize, TS.capacity, TS.occupied, physical]

theorem init_inv {s : Sto V} (h : initSto zero = some s) : Inv zero s ∧ s.tags = [] ∧
    s.modified = false ∧ ∀ t id, slot s t id = if t = 5 ∧ id = 0 then some 0 else none := by
  obtain ⟨s0, e, h1, h2, h3, h4, h5⟩ := init_spec (zero := zero)
  rw [e] at h; cases h
  have hslot : ∀ t id, slot s t id = if t = 5 ∧ id = 0 then some 0 else none := by
    intro t id
    obtain ⟨-, -, -, -, a, -, b, -⟩ := h5 t
    unfold slot
    rw [a]
    by_cases ht : t = 5
    · by_cases hi : id = 0
      · subst hi; rw [b]; simp [ht]
      · rw [if_neg (by simp [ht]; omega), if_neg (by simp [hi])]
    · simp [ht]
  refine ⟨⟨?_, ?_⟩, h1, h4, hslot⟩
  · intro t
    obtain ⟨a1, a2, a3, a4, a5, a6, a7, a8⟩ := h5 t
    have hocc : (s.ty t).occupied = if t = 5 then 1 else 0 := by
      unfold TS.occupied; rw [a1, a2, a5]; rfl
    have hlk : ∀ i, i < (s.ty t).nlinks → i = 0 ∧ t = 5 := by
      intro i hi
      rw [a5] at hi
      split at hi
      · next h => exact ⟨by omega, h⟩
      · omega
    refine ⟨by rw [a2]; exact List.nodup_nil, ?_, by rw [a1]; exact List.nodup_nil, ?_, ?_, ?_, ?_, ?_⟩
    · intro i
      rw [a2]
      simp only [List.not_mem_nil, false_iff]
      rintro ⟨hi, hn⟩
      obtain ⟨rfl, ht⟩ := hlk i hi
      rw [a7, if_pos ht] at hn; cases hn
    · intro a
      rw [a1, hocc, a8]
      simp only [List.not_mem_nil, false_iff]
      rintro ⟨hi, hn⟩
      split at hi
      · next h => rw [if_pos ⟨h, by omega⟩] at hn; cases hn
      · omega
    · intro i a hi ha
      obtain ⟨rfl, ht⟩ := hlk i hi
      rw [a7, if_pos ht] at ha
      cases ha
      rw [hocc, if_pos ht, a8, if_pos ⟨ht, rfl⟩]
      exact ⟨by omega, rfl⟩
    · intro a i ha hb
      rw [a8] at hb
      split at hb
      · next h =>
        cases hb
        rw [a5, if_pos h.1, a7, if_pos h.1, h.2]
        exact ⟨by omega, rfl⟩
      · cases hb
    · unfold TS.capacity
      rw [hocc, a6]
      unfold clampSize
      by_cases ht : t = 5
      · simp [ht]
      · simp [ht, physical, chunkElems]
    · intro ht; rw [hocc, if_pos ht]
  · refine ⟨by rw [h1]; exact List.nodup_nil, by rw [h1]; exact List.nodup_nil, ?_, ?_, ?_, ?_, ?_, ?_,
      by rw [h3]; simp, ?_, ?_, ?_, ?_, ?_⟩
    all_goals try (rw [h1]; intro τ hτ; simp at hτ)
    · intro t; exact Or.inl (h5 t).2.2.1
    · intro t a r hr; rw [(h5 t).2.2.2.1] at hr; simp at hr
    · intro t a; rw [(h5 t).2.2.2.1]; exact List.nodup_nil
    · rintro t a ⟨id, hid⟩
      rw [hslot] at hid
      split at hid
      · next h => cases hid; rw [(h5 t).2.2.2.2.2.1, if_pos h.1]; omega
      · cases hid

end Verif.Storage
