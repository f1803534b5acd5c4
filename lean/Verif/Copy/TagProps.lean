import Verif.Copy.Tag
import Verif.Copy.Props

/-!
# Property C104: copies of tags
-/

namespace Verif.Copy

open Verif.Storage

variable {V : Type} {zero : Nat → Option Nat → V}

/-- CopyTagData between two different tags of the same type and size: on all elements that are not hidden the output is that of
the input, and nothing else changes.
Missing from the full property: a tag copied to itself (`C104_self_fails`) and an input that is sparse on the mesh and has no
data there (`C104_mesh_fails`). -/
theorem C104_partial {hidden : ET → Nat → Bool} {τ σ : TagRec} {i j : Nat} {s : Sto V} (R : Reach zero s)
    (hM : alive s 5 0) (hh : hidden 5 0 = false) (hi : findTag s i = some τ) (hj : findTag s j = some σ) (hne : i ≠ j)
    (hty : τ.dtype = σ.dtype) (hsz : τ.size = σ.size)
    (hm : τ.defined 5 = true → σ.defined 5 = true → read s 5 0 i ≠ some none) :
    ∃ s', copyTagData zero hidden s i j = some s' ∧ Reach zero s' ∧ CopiedTag zero hidden τ σ s s' :=
  copyTagData_spec R hM hh hi hj hne hty hsz hm

/-- DuplicateTagData with a name not in use makes a tag of that name, of the same type and size, defined and sparse on the
same types, with the same data on all elements that are not hidden; no other data changes. -/
theorem C104_duplicate_partial {hidden : ET → Nat → Bool} {τ : TagRec} {i new : Nat} {s : Sto V} {name : String}
    (R : Reach zero s) (hM : alive s 5 0) (hh : hidden 5 0 = false) (hi : findTag s i = some τ)
    (hname : ∀ σ ∈ s.tags, σ.name ≠ name) (hnew : findTag s new = none)
    (hm : τ.defined 5 = true → read s 5 0 i ≠ some none) :
    ∃ s' σ, duplicateTagData zero hidden s i name new = some (s', new) ∧ Reach zero s' ∧
      findTag s' new = some σ ∧ σ.name = name ∧ σ.dtype = τ.dtype ∧ σ.size = τ.size ∧
      (∀ t, τ.defined t = true → σ.defined t = true ∧ σ.flag t = τ.flag t) ∧
      (∀ t id, slot s' t id = slot s t id) ∧
      (∀ t id, alive s t id → hidden t id = false → τ.defined t = true → read s' t id new = read s t id i) ∧
      ∀ t id k, k ≠ new → read s' t id k = read s t id k := by
  have hfn : findName s name = none := findName_none.2 hname
  have P : CreatePre s name τ.dtype τ.size τ.defined τ.flag new :=
    ⟨hnew, fun σ h => (by rw [hfn] at h; cases h), fun σ h => (by rw [hfn] at h; cases h)⟩
  obtain ⟨s1, j, e1, -, -, h1, h2, -, h4, ⟨σ, q1, q2, q3, q4, -, q6, q7⟩, h5⟩ := createTag_spec R.inv P
  have R1 : Reach zero s1 := R.createTag P e1
  have hj := h4 hfn
  subst hj
  have hij : i ≠ j := by
    rintro rfl; rw [hnew] at hi; cases hi
  have hnone : ∀ u, ∀ ρ, findTag s j = some ρ → ρ.pos u = .undef := by
    intro u ρ h; rw [hnew] at h; cases h
  have hread : ∀ t id k, k ≠ j → Storage.read s1 t id k = Storage.read s t id k := by
    intro t id k hk
    unfold Storage.read
    rw [h1]
    cases h : slot s t id with
    | none => rfl
    | some b => exact h5 t b k ⟨id, h⟩ hk
  have hi1 : findTag s1 i = some τ := by rw [h2 i hij]; exact hi
  have hM1 : alive s1 5 0 := by unfold alive; rw [h1]; exact hM
  have hsz : σ.size = τ.size := q4 hfn
  obtain ⟨s2, e2, R2, C⟩ := copyTagData_spec (hidden := hidden) R1 hM1 hh hi1 q1 hij q3.symm hsz.symm
    (fun hd _ => by rw [hread 5 0 i hij]; exact hm hd)
  have hσi : σ.id = j := (find_mem q1).2
  have hτi : τ.id = i := (find_mem hi).2
  refine ⟨s2, σ, ?_, R2, by rw [find_tags C.tags]; exact q1, q2, q3, hsz,
    fun t ht => ⟨(q6 t ht).1, (q6 t ht).2 (hnone t)⟩, fun t id => (C.slots t id).trans (h1 t id), ?_, ?_⟩
  · unfold duplicateTagData
    rw [hi]
    simp only
    rw [e1]
    simp only
    rw [e2]
  · intro t id ha hv hd
    have ha1 : alive s1 t id := by unfold alive; rw [h1]; exact ha
    have := C.output t id ha1 hv hd (q6 t hd).1
    rw [hσi, hτi, hread t id i hij] at this
    rw [this]
    cases hf : τ.flag t with
    | true =>
      unfold outcome
      have hfl : σ.flag t = true := by rw [(q6 t hd).2 (hnone t)]; exact hf
      split
      · next h => rw [h, if_pos hfl]
      · rfl
    | false =>
      obtain ⟨v, hv⟩ := dense_read R (τ := τ) (by rw [hτi]; exact hi) hd hf ha
      rw [hτi] at hv
      rw [hv]; rfl
  · intro t id k hk
    rw [C.other t id k (.inl (by rw [hσi]; exact hk)), hread t id k hk]

/-! ## Witnesses -/

section Witness

def shown : ET → Nat → Bool := fun _ _ => false

/-- A tag of variable size copied to itself loses its data: the value 5 on node 1 of `w8`. -/
def self8 : Sto Nat := (copyTagData z shown w8 11 11).get (by decide +kernel)

theorem C104_self_fails : ∃ (s s' : Sto Nat) (τ : TagRec), Reach z s ∧ alive s 5 0 ∧ findTag s τ.id = some τ ∧
    copyTagData z shown s τ.id τ.id = some s' ∧ ¬ CopiedTag z shown τ τ s s' := by
  have h1 : read w8 0 1 11 = some (some 5) := by decide +kernel
  have h2 : read self8 0 1 11 = some (some 0) := by decide +kernel
  have hs : (findTag w8 11).isSome = true := by decide +kernel
  have hd : (findTag w8 11).map (·.defined 0) = some true := by decide +kernel
  cases hf : findTag w8 11 with
  | none => rw [hf] at hs; cases hs
  | some τ =>
    rw [hf] at hd
    obtain ⟨-, hi⟩ := find_mem hf
    refine ⟨w8, self8, τ, w8_reach, w8_mesh, by rw [hi]; exact hf, by rw [hi]; exact getEq _, fun C => ?_⟩
    have ha : alive w8 0 1 := some_alive (by decide +kernel)
    have := C.output 0 1 ha rfl (Option.some.inj hd) (Option.some.inj hd)
    rw [hi, h1, h2] at this
    cases this

/-- A mesh with two sparse tags on the mesh itself, without data. -/
def m5 : ET → Bool := fun t => t = 5
def g1 : Sto Nat := ((createTag z w0 "p" 0 (some 1) m5 m5 20).get (by decide +kernel)).1
def g2 : Sto Nat := ((createTag z g1 "q" 0 (some 1) m5 m5 21).get (by decide +kernel)).1
def g3 : Sto Nat := (copyTagData z shown g2 20 21).get (by decide +kernel)

theorem g2_reach : Reach z g2 := by
  have h : w0.tags = [] := (init_inv (getEq (by decide +kernel) : initSto z = some w0)).2.1
  have P : CreatePre w0 "p" 0 (some 1) m5 m5 20 := by
    refine ⟨?_, ?_, ?_⟩
    · unfold findTag; rw [h]; rfl
    · intro τ hτ; unfold findName at hτ; rw [h] at hτ; cases hτ
    · intro τ hτ; unfold findName at hτ; rw [h] at hτ; cases hτ
  have R1 : Reach z g1 := .createTag w0_reach P (getEq2 _)
  have h1 : (findName g1 "q").isNone = true := by decide +kernel
  have h2 : (findTag g1 21).isNone = true := by decide +kernel
  rw [Option.isNone_iff_eq_none] at h1 h2
  refine .createTag R1 ⟨h2, ?_, ?_⟩ (getEq2 (by decide +kernel) :
    createTag z g1 "q" 0 (some 1) m5 m5 21 = some (g2, _))
  · intro τ hτ; rw [h1] at hτ; cases hτ
  · intro τ hτ; rw [h1] at hτ; cases hτ

/-- An input without data on the mesh: CopyTagData gives both tags data there. -/
theorem C104_mesh_fails : ∃ (s s' : Sto Nat) (τ σ : TagRec), Reach z s ∧ alive s 5 0 ∧ findTag s τ.id = some τ ∧
    findTag s σ.id = some σ ∧ τ.id ≠ σ.id ∧ τ.dtype = σ.dtype ∧ τ.size = σ.size ∧
    copyTagData z shown s τ.id σ.id = some s' ∧ read s 5 0 τ.id = some none ∧ read s' 5 0 τ.id = some (some 0) ∧
    read s' 5 0 σ.id = some (some 0) ∧ ¬ CopiedTag z shown τ σ s s' := by
  have h1 : (findTag g2 20).map (fun τ => (τ.dtype, τ.size)) = some (0, some 1) := by decide +kernel
  have h2 : (findTag g2 21).map (fun τ => (τ.dtype, τ.size)) = some (0, some 1) := by decide +kernel
  cases f1 : findTag g2 20 with
  | none => rw [f1] at h1; cases h1
  | some τ => cases f2 : findTag g2 21 with
    | none => rw [f2] at h2; cases h2
    | some σ =>
      rw [f1] at h1; rw [f2] at h2
      have k1 := Option.some.inj h1
      have k2 := Option.some.inj h2
      simp only [Prod.mk.injEq] at k1 k2
      obtain ⟨-, i1⟩ := find_mem f1
      obtain ⟨-, i2⟩ := find_mem f2
      have r1 : read g2 5 0 20 = some none := by decide +kernel
      have r2 : read g3 5 0 20 = some (some 0) := by decide +kernel
      have r3 : read g3 5 0 21 = some (some 0) := by decide +kernel
      refine ⟨g2, g3, τ, σ, g2_reach, some_alive (by decide +kernel), by rw [i1]; exact f1, by rw [i2]; exact f2,
        by rw [i1, i2]; decide, by rw [k1.1, k2.1], by rw [k1.2, k2.2], by rw [i1, i2]; exact getEq _,
        by rw [i1]; exact r1, by rw [i1]; exact r2, by rw [i2]; exact r3, fun C => ?_⟩
      have := C.other 5 0 20 (.inl (by rw [i2]; decide))
      rw [r1, r2] at this
      cases this

/-- The hypotheses of `C104_partial` hold: another tag "c" of variable size, dense on nodes, on the mesh `w8`. -/
def w11 : Sto Nat := ((createTag z w8 "c" 0 none m0 nomask 12).get (by decide +kernel)).1
example : (copyTagData z shown w11 11 12).map (fun s => (read s 0 1 12, read s 0 2 12, read s 0 1 11)) =
    some (some (some 5), some (some 0), some (some 5)) := by decide +kernel
example : (findTag w11 11).map (fun τ => (τ.dtype, τ.size, τ.defined 5)) = some (0, none, false) ∧
    (findTag w11 12).map (fun τ => (τ.dtype, τ.size)) = some (0, none) := ⟨by decide +kernel, by decide +kernel⟩

/-- Those of `C104_duplicate_partial` too. -/
example : (findTag w8 11).map (fun τ => τ.defined 5) = some false ∧ (findTag w8 12).isNone = true ∧
    (duplicateTagData z shown w8 11 "d" 12).map (fun r => (r.2, read r.1 0 1 12, read r.1 0 2 12)) =
      some (12, some (some 5), some none) := ⟨by decide +kernel, by decide +kernel, by decide +kernel⟩

end Witness

end Verif.Copy
