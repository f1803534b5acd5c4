import Verif.Copy.Later

/-!
# Properties C102 and C103: copies of meshes
-/

namespace Verif.Copy

open Verif.Storage

variable {V : Type} {zero : Nat → Option Nat → V}

theorem Copied.sameTags {addr : Nat → Nat} {o s : Sto V} (C : Copied addr o s) (I : Inv zero o) (A : Addr addr o) :
    SameTags addr o s := by
  refine ⟨by rw [C.tags, List.map_map]; rfl, fun τ hτ => ?_⟩
  exact ⟨_, find_renamed I.D A C.tags hτ, rfl, rfl, rfl, fun _ => ⟨rfl, rfl⟩⟩

/-! ## C102: what a copy contains -/

/-- Copying a mesh (copy constructor) that was obtained by any history of calls: the copy has the same tags, the same
elements with the same numbers and places of data, and the same data of every tag on every type on which the tag is not
sparse.  Missing from the full property (`Faithful`): sparse data, see `C102_sparse_fails`. -/
theorem C102_partial {addr : Nat → Nat} {o : Sto V} (R : Reach zero o) (hM : alive o 5 0) (A : Addr addr o) :
    ∃ s, copyMesh zero addr o = some s ∧ SameTags addr o s ∧ SameElements o s ∧ s.modified = o.modified ∧
      ∀ τ ∈ o.tags, ∀ t, τ.defined t = true → τ.flag t = false → SameData addr o s τ t := by
  obtain ⟨s, e, C, -⟩ := copyMesh_spec R.inv A hM
  refine ⟨s, e, C.sameTags R.inv A, C.slots, C.md, fun τ hτ t hd hf id ha => ?_⟩
  rw [C.read R.inv A hτ hd ha, hf]; rfl

/-- The same for assignment of a mesh to a mesh, whatever the other mesh was before. -/
theorem C102_assign_partial {addr : Nat → Nat} {o d : Sto V} (R : Reach zero o) (hM : alive o 5 0) (A : Addr addr o)
    (R' : Reach zero d) (hM' : alive d 5 0) {priv : Nat} {π : TagRec} (hp : findTag d priv = some π)
    (hd : ∀ t, π.flag t = false) :
    ∃ s, assignMesh zero addr priv o d = some s ∧ SameTags addr o s ∧ SameElements o s ∧ s.modified = o.modified ∧
      ∀ τ ∈ o.tags, ∀ t, τ.defined t = true → τ.flag t = false → SameData addr o s τ t := by
  obtain ⟨s, e, C⟩ := assignMesh_spec R.inv A hM R'.inv hM' hp hd
  refine ⟨s, e, C.sameTags R.inv A, C.slots, C.md, fun τ hτ t hd hf id ha => ?_⟩
  rw [C.read R.inv A hτ hd ha, hf]; rfl

/-- Sparse data is never copied: in the copy of any mesh no element has data of any tag that is sparse on its type. -/
theorem C102_sparse_fails {addr : Nat → Nat} {o : Sto V} (R : Reach zero o) (hM : alive o 5 0) (A : Addr addr o) :
    ∃ s, copyMesh zero addr o = some s ∧
      ∀ τ ∈ o.tags, ∀ t, τ.defined t = true → τ.flag t = true → ∀ id, alive o t id →
        read s t id (addr τ.id) = some none := by
  obtain ⟨s, e, C, -⟩ := copyMesh_spec R.inv A hM
  refine ⟨s, e, fun τ hτ t hd hf id ha => ?_⟩
  rw [C.read R.inv A hτ hd ha, if_pos hf]

/-! ## C103: use of a copy -/

/-- After any calls on a copy that do not renumber it the copy is sound: elements and tags have their own places of data,
and creating and destroying elements and writing data changes nothing else.
Missing from the full property (`Later zero true`): ReorderEmpty, see `C103_reorder_fails`; assigned meshes, see
`C103_assign_fails`. -/
theorem C103_partial {addr : Nat → Nat} {o : Sto V} (R : Reach zero o) (hM : alive o 5 0) (A : Addr addr o)
    {c s : Sto V} (hc : copyMesh zero addr o = some c) (L : Later zero false c s) : Sound zero s := by
  obtain ⟨c', e, C, h1, -, h2, h3, h4, h5⟩ := copyMesh_spec R.inv A hM
  rw [e] at hc; cases hc
  exact (Usable.later (copy_inv R.inv A C h1 h2 h3 h4 h5) L).sound

/-- A mesh that is not a copy is sound, with ReorderEmpty among the calls. -/
theorem C103_original {s : Sto V} (R : Reach zero s) : Sound zero s :=
  Usable.sound ⟨fun t => (s.ty t).back, R.inv⟩

/-! ## Witnesses -/

section Witness

theorem w8_ids : w8.tags.map (·.id) = [10, 11] := by decide +kernel

def plus (i : Nat) : Nat := i + 100

theorem plus_addr {o : Sto Nat} (h : ∀ τ ∈ o.tags, τ.id < 100) : Addr plus o := by
  refine ⟨fun τ _ σ _ e => ?_, fun τ hτ σ hσ e => ?_⟩
  · unfold plus at e; omega
  · have := h σ hσ; unfold plus at e; omega

theorem w8_addr : Addr plus w8 := by
  refine plus_addr fun τ hτ => ?_
  have : τ.id ∈ w8.tags.map (·.id) := List.mem_map.2 ⟨τ, hτ, rfl⟩
  rw [w8_ids] at this
  simp only [List.mem_cons, List.not_mem_nil, or_false] at this
  omega

theorem w8_mesh : alive w8 5 0 := by
  have : (slot w8 5 0).isSome = true := by decide +kernel
  intro h; rw [h] at this; cases this

/-- The copy of the mesh `w8` of `Verif.Storage.Props`: nodes 1 and 2, a dense and a sparse tag. -/
def c8 : Sto Nat := (copyMesh z plus w8).get (by decide +kernel)

theorem c8_eq : copyMesh z plus w8 = some c8 := getEq _

/-- The hypotheses of `C102_partial` hold, and the dense data is there. -/
example : Reach z w8 ∧ alive w8 5 0 ∧ Addr plus w8 ∧ read c8 0 2 110 = some (some 77) :=
  ⟨w8_reach, w8_mesh, w8_addr, by decide +kernel⟩

/-- The full property is false: the sparse data 5 on node 1 is not in the copy. -/
theorem C102_fails : ∃ o c : Sto Nat, Reach z o ∧ alive o 5 0 ∧ Addr plus o ∧ copyMesh z plus o = some c ∧
    ¬ Faithful plus o c := by
  refine ⟨w8, c8, w8_reach, w8_mesh, w8_addr, c8_eq, fun F => ?_⟩
  have h1 : read w8 0 1 11 = some (some 5) := by decide +kernel
  have h2 : read c8 0 1 111 = some none := by decide +kernel
  have hs : (findTag w8 11).isSome = true := by decide +kernel
  have hd : (findTag w8 11).map (·.defined 0) = some true := by decide +kernel
  cases hf : findTag w8 11 with
  | none => rw [hf] at hs; cases hs
  | some τ =>
    rw [hf] at hd
    obtain ⟨hτ, hi⟩ := find_mem hf
    have ha : alive w8 0 1 := by
      intro h; unfold Storage.read at h1; rw [h] at h1; cases h1
    have := F.2.2 τ hτ 0 (Option.some.inj hd) 1 ha
    rw [hi, h1] at this
    have h3 : plus 11 = 111 := rfl
    rw [h3, h2] at this
    cases this

/-- ReorderEmpty on the copy does not move node 2, and forgets the free place 0; the next node gets the place of node 2. -/
def r8 : Sto Nat := (reorderEmpty z c8 0).get (by decide +kernel)
def t8 : Sto Nat × Nat := (tie z r8 0).get (by decide +kernel)

/-- The full property is false: after ReorderEmpty and creation of a node on a copy two nodes share the place of their
data. -/
theorem C103_reorder_fails : ∃ o c s : Sto Nat, Reach z o ∧ alive o 5 0 ∧ Addr plus o ∧ copyMesh z plus o = some c ∧
    Later z true c s ∧ ¬ Sound z s := by
  refine ⟨w8, c8, t8.1, w8_reach, w8_mesh, w8_addr, c8_eq,
    .create 0 (.reorder 0 rfl .copy (by decide) (getEq _)) (by decide) (getEq2 _), fun S => ?_⟩
  have h1 : slot t8.1 0 0 = some 2 := by decide +kernel
  have h2 : slot t8.1 0 2 = some 2 := by decide +kernel
  exact absurd (S.slots 0 0 2 2 h1 h2) (by decide)

/-- On the original the same calls give node 0 a place of its own. -/
example : ((reorderEmpty z w8 0).bind fun s => tie z s 0).map (fun r => (slot r.1 0 0, slot r.1 0 2)) =
    some (some 2, some 0) := by decide +kernel

/-- Two meshes with a tag of private markers on all types, one of them with a node. -/
def every : ET → Bool := fun _ => true
def p0 : Sto Nat := ((createTag z w0 "PROTECTED_PRIVATE_MARKERS_0" 2 (some 1) every nomask 1).get (by decide +kernel)).1
def p1 : Sto Nat := ((tie z p0 0).get (by decide +kernel)).1
/-- The first is assigned the second. -/
def a0 : Sto Nat := (assignMesh z plus 1 p1 p0).get (by decide +kernel)
/-- Then a tag is created. -/
def a1 : Sto Nat × Nat := (createTag z a0 "x" 0 (some 1) m0 nomask 7).get (by decide +kernel)

theorem p0_reach : Reach z p0 := by
  have h : w0.tags = [] := (init_inv (getEq (by decide +kernel) : initSto z = some w0)).2.1
  have P : CreatePre w0 "PROTECTED_PRIVATE_MARKERS_0" 2 (some 1) every nomask 1 := by
    refine ⟨?_, ?_, ?_⟩
    · unfold findTag; rw [h]; rfl
    · intro τ hτ; unfold findName at hτ; rw [h] at hτ; cases hτ
    · intro τ hτ; unfold findName at hτ; rw [h] at hτ; cases hτ
  exact .createTag w0_reach P (getEq2 _)

theorem p1_reach : Reach z p1 := .create 0 p0_reach (by decide) (getEq2 _)

theorem p1_addr : Addr plus p1 := by
  refine plus_addr fun τ hτ => ?_
  have : τ.id ∈ p1.tags.map (·.id) := List.mem_map.2 ⟨τ, hτ, rfl⟩
  have e : p1.tags.map (·.id) = [1] := by decide +kernel
  rw [e] at this
  simp only [List.mem_cons, List.not_mem_nil, or_false] at this
  omega

theorem some_alive {s : Sto Nat} {t : ET} {id : Nat} (h : (slot s t id).isSome = true) : alive s t id := by
  intro e; rw [e] at h; cases h

theorem a0_pre : CreatePre a0 "x" 0 (some 1) m0 nomask 7 := by
  have h : (findName a0 "x").isNone = true := by decide +kernel
  have h2 : (findTag a0 7).isNone = true := by decide +kernel
  rw [Option.isNone_iff_eq_none] at h h2
  refine ⟨h2, ?_, ?_⟩
  · intro τ hτ; rw [h] at hτ; cases hτ
  · intro τ hτ; rw [h] at hτ; cases hτ

/-- A created tag on an assigned mesh gets a column in use: that of the private markers of the mesh. -/
theorem C103_assign_fails : ∃ o d c s : Sto Nat, ∃ π, Reach z o ∧ alive o 5 0 ∧ Addr plus o ∧ Reach z d ∧ alive d 5 0 ∧
    findTag d 1 = some π ∧ (∀ t, π.flag t = false) ∧ assignMesh z plus 1 o d = some c ∧ Later z false c s ∧
    ¬ Sound z s := by
  have hs : (findTag p0 1).isSome = true := by decide +kernel
  have hfl : ∀ t, (findTag p0 1).map (·.flag t) = some false := by decide +kernel
  cases hf : findTag p0 1 with
  | none => rw [hf] at hs; cases hs
  | some π =>
    refine ⟨p1, p0, a0, a1.1, π, p1_reach, some_alive (by decide +kernel), p1_addr, p0_reach,
      some_alive (by decide +kernel), hf, fun t => ?_, getEq _, .createTag .copy a0_pre (getEq2 _), fun S => ?_⟩
    · have := hfl t
      rw [hf] at this
      exact Option.some.inj this
    · have h1 : (findTag a1.1 101).map (fun τ => (τ.flag 5, τ.pos 5)) = some (false, .col 5) := by decide +kernel
      have h2 : (findTag a1.1 7).map (fun τ => (τ.flag 0, τ.pos 0)) = some (false, .col 5) := by decide +kernel
      cases g1 : findTag a1.1 101 with
      | none => rw [g1] at h1; cases h1
      | some τ => cases g2 : findTag a1.1 7 with
        | none => rw [g2] at h2; cases h2
        | some σ =>
          rw [g1] at h1; rw [g2] at h2
          have k1 := Option.some.inj h1
          have k2 := Option.some.inj h2
          simp only [Prod.mk.injEq] at k1 k2
          obtain ⟨-, h⟩ := S.columns τ (find_mem g1).1 σ (find_mem g2).1 5 0 5 k1.1 k1.2 k2.1 k2.2
          exact absurd h (by decide)

/-- The hypotheses of `C102_assign_partial` hold for these meshes. -/
example : Reach z p1 ∧ alive p1 5 0 ∧ Addr plus p1 ∧ Reach z p0 ∧ alive p0 5 0 ∧ alive p1 0 0 :=
  ⟨p1_reach, some_alive (by decide +kernel), p1_addr, p0_reach, some_alive (by decide +kernel),
    some_alive (by decide +kernel)⟩

/-- `C103_partial` is not vacuous: a node is created on the copy and takes the free place 0. -/
def u8 : Sto Nat × Nat := (tie z c8 0).get (by decide +kernel)
example : Later z false c8 u8.1 ∧ slot u8.1 0 0 = some 0 ∧ slot u8.1 0 1 = some 1 ∧ slot u8.1 0 2 = some 2 :=
  ⟨.create 0 .copy (by decide) (getEq2 _), by decide +kernel, by decide +kernel, by decide +kernel⟩

end Witness

end Verif.Copy
