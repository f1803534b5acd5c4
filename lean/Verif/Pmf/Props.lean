import Verif.Pmf.Sample

/-!
# C75: a mesh that was written to a file of the inner format is read back
-/

namespace Verif.Pmf
open Verif.Topology Verif.Binary

variable {m : Machine} {lw : Nat} {x : Extra} {no only : List (List Nat)} {M : PMesh}

/-- **C75.** A mesh that satisfies the limits of the format is written, and the file, read on any other machine into
an empty mesh with any options, gives the mesh: dimension, elements, boundaries, nodes of cells, coordinates, sets,
and all records of all tags that are not skipped.

`_partial`: one processor; the order of the elements built on an element, references to remote meshes and the
numbers of the format (`Saveable`) are excluded, see the theorems with the suffix `_fails`. -/
theorem C75_save_load_partial (hm : Machines m lw) (S : Saveable m lw x no only M) :
    ∃ file M1, save m x no only M = some (file, M1) ∧ (file.length < 256 ^ 8 →
      ∀ (no' only' : List (List Nat)) (M0 : PMesh), Fresh no only M M0 →
        ∃ M', load lw no' only' M0 file = some M' ∧ Restored no only no' only' M M0 M') := by
  obtain ⟨file, h⟩ := save_some S
  exact ⟨file, _, h, fun hl no' only' M0 F => restored hm S F h hl⟩

example : ∃ file M1, save big4 extra0 [] [] (twoMesh two) = some (file, M1) ∧ file.length = 673 ∧
    ∃ M', load 8 [[114]] [] fresh0 file = some M' ∧ Restored [] [] [[114]] [] (twoMesh two) fresh0 M' ∧
      Kept [] [] [[114]] [] (twoMesh two) tReal ∧ ¬ Kept [] [] [[114]] [] (twoMesh two) tRef := by
  obtain ⟨file, M1, h1, h2⟩ := C75_save_load_partial big4_ok (two_saveable two_reach two_self)
  have hl : (save big4 extra0 [] [] (twoMesh two)).map (fun p => p.1.length) = some 673 := by decide +kernel
  rw [h1] at hl
  have hl : file.length = 673 := by simpa using hl
  obtain ⟨M', h3, h4⟩ := h2 (by rw [hl]; norm_num) [[114]] [] fresh0 (two_fresh two rfl)
  exact ⟨file, M1, h1, hl, M', h3, h4, ⟨by simp [twoMesh], by decide, by decide⟩, fun h => absurd h.2.2 (by decide)⟩

/-- Two meshes with the same file are the same, up to the order of the elements built on an element. -/
theorem C75_file_determines_partial {M₂ : PMesh} {file : Bytes} {M1 M1' : PMesh} (hm : Machines m lw)
    (S : Saveable m lw x no only M) (S₂ : Saveable m lw x no only M₂) (hc : M.T.cn = M₂.T.cn)
    (h1 : save m x no only M = some (file, M1)) (h2 : save m x no only M₂ = some (file, M1')) (hl : file.length < 256 ^ 8) :
    M.dim = M₂.dim ∧ (∀ y, M.T.alive y = M₂.T.alive y) ∧ (∀ y, M.T.alive y = true → 0 < y.ty → M.T.low y = M₂.T.low y) ∧
      (∀ k, k < M.num 0 → M.coord k = M₂.coord k) ∧ M.sets = M₂.sets := by
  let M0 : PMesh := ⟨3, Topo.init M.T.cn, fun _ => [], [], []⟩
  have F : Fresh no only M M0 := ⟨rfl, rfl, List.nodup_nil, fun _ _ _ h => by cases h⟩
  have F₂ : Fresh no only M₂ M0 := ⟨by rw [← hc], rfl, List.nodup_nil, fun _ _ _ h => by cases h⟩
  obtain ⟨A, a1, a2⟩ := restored (no' := []) (only' := []) hm S F h1 hl
  obtain ⟨B, b1, b2⟩ := restored (no' := []) (only' := []) hm S₂ F₂ h2 hl
  rw [a1] at b1
  cases b1
  have hal : ∀ y, M.T.alive y = M₂.T.alive y := fun y => by rw [← a2.topo.alive, b2.topo.alive]
  refine ⟨by rw [← a2.dim, b2.dim], hal, ?_, ?_, by rw [← a2.sets, b2.sets]⟩
  · intro y hy h0
    rw [← a2.topo.low y hy h0, b2.topo.low y (by rw [← hal]; exact hy) h0]
  · intro k hk
    have : M.num 0 = M₂.num 0 := by
      show M.T.last 0 = M₂.T.last 0
      rw [← a2.topo.last 0 (by omega), b2.topo.last 0 (by omega)]
    rw [← a2.coord k hk, b2.coord k (by rwa [← this])]

/-- The meshes that differ in the order of the cells of one face have the same file. -/
example : (save big4 extra0 [] [] (twoMesh two)).map (fun p => p.1) =
    (save big4 extra0 [] [] (twoMesh twoSwapped)).map (fun p => p.1) ∧
    Saveable big4 8 extra0 [] [] (twoMesh two) ∧ Saveable big4 8 extra0 [] [] (twoMesh twoSwapped) ∧
    two.high ⟨2, 0⟩ ≠ twoSwapped.high ⟨2, 0⟩ :=
  ⟨by decide +kernel, two_saveable two_reach two_self, two_saveable twoSwapped_reach twoSwapped_same, by
    rw [twoSwapped_high]; decide +kernel⟩

/-- Saving leaves the mesh as it is, if no record of a tag of bytes with variable size is empty. -/
theorem C75_save_unchanged_partial {file : Bytes} {M1 : PMesh} (h : save m x no only M = some (file, M1))
    (hb : ∀ t ∈ savedTags no only M, t.dtype = 2 → t.size = none → ∀ ty k, ty < 6 → t.defined ty = true → k < M.num ty →
      t.data ty k ≠ some []) : M1 = M := by
  unfold save at h
  split at h
  · cases h
  · simp only [Option.some.injEq, Prod.mk.injEq] at h
    rw [← h.2]
    have : (M.tags.map fun t => if checkSkip t.name no only = true then t else touch M.num t) = M.tags := by
      conv_rhs => rw [← List.map_id M.tags]
      apply List.map_congr_left
      intro t ht
      by_cases hs : checkSkip t.name no only = true
      · rw [if_pos hs]; rfl
      · rw [if_neg hs]
        show touch M.num t = t
        unfold touch
        have hmem : t ∈ savedTags no only M := mem_saved.2 ⟨ht, by simpa using hs⟩
        have hd : (fun ty k => if t.defined ty = true ∧ ty < 6 ∧ k < M.num ty then (t.data ty k).map (touchRec t) else t.data ty k) =
            t.data := by
          funext ty k
          by_cases hc : t.defined ty = true ∧ ty < 6 ∧ k < M.num ty
          · rw [if_pos hc]
            cases hr : t.data ty k with
            | none => rfl
            | some r =>
              simp only [Option.map_some, touchRec, Option.some.injEq]
              rw [if_neg]
              rintro ⟨h1, h2, rfl⟩
              exact hb t hmem h1 h2 ty k hc.2.1 hc.1 hc.2.2 hr
          · rw [if_neg hc]
        rw [hd]
    rw [this]

example : ∃ file M1, save big4 extra0 [[115]] [] (twoMesh two) = some (file, M1) ∧ M1 = twoMesh two := by
  cases h : save big4 extra0 [[115]] [] (twoMesh two) with
  | none =>
    have : (save big4 extra0 [[115]] [] (twoMesh two)).isSome = true := by decide +kernel
    rw [h] at this; cases this
  | some p =>
    refine ⟨p.1, p.2, rfl, C75_save_unchanged_partial h ?_⟩
    intro t ht h2
    have ht : t ∈ [tReal, tRef] := ht
    simp only [List.mem_cons, List.not_mem_nil, or_false] at ht
    rcases ht with rfl | rfl <;> cases h2

/-- Tags whose names are in the list of skipped tags, or not in the list of the only tags, are not in the file. -/
theorem C75_skipped {file : Bytes} {M1 : PMesh} (hm : Machines m lw) (S : Saveable m lw x no only M)
    (h : save m x no only M = some (file, M1)) (hl : file.length < 256 ^ 8) (no' only' : List (List Nat)) (M0 M' : PMesh)
    (F : Fresh no only M M0) (hld : load lw no' only' M0 file = some M') {name : List Nat}
    (hs : name ∈ no ∨ name ∈ no' ∨ (only ≠ [] ∧ name ∉ only) ∨ (only' ≠ [] ∧ name ∉ only'))
    (h0 : ∀ u ∈ M0.tags, u.name ≠ name) : ∀ u ∈ M'.tags, u.name ≠ name := by
  obtain ⟨M2, e, R⟩ := restored (no' := no') (only' := only') hm S F h hl
  rw [hld] at e
  cases e
  intro u hu hn
  apply h0 u _ hn
  apply R.others u hu
  rintro t ⟨_, k1, k2⟩ he
  rw [hn] at he
  rw [he] at k1 k2
  simp only [checkSkip] at k1 k2
  rcases hs with hs | hs | hs | hs
  · split at k1
    · cases k1
    · simp at k1; exact k1 hs
  · split at k2
    · cases k2
    · simp at k2; exact k2 hs
  · rw [if_pos hs] at k1; cases k1
  · rw [if_pos hs] at k2; cases k2

example : ∃ file M1 M', save big4 extra0 [] [] (twoMesh two) = some (file, M1) ∧ load 8 [[114]] [] fresh0 file = some M' ∧
    tRef ∈ (twoMesh two).tags ∧ ∀ u ∈ M'.tags, u.name ≠ tRef.name := by
  obtain ⟨file, M1, h1, h2⟩ := C75_save_load_partial big4_ok (two_saveable two_reach two_self)
  have hl : (save big4 extra0 [] [] (twoMesh two)).map (fun p => p.1.length) = some 673 := by decide +kernel
  rw [h1] at hl
  have hl : file.length = 673 := by simpa using hl
  have hb : file.length < 256 ^ 8 := by rw [hl]; norm_num
  obtain ⟨M', h3, -⟩ := h2 hb [[114]] [] fresh0 (two_fresh two rfl)
  exact ⟨file, M1, M', h1, h3, by simp [twoMesh], C75_skipped big4_ok (two_saveable two_reach two_self) h1 hb _ _ _ _
    (two_fresh two rfl) h3 (.inr (.inl (by decide))) (by decide)⟩

/-- An empty record of a tag of bytes with variable size does not come back, and is lost in the mesh that is saved:
it becomes one zero byte, mesh_pmf_file.cpp L357 (`Bulk` of an empty array appends a byte, mesh.cpp L2203). -/
theorem C75_empty_bytes_fails : ∃ (file : Bytes) (M1 M' : PMesh), Saveable big4 8 extra0 [] [] (twoMesh two) ∧
    Fresh [] [] (twoMesh two) fresh0 ∧ save big4 extra0 [] [] (twoMesh two) = some (file, M1) ∧
    load 8 [] [] fresh0 file = some M' ∧ tBulk ∈ (twoMesh two).tags ∧ tBulk.data 5 0 = some [] ∧
    (∃ u ∈ M1.tags, u.name = tBulk.name ∧ u.data 5 0 = some [.bulk 0]) ∧
    (∃ u ∈ M'.tags, u.name = tBulk.name ∧ u.data 5 0 = some [.bulk 0]) := by
  have S := two_saveable two_reach two_self
  obtain ⟨file, h1⟩ := save_some S
  have hl : (save big4 extra0 [] [] (twoMesh two)).map (fun p => p.1.length) = some 673 := by decide +kernel
  rw [h1] at hl
  have hl : file.length = 673 := by simpa using hl
  obtain ⟨M', h3, R⟩ := restored (no' := []) (only' := []) big4_ok S (two_fresh two rfl) h1 (by rw [hl]; norm_num)
  refine ⟨file, _, M', S, two_fresh two rfl, h1, h3, by simp [twoMesh], rfl, ⟨touch (twoMesh two).num tBulk, ?_, rfl, ?_⟩, ?_⟩
  · refine List.mem_map.2 ⟨tBulk, by simp [twoMesh], rfl⟩
  · decide +kernel
  · obtain ⟨u, hu, T⟩ := R.tags tBulk ⟨by simp [twoMesh], by decide, by decide⟩
    refine ⟨u, hu, T.name, ?_⟩
    rw [T.data 5 0 (by decide) (by decide) (by decide)]
    rfl

/-- The order of the cells of a face does not come back: what was the second cell is the first one after reading, so
that the normal of the face points into the other cell. -/
theorem C75_cell_order_fails : ∃ (M : PMesh) (file : Bytes) (M1 M' : PMesh), Saveable big4 8 extra0 [] [] M ∧
    Fresh [] [] M fresh0 ∧ save big4 extra0 [] [] M = some (file, M1) ∧ load 8 [] [] fresh0 file = some M' ∧
    M.T.high ⟨2, 0⟩ = [⟨3, 1⟩, ⟨3, 0⟩] ∧ M'.T.high ⟨2, 0⟩ = [⟨3, 0⟩, ⟨3, 1⟩] := by
  have S := two_saveable twoSwapped_reach twoSwapped_same
  obtain ⟨file, h1⟩ := save_some S
  have hl : (save big4 extra0 [] [] (twoMesh twoSwapped)).map (fun p => p.1.length) = some 673 := by decide +kernel
  rw [h1] at hl
  have hl : file.length = 673 := by simpa using hl
  obtain ⟨L, h3, -⟩ := load_save (no' := []) (only' := []) big4_ok S (two_fresh twoSwapped rfl) h1 (by rw [hl]; norm_num)
  refine ⟨_, file, _, _, S, two_fresh twoSwapped rfl, h1, h3, twoSwapped_high, ?_⟩
  show (upTo twoSwapped (full (twoMesh twoSwapped))).high ⟨2, 0⟩ = _
  decide +kernel

/-- A mesh without elements and with one tag, whose name has `n` letters. -/
def longMesh (n : Nat) : PMesh := ⟨3, Topo.init true, fun _ => [], [],
  [⟨List.replicate n 97, 1, fun _ => false, fun ty => ty == 3, some 1, fun _ _ => none⟩]⟩

/-- A name of 256 letters: the file is written and cannot be read, since the length is cast to one byte,
mesh_pmf_file.cpp L139. -/
theorem C75_long_name_fails : (save big4 extra0 [] [] (longMesh 256)).isSome = true ∧
    ((save big4 extra0 [] [] (longMesh 256)).bind fun p => load 8 [] [] ⟨3, Topo.init true, fun _ => [], [], []⟩ p.1).isNone = true ∧
    ((save big4 extra0 [] [] (longMesh 255)).bind fun p => load 8 [] [] ⟨3, Topo.init true, fun _ => [], [], []⟩ p.1).map
      (fun M => M.tags.map fun t => t.name) = some [List.replicate 255 97] := by
  decide +kernel

end Verif.Pmf
