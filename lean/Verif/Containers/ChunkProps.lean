import Verif.Containers.ChunkLemmas
import Verif.Containers.ChunkSpec

/-! # C06: chunked arrays -/

namespace Verif.Containers

section
variable {α : Type} {cfg : ChunkCfg}

/-- Representation invariant. -/
structure CRep (cfg : ChunkCfg) (a : Chunk α) (xs : List α) : Prop where
  size : a.size = xs.length
  dir : Dir cfg a.chunks (nblocks cfg.bits a.size)
  cells : ∀ k, k < xs.length → rawGet cfg a.chunks k = xs[k]?

theorem crep_holds {a : Chunk α} {xs : List α} (R : CRep cfg a xs) : ChunkHolds cfg a xs := by
  refine ⟨R.size, fun k => ?_⟩
  rw [Chunk.get]
  split
  · next h => exact R.cells k (by have := R.size; omega)
  · next h => rw [List.getElem?_eq_none (by have := R.size; omega)]

theorem crep_init : CRep cfg (Chunk.init α) [] := by
  refine ⟨rfl, ⟨?_, ?_, ?_⟩, ?_⟩
  · simp only [Chunk.init, nblocks_zero, Nat.mul_zero]; exact wf_init
  · intro q hq; simp [Chunk.init, nblocks_zero] at hq
  · intro q _ hq; simp [Chunk.init, nblocks_zero] at hq
  · intro k hk; simp at hk

theorem rawBlock_length : (rawBlock α cfg).length = 2 ^ cfg.bits := by simp [rawBlock]

theorem rawGet_congr {l l' : LArr (Option (Block α))} {k : Nat}
    (h : l'.get cfg.base (k >>> cfg.bits) = l.get cfg.base (k >>> cfg.bits)) :
    rawGet cfg l' k = rawGet cfg l k := by rw [rawGet, rawGet, h]

theorem innerResize_cells (blk : Block α) (hblk : blk.length = 2 ^ cfg.bits)
    {l : LArr (Option (Block α))} {size : Nat} (D : Dir cfg l (nblocks cfg.bits size)) (new : Nat) :
    ∃ l', innerResize cfg blk l size new = some l' ∧ Dir cfg l' (nblocks cfg.bits new) ∧
      ∀ k, k < new → k < size → rawGet cfg l' k = rawGet cfg l k := by
  obtain ⟨l', e, d, g, _⟩ := innerResize_spec blk hblk D new
  exact ⟨l', e, d, fun k h1 h2 =>
    rawGet_congr (g _ (lt_nblocks_of_lt h1) (lt_nblocks_of_lt h2))⟩

theorem fillFrom_spec {n : Nat} (x : α) (cnt : Nat) : ∀ (k : Nat) (l : LArr (Option (Block α))),
    Dir cfg l (nblocks cfg.bits n) → k + cnt ≤ n →
    ∃ l', fillFrom cfg x k cnt l = some l' ∧ Dir cfg l' (nblocks cfg.bits n) ∧
      ∀ j, rawGet cfg l' j = if k ≤ j ∧ j < k + cnt then some x else rawGet cfg l j := by
  induction cnt with
  | zero => intro k l D _; exact ⟨l, rfl, D, fun j => by rw [if_neg (by omega)]⟩
  | succ cnt ih =>
    intro k l D h
    obtain ⟨l1, e1, D1, g1⟩ := rawSet_spec D (lt_nblocks_of_lt (show k < n by omega)) x
    obtain ⟨l2, e2, D2, g2⟩ := ih (k + 1) l1 D1 (by omega)
    refine ⟨l2, by simp [fillFrom, e1, e2], D2, fun j => ?_⟩
    rw [g2, g1]
    by_cases c : j = k
    · subst c; rw [if_neg (by omega), if_pos rfl, if_pos (by omega)]
    · by_cases c2 : k + 1 ≤ j ∧ j < k + 1 + cnt
      · rw [if_pos c2, if_pos (by omega)]
      · rw [if_neg c2, if_neg c, if_neg (by omega)]

theorem shiftDown_spec {n : Nat} (cnt : Nat) : ∀ (k : Nat) (l : LArr (Option (Block α))),
    Dir cfg l (nblocks cfg.bits n) → k + cnt + 1 ≤ n →
    (∀ j, j < n → ∃ x, rawGet cfg l j = some x) →
    ∃ l', shiftDown cfg k cnt l = some l' ∧ Dir cfg l' (nblocks cfg.bits n) ∧
      ∀ j, rawGet cfg l' j = if k ≤ j ∧ j < k + cnt then rawGet cfg l (j + 1)
        else rawGet cfg l j := by
  induction cnt with
  | zero => intro k l D _ _; exact ⟨l, rfl, D, fun j => by rw [if_neg (by omega)]⟩
  | succ cnt ih =>
    intro k l D h hf
    obtain ⟨x, hx⟩ := hf (k + 1) (by omega)
    obtain ⟨l1, e1, D1, g1⟩ := rawSet_spec D (lt_nblocks_of_lt (show k < n by omega)) x
    obtain ⟨l2, e2, D2, g2⟩ := ih (k + 1) l1 D1 (by omega) (by
      intro j hj; rw [g1]; split
      · exact ⟨x, rfl⟩
      · exact hf j hj)
    refine ⟨l2, by simp [shiftDown, hx, e1, e2], D2, fun j => ?_⟩
    rw [g2, g1, g1]
    by_cases c : j = k
    · subst c; rw [if_neg (by omega), if_pos rfl, if_pos (by omega), hx]
    · by_cases c2 : k + 1 ≤ j ∧ j < k + 1 + cnt
      · rw [if_pos c2, if_neg (by omega), if_pos (by omega)]
      · rw [if_neg c2, if_neg c, if_neg (by omega)]

theorem crep_set {a : Chunk α} {xs : List α} (R : CRep cfg a xs) {n : Nat} (x : α)
    (h : n < xs.length) : ∃ a', a.set cfg n x = some a' ∧ CRep cfg a' (xs.set n x) := by
  have hs := R.size
  obtain ⟨l', e, D', g⟩ := rawSet_spec R.dir (lt_nblocks_of_lt (show n < a.size by omega)) x
  refine ⟨⟨l', a.size⟩, by simp [Chunk.set, e, hs, h], by simpa using hs, D', ?_⟩
  intro k hk
  simp only [List.length_set] at hk
  simp only [g]
  by_cases c : k = n
  · subst c; rw [if_pos rfl, List.getElem?_set_self h]
  · rw [if_neg c, List.getElem?_set_ne (Ne.symm c)]; exact R.cells k hk

theorem crep_pushBack {a : Chunk α} {xs : List α} (R : CRep cfg a xs) (x : α) :
    ∃ a', a.pushBack cfg x = some a' ∧ CRep cfg a' (xs ++ [x]) := by
  have hs := R.size
  obtain ⟨l, e, D, g⟩ := innerResize_cells (rawBlock α cfg) rawBlock_length R.dir (a.size + 1)
  obtain ⟨l', e', D', g'⟩ := rawSet_spec D (lt_nblocks_of_lt (show a.size < a.size + 1 by omega)) x
  refine ⟨⟨l', a.size + 1⟩, by simp [Chunk.pushBack, e, e'], by simp [hs], D', ?_⟩
  intro k hk
  simp only [List.length_append, List.length_singleton] at hk
  simp only [g']
  by_cases c : k = a.size
  · subst c; rw [if_pos rfl, hs, List.getElem?_append_right (by omega)]; simp
  · rw [if_neg c, g k (by omega) (by omega), R.cells k (by omega),
      List.getElem?_append_left (by omega)]

theorem crep_popBack {a : Chunk α} {xs : List α} (R : CRep cfg a xs) (h : xs ≠ []) :
    ∃ a', a.popBack cfg = some a' ∧ CRep cfg a' xs.dropLast := by
  have hs := R.size
  have hl := List.length_pos_iff.2 h
  obtain ⟨l, e, D, g⟩ := innerResize_cells (rawBlock α cfg) rawBlock_length R.dir (a.size - 1)
  refine ⟨⟨l, a.size - 1⟩, ?_, by simp [hs], D, ?_⟩
  · rw [Chunk.popBack, if_neg (by omega), e]; rfl
  · intro k hk
    simp only [List.length_dropLast] at hk
    simp only
    rw [g k (by omega) (by omega), R.cells k (by omega), List.getElem?_dropLast, if_pos (by omega)]

theorem getElem?_takeFill (xs : List α) (n k : Nat) (x : α) (hk : k < n) :
    (xs.take n ++ List.replicate (n - xs.length) x)[k]? =
      if k < xs.length then xs[k]? else some x := by
  rw [List.getElem?_append]
  by_cases c : k < xs.length
  · rw [if_pos (by rw [List.length_take]; omega), if_pos c, List.getElem?_take, if_pos hk]
  · have : (xs.take n).length = xs.length := by rw [List.length_take]; omega
    rw [this, if_neg c, if_neg c, List.getElem?_replicate, if_pos (by omega)]

theorem crep_resize {a : Chunk α} {xs : List α} (R : CRep cfg a xs) (n : Nat) (x : α) :
    ∃ a', a.resize cfg n x = some a' ∧
      CRep cfg a' (xs.take n ++ List.replicate (n - xs.length) x) := by
  have hs := R.size
  obtain ⟨l, e, D, g⟩ := innerResize_cells (rawBlock α cfg) rawBlock_length R.dir n
  have : ∃ l', fillFrom cfg x a.size (n - a.size) l = some l' ∧
      Dir cfg l' (nblocks cfg.bits n) ∧ ∀ j, rawGet cfg l' j =
        if a.size ≤ j ∧ j < n then some x else rawGet cfg l j := by
    by_cases c : a.size ≤ n
    · obtain ⟨l', e', D', g'⟩ := fillFrom_spec x (n - a.size) a.size l D (by omega)
      exact ⟨l', e', D', fun j => by rw [g', show a.size + (n - a.size) = n by omega]⟩
    · rw [show n - a.size = 0 by omega]
      exact ⟨l, rfl, D, fun j => by rw [if_neg (by omega)]⟩
  obtain ⟨l', e', D', g'⟩ := this
  have hlen : (xs.take n ++ List.replicate (n - xs.length) x).length = n := by
    simp only [List.length_append, List.length_take, List.length_replicate]; omega
  refine ⟨⟨l', n⟩, by simp [Chunk.resize, e, e'], hlen.symm, D', ?_⟩
  intro k hk
  rw [hlen] at hk
  rw [getElem?_takeFill _ _ _ _ hk]
  simp only [g']
  by_cases c : k < xs.length
  · rw [if_neg (by omega), if_pos c, g k hk (by omega), R.cells k c]
  · rw [if_pos (by omega), if_neg c]

theorem crep_erase {a : Chunk α} {xs : List α} (R : CRep cfg a xs) (d : Nat)
    (h : d < xs.length) : ∃ a', a.erase cfg d = some a' ∧ CRep cfg a' (xs.eraseIdx d) := by
  have hs := R.size
  obtain ⟨l, e, D, g⟩ := shiftDown_spec (a.size - 1 - d) d a.chunks R.dir (by omega) (by
    intro j hj; rw [R.cells j (by omega)]
    exact ⟨xs[j]'(by omega), List.getElem?_eq_getElem (by omega)⟩)
  obtain ⟨l', e', D', g'⟩ := innerResize_cells (rawBlock α cfg) rawBlock_length D (a.size - 1)
  refine ⟨⟨l', a.size - 1⟩, ?_, ?_, D', ?_⟩
  · rw [Chunk.erase, if_pos (by omega), e]; simp only; rw [e']; rfl
  · simp only [List.length_eraseIdx]; rw [if_pos h]; omega
  · intro k hk
    rw [List.length_eraseIdx, if_pos h] at hk
    simp only
    rw [g' k (by omega) (by omega), g, List.getElem?_eraseIdx]
    by_cases c : k < d
    · rw [if_neg (by omega), if_pos c, R.cells k (by omega)]
    · rw [if_pos (by omega), if_neg c, R.cells (k + 1) (by omega)]

theorem crep_clear {a : Chunk α} {xs : List α} (R : CRep cfg a xs) :
    ∃ a', a.clear cfg = some a' ∧ CRep cfg a' ([] : List α) := by
  have hcap := dir_cap (cfg := cfg) (nblocks cfg.bits a.size)
  obtain ⟨l, e, w, _⟩ := freeChunks_spec (nblocks cfg.bits a.size) 0 a.chunks R.dir.wf (by omega)
    (by intro j _ h; obtain ⟨b, hb, _⟩ := R.dir.full j (by omega); exact ⟨b, hb⟩)
  refine ⟨⟨l.clear, 0⟩, by simp [Chunk.clear, e], rfl, ⟨?_, ?_, ?_⟩, ?_⟩
  · simp only [nblocks_zero, Nat.mul_zero]; exact wf_clear w
  · intro q hq; simp [nblocks_zero] at hq
  · intro q _ hq; simp [nblocks_zero] at hq
  · intro k hk; simp at hk

theorem crep_step {a : Chunk α} {xs : List α} (R : CRep cfg a xs) (op : ChunkOp α)
    (h : LegalChunk xs op) : ∃ a', op.exec cfg a = some a' ∧ CRep cfg a' (seqChunkOp xs op) := by
  cases op with
  | set n x => exact crep_set R x h
  | pushBack x => exact crep_pushBack R x
  | popBack => exact crep_popBack R h
  | resize n x => exact crep_resize R n x
  | erase d => exact crep_erase R d h
  | clear => exact crep_clear R

theorem crep_run (ops : List (ChunkOp α)) : ∀ {a : Chunk α} {xs : List α}, CRep cfg a xs →
    LegalChunkHist xs ops →
    ∃ a', runChunk cfg a ops = some a' ∧ CRep cfg a' (ops.foldl seqChunkOp xs) := by
  induction ops with
  | nil => intro a xs R _; exact ⟨a, rfl, R⟩
  | cons op ops ih =>
    intro a xs R h
    obtain ⟨a1, e1, R1⟩ := crep_step R op h.1
    obtain ⟨a2, e2, R2⟩ := ih R1 h.2
    exact ⟨a2, by simp [runChunk, e1, e2], R2⟩

end

/-- **C06** A chunked array driven by any legal history of assignments, `push_back`,
`pop_back`, `resize`, `erase` and `clear`, of any length and for any chunk, node and directory
size, never trips an assertion, never reads an unwritten or unallocated cell and always holds
exactly the mathematical sequence. -/
theorem C06_chunk_array (cfg : ChunkCfg) {α : Type} (ops : List (ChunkOp α))
    (h : LegalChunkHist ([] : List α) ops) :
    ∃ a, runChunk cfg (Chunk.init α) ops = some a ∧
      ChunkHolds cfg a (ops.foldl seqChunkOp []) := by
  obtain ⟨a, e, R⟩ := crep_run ops (crep_init (cfg := cfg)) h
  exact ⟨a, e, crep_holds R⟩

/-- The configuration of `links` in the mesh: `chunk_bits_elems = 13`, nodes of 512 pointers,
8-byte pointers. -/
def elemsCfg : ChunkCfg := ⟨512, 13, 8, by decide, by decide⟩

example : LegalChunkHist ([] : List Nat)
    [.resize 5 7, .set 4 3, .pushBack 4, .erase 5, .popBack, .resize 20 1, .clear,
     .resize 3 2] := by
  simp [LegalChunkHist, LegalChunk, seqChunkOp]

/-- **C06** (spelled out for `resize`) in every reachable state, resizing preserves every
element below both sizes and gives the fill value to the others. -/
theorem C06_resize (cfg : ChunkCfg) {α : Type} (ops : List (ChunkOp α))
    (h : LegalChunkHist ([] : List α) ops) (n : Nat) (x : α) :
    ∃ a a', runChunk cfg (Chunk.init α) ops = some a ∧ a.resize cfg n x = some a' ∧
      a'.size = n ∧
      (∀ k, k < n → k < a.size → a'.get cfg k = a.get cfg k) ∧
      (∀ k, k < n → a.size ≤ k → a'.get cfg k = some x) := by
  obtain ⟨a, e, R⟩ := crep_run ops (crep_init (cfg := cfg)) h
  obtain ⟨a', e', R'⟩ := crep_resize R n x
  have H := crep_holds R
  have H' := crep_holds R'
  have hs := H.1
  refine ⟨a, a', e, e', ?_, ?_, ?_⟩
  · rw [H'.1]; simp only [List.length_append, List.length_take, List.length_replicate]; omega
  · intro k h1 h2
    rw [H'.2, H.2, getElem?_takeFill _ _ _ _ h1, if_pos (by omega)]
  · intro k h1 h2
    rw [H'.2, getElem?_takeFill _ _ _ _ h1, if_neg (by omega)]

/-! ## Byte arrays -/

section
variable {α : Type} {cfg : ChunkCfg}

/-- Invariant for byte arrays that never shrink: all cells of the last chunk past the end
are zero. -/
structure BRep (cfg : ChunkCfg) (zero : α) (a : Chunk α) (xs : List α) : Prop extends
    CRep cfg a xs where
  tail : ∀ k, xs.length ≤ k → k >>> cfg.bits < nblocks cfg.bits a.size →
    rawGet cfg a.chunks k = some zero

theorem bulkBlock_length {zero : α} : (bulkBlock cfg zero).length = 2 ^ cfg.bits := by
  simp [bulkBlock]

theorem bulk_grow {zero : α} {a : Chunk α} {xs : List α} (R : BRep cfg zero a xs) (n : Nat)
    (h : xs.length ≤ n) : ∃ a', a.bulkResize cfg zero n = some a' ∧
      BRep cfg zero a' (xs.take n ++ List.replicate (n - xs.length) zero) := by
  have hs := R.size
  obtain ⟨l, e, D, g, gn⟩ := innerResize_spec (bulkBlock cfg zero) bulkBlock_length R.dir n
  have hlen : (xs.take n ++ List.replicate (n - xs.length) zero).length = n := by
    simp only [List.length_append, List.length_take, List.length_replicate]; omega
  have key : ∀ k, xs.length ≤ k → k >>> cfg.bits < nblocks cfg.bits n →
      rawGet cfg l k = some zero := by
    intro k h1 h2
    by_cases c : k >>> cfg.bits < nblocks cfg.bits a.size
    · rw [rawGet_congr (g _ h2 c)]; exact R.tail k h1 c
    · rw [rawGet, gn _ h2 (by omega)]
      simp only [bulkBlock]
      rw [List.getElem?_replicate, if_pos (and_mask_lt k)]; rfl
  refine ⟨⟨l, n⟩, by simp [Chunk.bulkResize, e], ⟨hlen.symm, D, ?_⟩, ?_⟩
  · intro k hk
    rw [hlen] at hk
    rw [getElem?_takeFill _ _ _ _ hk]
    by_cases c : k < xs.length
    · rw [if_pos c]
      simp only
      rw [rawGet_congr (g _ (lt_nblocks_of_lt hk) (lt_nblocks_of_lt (by omega))), R.cells k c]
    · rw [if_neg c]; exact key k (by omega) (lt_nblocks_of_lt hk)
  · intro k h1 h2
    rw [hlen] at h1
    exact key k (by omega) h2

theorem bulk_set {zero : α} {a : Chunk α} {xs : List α} (R : BRep cfg zero a xs) {n : Nat} (x : α)
    (h : n < xs.length) : ∃ a', a.set cfg n x = some a' ∧ BRep cfg zero a' (xs.set n x) := by
  have hs := R.size
  obtain ⟨a', e, R'⟩ := crep_set R.toCRep x h
  refine ⟨a', e, R', ?_⟩
  obtain ⟨l', e', D', g⟩ := rawSet_spec R.dir (lt_nblocks_of_lt (show n < a.size by omega)) x
  have : a' = ⟨l', a.size⟩ := by
    simp [Chunk.set, e', hs, h] at e; rw [← e, hs]
  subst this
  intro k h1 h2
  rw [List.length_set] at h1
  rw [g, if_neg (by omega)]
  exact R.tail k h1 h2

end

/-- The full statement for byte arrays: every legal history. -/
def C06BulkFull (cfg : ChunkCfg) (α : Type) (zero : α) : Prop :=
  ∀ ops : List (BulkOp α), LegalBulkHist zero (fun _ _ => True) [] ops →
    ∃ a, runBulk cfg zero (Chunk.init α) ops = some a ∧
      ChunkHolds cfg a (ops.foldl (seqBulkOp zero) [])

/-- The restriction of the partial theorem: a resize does not shrink. -/
def BulkGrows (xs : List α) : BulkOp α → Prop
  | .set _ _ => True
  | .resize n => xs.length ≤ n

/-- **C06** (byte arrays, partial): every legal history in which the array never shrinks keeps
the sequence, with newly exposed records zero.  Missing: histories that shrink, for which the
claim is false (see `C06_bulk_fails`). -/
theorem C06_bulk_partial (cfg : ChunkCfg) {α : Type} (zero : α) (ops : List (BulkOp α))
    (h : LegalBulkHist zero BulkGrows ([] : List α) ops) :
    ∃ a, runBulk cfg zero (Chunk.init α) ops = some a ∧
      ChunkHolds cfg a (ops.foldl (seqBulkOp zero) []) := by
  have key : ∀ (ops : List (BulkOp α)) {a : Chunk α} {xs : List α}, BRep cfg zero a xs →
      LegalBulkHist zero BulkGrows xs ops →
      ∃ a', runBulk cfg zero a ops = some a' ∧
        BRep cfg zero a' (ops.foldl (seqBulkOp zero) xs) := by
    intro ops
    induction ops with
    | nil => intro a xs R _; exact ⟨a, rfl, R⟩
    | cons op ops ih =>
      intro a xs R hh
      have : ∃ a1, op.exec cfg zero a = some a1 ∧ BRep cfg zero a1 (seqBulkOp zero xs op) := by
        cases op with
        | set k x => exact bulk_set R x hh.1
        | resize n => exact bulk_grow R n hh.2.1
      obtain ⟨a1, e1, R1⟩ := this
      obtain ⟨a2, e2, R2⟩ := ih R1 hh.2.2
      exact ⟨a2, by simp [runBulk, e1, e2], R2⟩
  obtain ⟨a, e, R⟩ := key ops (a := Chunk.init α) (xs := [])
    ⟨crep_init, by intro k _ h2; simp [Chunk.init, nblocks_zero] at h2⟩ h
  exact ⟨a, e, crep_holds R.toCRep⟩

example : LegalBulkHist 0 BulkGrows ([] : List Nat)
    [.resize 3, .set 1 5, .resize 9, .set 8 1] := by
  simp [LegalBulkHist, LegalBulk, BulkGrows, seqBulkOp]

/-- **C06** (byte arrays, all histories, shrinking included): no history trips an assertion, and
every resize preserves every record below both sizes. -/
theorem C06_bulk_preserves (cfg : ChunkCfg) {α : Type} (zero : α) (ops : List (BulkOp α))
    (h : LegalBulkHist zero (fun _ _ => True) ([] : List α) ops) (n : Nat) :
    ∃ a a', runBulk cfg zero (Chunk.init α) ops = some a ∧ a.bulkResize cfg zero n = some a' ∧
      a'.size = n ∧ ∀ k, k < n → k < a.size →
        ∃ x, a.get cfg k = some x ∧ a'.get cfg k = some x := by
  have key : ∀ (ops : List (BulkOp α)) {a : Chunk α} {xs : List α}, a.size = xs.length →
      Dir cfg a.chunks (nblocks cfg.bits a.size) →
      (∀ k, k >>> cfg.bits < nblocks cfg.bits a.size → ∃ x, rawGet cfg a.chunks k = some x) →
      LegalBulkHist zero (fun _ _ => True) xs ops →
      ∃ a', runBulk cfg zero a ops = some a' ∧ Dir cfg a'.chunks (nblocks cfg.bits a'.size) ∧
        (∀ k, k >>> cfg.bits < nblocks cfg.bits a'.size → ∃ x, rawGet cfg a'.chunks k = some x) := by
    intro ops
    induction ops with
    | nil => intro a xs _ D F _; exact ⟨a, rfl, D, F⟩
    | cons op ops ih =>
      intro a xs hs D F hh
      have : ∃ a1, op.exec cfg zero a = some a1 ∧ a1.size = (seqBulkOp zero xs op).length ∧
          Dir cfg a1.chunks (nblocks cfg.bits a1.size) ∧
          (∀ k, k >>> cfg.bits < nblocks cfg.bits a1.size →
            ∃ x, rawGet cfg a1.chunks k = some x) := by
        cases op with
        | set k x =>
          have hk : k < a.size := by have := hh.1; simp only [LegalBulk] at this; omega
          obtain ⟨l', e, D', g⟩ := rawSet_spec D (lt_nblocks_of_lt hk) x
          refine ⟨⟨l', a.size⟩, by simp [BulkOp.exec, Chunk.set, hk, e], by simp [seqBulkOp, hs],
            D', fun j hj => ?_⟩
          rw [g]; split
          · exact ⟨x, rfl⟩
          · exact F j hj
        | resize m =>
          obtain ⟨l', e, D', g, gn⟩ := innerResize_spec (bulkBlock cfg zero) bulkBlock_length D m
          refine ⟨⟨l', m⟩, by simp [BulkOp.exec, Chunk.bulkResize, e], ?_, D', fun j hj => ?_⟩
          · simp only [seqBulkOp, List.length_append, List.length_take, List.length_replicate]
            omega
          · by_cases c : j >>> cfg.bits < nblocks cfg.bits a.size
            · simp only; rw [rawGet_congr (g _ hj c)]; exact F j c
            · simp only; rw [rawGet, gn _ hj (by omega)]
              simp only [bulkBlock]
              rw [List.getElem?_replicate, if_pos (and_mask_lt j)]; exact ⟨zero, rfl⟩
      obtain ⟨a1, e1, s1, D1, F1⟩ := this
      obtain ⟨a2, e2, D2, F2⟩ := ih s1 D1 F1 hh.2.2
      exact ⟨a2, by simp [runBulk, e1, e2], D2, F2⟩
  obtain ⟨a, e, D, F⟩ := key ops (a := Chunk.init α) (xs := []) rfl crep_init.dir
    (by intro k h2; simp [Chunk.init, nblocks_zero] at h2) h
  obtain ⟨l', e', D', g⟩ := innerResize_cells (bulkBlock cfg zero) bulkBlock_length D n
  refine ⟨a, ⟨l', n⟩, e, by simp [Chunk.bulkResize, e'], rfl, fun k h1 h2 => ?_⟩
  obtain ⟨x, hx⟩ := F k (lt_nblocks_of_lt h2)
  refine ⟨x, by rw [Chunk.get, if_pos h2, hx], ?_⟩
  rw [Chunk.get, if_pos (show k < n from h1)]
  simp only
  rw [g k h1 h2, hx]

/-- **C06 fails** for byte arrays: resize to 1, write, resize to 0 … within one chunk: shrink
from 2 to 1 records and grow back; the second record still holds its old bytes. -/
theorem C06_bulk_fails (cfg : ChunkCfg) (hb : 1 ≤ cfg.bits) : ¬ C06BulkFull cfg Nat 0 := by
  intro h
  obtain ⟨a, e, H⟩ := h [.resize 2, .set 1 5, .resize 1, .resize 2]
    (by simp [LegalBulkHist, LegalBulk, seqBulkOp])
  obtain ⟨a2, e2, R2⟩ := bulk_grow (cfg := cfg) (zero := 0) (a := Chunk.init Nat) (xs := [])
    ⟨crep_init, by intro k _ h2; simp [Chunk.init, nblocks_zero] at h2⟩ 2 (by simp)
  obtain ⟨a3, e3, R3⟩ := bulk_set R2 (n := 1) 5 (by simp)
  have s3 : a3.size = 2 := by rw [R3.size]; simp
  have p2 : 2 ≤ 2 ^ cfg.bits := by
    calc 2 = 2 ^ 1 := rfl
      _ ≤ 2 ^ cfg.bits := Nat.pow_le_pow_right (by omega) hb
  have n1 : nblocks cfg.bits 1 = 1 := by
    rw [nblocks_eq, Nat.div_eq_of_lt (by omega), Nat.mod_eq_of_lt (by omega)]; simp
  have d3 := R3.dir
  obtain ⟨l4, e4, D4, g4, _⟩ := innerResize_spec (bulkBlock cfg 0) bulkBlock_length d3 1
  obtain ⟨l5, e5, D5, g5, _⟩ := innerResize_spec (bulkBlock cfg 0) bulkBlock_length D4 2
  have n2 : 0 < nblocks cfg.bits 2 := by
    have := lt_nblocks_of_lt (b := cfg.bits) (show 0 < 2 by omega)
    exact Nat.lt_of_le_of_lt (Nat.zero_le _) this
  have z : (1 : Nat) >>> cfg.bits = 0 := by
    rw [Nat.shiftRight_eq_div_pow]; exact Nat.div_eq_of_lt (by omega)
  have hr : runBulk cfg 0 (Chunk.init Nat) [.resize 2, .set 1 5, .resize 1, .resize 2] =
      some ⟨l5, 2⟩ := by
    simp only [runBulk, BulkOp.exec, e2, e3]
    simp [Chunk.bulkResize, e4, e5]
  rw [hr] at e
  cases e
  have h1 := H.2 1
  rw [Chunk.get, if_pos (show 1 < 2 by decide)] at h1
  have g : rawGet cfg l5 1 = rawGet cfg a3.chunks 1 := by
    apply rawGet_congr
    rw [z, g5 0 n2 (by omega), g4 0 (by omega) (by rw [s3]; exact n2)]
  rw [g, R3.cells 1 (by simp)] at h1
  simp [seqBulkOp] at h1

/-! ## The linked array -/

/-- **C06** (linked arrays, the directory of chunk pointers): from any well-formed chain,
resizing to any size gives a well-formed chain of that size that preserves old elements and
fills the new ones, and writes affect one index only. -/
theorem C06_linked_array {α : Type} (base : Nat) (hb : 0 < base) (sizes : List (Nat × α)) :
    ∃ l, sizes.foldlM (fun l s => LArr.resize base s.2 l s.1) (LArr.init α) = some l ∧
      ∀ (m : Nat) (c : α), ∃ l', LArr.resize base c l m = some l' ∧
        (∀ j, m ≤ j → l'.get base j = none) ∧
        ∀ j, j < m → ∃ x, l'.get base j = some x ∧
          (l.get base j = some x ∨ (l.get base j = none ∧ x = c)) := by
  have key : ∀ (sizes : List (Nat × α)) (l : LArr α) (n : Nat), WF base l n →
      ∃ l' n', sizes.foldlM (fun l s => LArr.resize base s.2 l s.1) l = some l' ∧
        WF base l' n' := by
    intro sizes
    induction sizes with
    | nil => intro l n w; exact ⟨l, n, rfl, w⟩
    | cons s t ih =>
      intro l n w
      obtain ⟨l1, e1, w1, _⟩ := wf_resize hb s.2 s.1 w
      obtain ⟨l2, n2, e2, w2⟩ := ih l1 s.1 w1
      exact ⟨l2, n2, by simp [List.foldlM, e1, e2], w2⟩
  obtain ⟨l, n, e, w⟩ := key sizes (LArr.init α) 0 wf_init
  refine ⟨l, e, fun m c => ?_⟩
  obtain ⟨l', e', w', g⟩ := wf_resize hb c m w
  refine ⟨l', e', fun j hj => wf_get_none w' hj, fun j hj => ?_⟩
  rw [g j hj]
  by_cases q : j < n
  · obtain ⟨x, hx⟩ := wf_get w q
    exact ⟨x, by rw [if_pos q, hx], Or.inl hx⟩
  · exact ⟨c, by rw [if_neg q], Or.inr ⟨wf_get_none w (by omega), rfl⟩⟩

end Verif.Containers
