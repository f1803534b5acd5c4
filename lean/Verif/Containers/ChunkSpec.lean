import Verif.Containers.ChunkModel

/-! # Specification of the chunked array: the mathematical sequence -/

namespace Verif.Containers

/-- Effect of an operation on a sequence. -/
def seqChunkOp (xs : List α) : ChunkOp α → List α
  | .set n x => xs.set n x
  | .pushBack x => xs ++ [x]
  | .popBack => xs.dropLast
  | .resize n c => xs.take n ++ List.replicate (n - xs.length) c
  | .erase d => xs.eraseIdx d
  | .clear => []

/-- Preconditions. -/
def LegalChunk (xs : List α) : ChunkOp α → Prop
  | .set n _ => n < xs.length
  | .popBack => xs ≠ []
  | .erase d => d < xs.length
  | _ => True

/-- A history is legal. -/
def LegalChunkHist : List α → List (ChunkOp α) → Prop
  | _, [] => True
  | xs, op :: ops => LegalChunk xs op ∧ LegalChunkHist (seqChunkOp xs op) ops

/-- The chunked array holds exactly the sequence `xs`: same size and, for each index,
the same element (`none` outside). -/
def ChunkHolds (cfg : ChunkCfg) (a : Chunk α) (xs : List α) : Prop :=
  a.size = xs.length ∧ ∀ k, a.get cfg k = xs[k]?

/-- Byte arrays (`chunk_bulk_array`) are only resized and written. -/
inductive BulkOp (α : Type) where
  | set (k : Nat) (x : α)
  | resize (n : Nat)

/-- Execution of a bulk operation. -/
def BulkOp.exec (cfg : ChunkCfg) (zero : α) (a : Chunk α) : BulkOp α → Option (Chunk α)
  | .set k x => a.set cfg k x
  | .resize n => a.bulkResize cfg zero n

/-- Execution of a history of bulk operations. -/
def runBulk (cfg : ChunkCfg) (zero : α) (a : Chunk α) : List (BulkOp α) → Option (Chunk α)
  | [] => some a
  | op :: ops => match op.exec cfg zero a with
    | none => none
    | some a' => runBulk cfg zero a' ops

/-- Effect of a bulk operation on a sequence: new records are zero. -/
def seqBulkOp (zero : α) (xs : List α) : BulkOp α → List α
  | .set n x => xs.set n x
  | .resize n => xs.take n ++ List.replicate (n - xs.length) zero

/-- Preconditions of bulk operations. -/
def LegalBulk (xs : List α) : BulkOp α → Prop
  | .set n _ => n < xs.length
  | .resize _ => True

/-- A history of bulk operations is legal; `ok` restricts it further. -/
def LegalBulkHist (zero : α) (ok : List α → BulkOp α → Prop) : List α → List (BulkOp α) → Prop
  | _, [] => True
  | xs, op :: ops => LegalBulk xs op ∧ ok xs op ∧ LegalBulkHist zero ok (seqBulkOp zero xs op) ops

end Verif.Containers
