import Verif.Containers.ArrayModel

/-!
# Model of linked and chunked arrays

Models `linked_array`, `chunk_array` and `chunk_bulk_array` of
`/repo/Source/Headers/container.hpp` L1017-1474.

A `linked_array` is a chain of nodes, each with `base` cells and a counter `ne`; here it is
the list of its nodes (the head node always exists).  Failed asserts and accesses outside
allocated storage are the outcome `none`.
-/

namespace Verif.Containers

/-- One node of a `linked_array`: the cells that are written (L1020) and `ne` (L1021).
Cells at positions `≥ ne` keep whatever they held. -/
structure Node (α : Type) where
  e : Nat → Option α
  ne : Nat

/-- The chain of nodes (`next` pointers, L1022). -/
abbrev LArr (α : Type) := List (Node α)

/-- A fresh node, L1026. -/
def Node.fresh (α : Type) : Node α := ⟨fun _ => none, 0⟩

/-- `linked_array()`, L1026. -/
def LArr.init (α : Type) : LArr α := [Node.fresh α]

/-- `clear`, L1027-1036: frees all following nodes and sets `ne = 0`. -/
def LArr.clear : LArr α → LArr α
  | [] => []
  | nd :: _ => [{ nd with ne := 0 }]

/-- `operator []` for reading, L1037-1062. -/
def LArr.get (base : Nat) : LArr α → Nat → Option α
  | [], _ => none
  | nd :: rest, n =>
    if n < base then (if n < nd.ne then nd.e n else none)
    else LArr.get base rest (n - base)

/-- Assignment through `operator []`, L1037-1049. -/
def LArr.set (base : Nat) : LArr α → Nat → α → Option (LArr α)
  | [], _, _ => none
  | nd :: rest, n, x =>
    if n < base then
      (if n < nd.ne then some ({ nd with e := fun k => if k = n then some x else nd.e k } :: rest)
       else none)
    else match LArr.set base rest (n - base) x with
      | none => none
      | some rest' => some (nd :: rest')

/-- Filling of cells `ne ≤ k < m` of a node with `c` and `ne = m` (L1074-1076, L1088-1093). -/
def Node.fill (nd : Node α) (m : Nat) (c : α) : Node α :=
  { e := fun k => if nd.ne ≤ k ∧ k < m then some c else nd.e k, ne := m }

/-- `if( next == NULL ) next = new linked_array`, L1086-1087. -/
def LArr.orInit : LArr α → LArr α
  | [] => LArr.init α
  | nd :: rest => nd :: rest

/-- `resize`, L1070-1096.  `base` is positive; the recursion is on the new size. -/
def LArr.resize (base : Nat) (c : α) (l : LArr α) (n : Nat) : Option (LArr α) :=
  if h : 0 < base then
    match l with
    | [] => none
    | nd :: rest =>
      if n ≤ base then some [nd.fill n c]
      else
        let rest1 := LArr.orInit rest
        let nd1 := if nd.ne < base then nd.fill base c else nd
        match LArr.resize base c rest1 (n - base) with
        | none => none
        | some rest2 => some (nd1 :: rest2)
  else none
termination_by n

/-- Parameters: nodes of the chunk directory have `base` entries (512, L1018); a chunk
has `2^bits` elements (L1108); the directory grows in steps of `fwd` entries
(`fwd_alloc_chunk_size = sizeof(element *) * 64`, L1113), counted in units of `64` chunks
(L1110). -/
structure ChunkCfg where
  base : Nat
  bits : Nat
  ptr : Nat
  base_pos : 0 < base
  ptr_pos : 0 < ptr

/-- `fwd_alloc_chunk_size`, L1113. -/
def ChunkCfg.fwd (c : ChunkCfg) : Nat := c.ptr * 64

/-- Number of blocks of size `2^bits` that hold `n` elements:
`(n >> bits) + ((n & mask) ? 1 : 0)`, L1223. -/
def nblocks (bits n : Nat) : Nat := (n >>> bits) + (if n &&& (2 ^ bits - 1) ≠ 0 then 1 else 0)

/-- State of a `chunk_array`: directory of chunk pointers (`none` is NULL; an allocated
chunk is its list of cells) and `m_size` (L1115-1118). -/
structure Chunk (α : Type) where
  chunks : LArr (Option (Block α))
  size : Nat

/-- `chunk_array()`, L1272-1275. -/
def Chunk.init (α : Type) : Chunk α := ⟨LArr.init _, 0⟩

/-- The loop `for(q = from; q < from+cnt; q++)` deleting chunks, L1227-1232:
asserts that the chunk is allocated. -/
def freeChunks (cfg : ChunkCfg) : Nat → Nat → LArr (Option (Block α)) →
    Option (LArr (Option (Block α)))
  | _, 0, l => some l
  | q, cnt + 1, l =>
    match l.get cfg.base q with
    | some (some _) =>
      match l.set cfg.base q none with
      | some l' => freeChunks cfg (q + 1) cnt l'
      | none => none
    | _ => none

/-- The loop allocating chunks, L1240-1248: asserts that the pointer is NULL. -/
def allocChunks (cfg : ChunkCfg) (blk : Block α) : Nat → Nat → LArr (Option (Block α)) →
    Option (LArr (Option (Block α)))
  | _, 0, l => some l
  | q, cnt + 1, l =>
    match l.get cfg.base q with
    | some none =>
      match l.set cfg.base q (some blk) with
      | some l' => allocChunks cfg blk (q + 1) cnt l'
      | none => none
    | _ => none

/-- `inner_resize`, L1221-1250 (and L1388-1419 for the bulk array, where `blk` is a block of
zero bytes). -/
def innerResize (cfg : ChunkCfg) (blk : Block α) (l : LArr (Option (Block α)))
    (size newSize : Nat) : Option (LArr (Option (Block α))) :=
  let oldc := nblocks cfg.bits size
  let oldn := nblocks 6 oldc
  let newc := nblocks cfg.bits newSize
  let newn := nblocks 6 newc
  match freeChunks cfg newc (oldc - newc) l with
  | none => none
  | some l1 =>
    match (if newn ≠ oldn then
        (if newn > 0 then LArr.resize cfg.base none l1 (cfg.fwd * newn) else some l1.clear)
      else some l1) with
    | none => none
    | some l2 => allocChunks cfg blk oldc (newc - oldc) l2

/-- `access_element(k)` for reading, L1120-1125. -/
def rawGet (cfg : ChunkCfg) (l : LArr (Option (Block α))) (k : Nat) : Option α :=
  match l.get cfg.base (k >>> cfg.bits) with
  | some (some b) => (b[k &&& (2 ^ cfg.bits - 1)]?).join
  | _ => none

/-- Assignment to `access_element(k)`. -/
def rawSet (cfg : ChunkCfg) (l : LArr (Option (Block α))) (k : Nat) (x : α) :
    Option (LArr (Option (Block α))) :=
  match l.get cfg.base (k >>> cfg.bits) with
  | some (some b) =>
    if k &&& (2 ^ cfg.bits - 1) < b.length then
      l.set cfg.base (k >>> cfg.bits) (some (b.set (k &&& (2 ^ cfg.bits - 1)) (some x)))
    else none
  | _ => none

/-- `operator []`, L1127-1146: asserts `i < size()`. -/
def Chunk.get (cfg : ChunkCfg) (a : Chunk α) (k : Nat) : Option α :=
  if k < a.size then rawGet cfg a.chunks k else none

/-- Assignment `a[k] = x`. -/
def Chunk.set (cfg : ChunkCfg) (a : Chunk α) (k : Nat) (x : α) : Option (Chunk α) :=
  if k < a.size then (rawSet cfg a.chunks k x).map fun l => ⟨l, a.size⟩ else none

/-- A chunk after `new element[block_val]`. -/
def rawBlock (α : Type) (cfg : ChunkCfg) : Block α := List.replicate (2 ^ cfg.bits) none

/-- `push_back`, L1311-1316. -/
def Chunk.pushBack (cfg : ChunkCfg) (a : Chunk α) (x : α) : Option (Chunk α) :=
  match innerResize cfg (rawBlock α cfg) a.chunks a.size (a.size + 1) with
  | none => none
  | some l => (rawSet cfg l a.size x).map fun l' => ⟨l', a.size + 1⟩

/-- `pop_back`, L1305-1310: asserts non-empty. -/
def Chunk.popBack (cfg : ChunkCfg) (a : Chunk α) : Option (Chunk α) :=
  if a.size = 0 then none else
  (innerResize cfg (rawBlock α cfg) a.chunks a.size (a.size - 1)).map fun l => ⟨l, a.size - 1⟩

/-- Fill loop of `resize`, L1320-1321. -/
def fillFrom (cfg : ChunkCfg) (x : α) : Nat → Nat → LArr (Option (Block α)) →
    Option (LArr (Option (Block α)))
  | _, 0, l => some l
  | k, cnt + 1, l => match rawSet cfg l k x with
    | none => none
    | some l' => fillFrom cfg x (k + 1) cnt l'

/-- `resize`, L1317-1323. -/
def Chunk.resize (cfg : ChunkCfg) (a : Chunk α) (n : Nat) (x : α) : Option (Chunk α) :=
  match innerResize cfg (rawBlock α cfg) a.chunks a.size n with
  | none => none
  | some l => (fillFrom cfg x a.size (n - a.size) l).map fun l' => ⟨l', n⟩

/-- Copy loop of `erase`, L1327-1328: element `k+1` is copied to `k`. -/
def shiftDown (cfg : ChunkCfg) : Nat → Nat → LArr (Option (Block α)) →
    Option (LArr (Option (Block α)))
  | _, 0, l => some l
  | k, cnt + 1, l => match rawGet cfg l (k + 1) with
    | none => none
    | some x => match rawSet cfg l k x with
      | none => none
      | some l' => shiftDown cfg (k + 1) cnt l'

/-- `erase(pos)`, L1325-1332. -/
def Chunk.erase (cfg : ChunkCfg) (a : Chunk α) (d : Nat) : Option (Chunk α) :=
  if d < a.size then
    match shiftDown cfg d (a.size - 1 - d) a.chunks with
    | none => none
    | some l =>
      (innerResize cfg (rawBlock α cfg) l a.size (a.size - 1)).map fun l' => ⟨l', a.size - 1⟩
  else none

/-- `clear`, L1260-1271. -/
def Chunk.clear (cfg : ChunkCfg) (a : Chunk α) : Option (Chunk α) :=
  match freeChunks cfg 0 (nblocks cfg.bits a.size) a.chunks with
  | none => none
  | some l => some ⟨l.clear, 0⟩

/-- Operations of `chunk_array`. -/
inductive ChunkOp (α : Type) where
  | set (k : Nat) (x : α)
  | pushBack (x : α)
  | popBack
  | resize (n : Nat) (x : α)
  | erase (d : Nat)
  | clear

/-- Execution of one operation. -/
def ChunkOp.exec (cfg : ChunkCfg) (a : Chunk α) : ChunkOp α → Option (Chunk α)
  | .set k x => a.set cfg k x
  | .pushBack x => a.pushBack cfg x
  | .popBack => a.popBack cfg
  | .resize n x => a.resize cfg n x
  | .erase d => a.erase cfg d
  | .clear => a.clear cfg

/-- Execution of a history. -/
def runChunk (cfg : ChunkCfg) (a : Chunk α) : List (ChunkOp α) → Option (Chunk α)
  | [] => some a
  | op :: ops => match op.exec cfg a with
    | none => none
    | some a' => runChunk cfg a' ops

/-- State of a `chunk_bulk_array` (L1343-1366): bytes; record `k` starts at byte
`(k & mask) * record_size` of its chunk.  The record is represented as one cell holding its
`record_size` bytes, i.e. the model is of arrays of records with zero-filled new chunks
(L1416). -/
def bulkBlock (cfg : ChunkCfg) (zero : α) : Block α := List.replicate (2 ^ cfg.bits) (some zero)

/-- `chunk_bulk_array::resize`, L1469-1473: no fill of the new elements. -/
def Chunk.bulkResize (cfg : ChunkCfg) (zero : α) (a : Chunk α) (n : Nat) : Option (Chunk α) :=
  (innerResize cfg (bulkBlock cfg zero) a.chunks a.size n).map fun l => ⟨l, n⟩

end Verif.Containers
