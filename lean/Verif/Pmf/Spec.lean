import Verif.Pmf.Model
import Verif.Topology.Spec

/-!
# Specification vocabulary for mesh files

* `Saveable` : meshes for which the file is defined, on a machine that writes and a machine that reads.
* `Fresh` : the mesh that is read into.
* `SameTopo`, `SameTag`, `Restored` : the mesh that was read is the mesh that was written.
-/

namespace Verif.Pmf
open Verif.Topology Verif.Binary

/-- Numbers that both machines can hold. -/
def Fits (m : Machine) (lw v : Nat) : Prop := v < 256 ^ m.width ∧ v < 256 ^ lw

/-- Widths that the machines have. -/
structure Machines (m : Machine) (lw : Nat) : Prop where
  w : WidthOk m.order m.width
  w8 : m.width ∈ [1, 2, 4, 8]
  l : 0 < lw ∧ lw < 255

/-- A value of the type of the tag, with numbers that both machines can hold; a reference is to an element of the
mesh. -/
def ValOk (m : Machine) (lw : Nat) (num : Nat → Nat) (dtype : Nat) : Val → Prop
  | .real v => dtype = 0 ∧ v < 256 ^ 8
  | .int v => dtype = 1 ∧ Fits m lw v
  | .bulk _ => dtype = 2
  | .ref none => dtype = 3
  | .ref (some (ty, k)) => dtype = 3 ∧ ty < 5 ∧ k < num ty ∧ Fits m lw k
  | .var v row => dtype = 5 ∧ v < 256 ^ 8 ∧ Fits m lw row.length ∧ ∀ p ∈ row, p.1 < 256 ^ 8 ∧ Fits m lw p.2

/-- What is asked of a record. -/
structure RecOk (m : Machine) (lw : Nat) (num : Nat → Nat) (t : TagRec) (r : List Val) : Prop where
  size : t.size = none ∨ t.size = some r.length
  len : Fits m lw r.length
  val : ∀ v ∈ r, ValOk m lw num t.dtype v

/-- What is asked of the data of a tag. -/
structure DataOk (m : Machine) (lw : Nat) (num : Nat → Nat) (t : TagRec) : Prop where
  count : ∀ ty, ty < 6 → Fits m lw (num ty)
  recs : ∀ ty k r, ty < 6 → t.defined ty = true → k < num ty → t.data ty k = some r → RecOk m lw num t r
  dense : ∀ ty k, ty < 6 → t.defined ty = true → t.sparse ty = false → k < num ty → t.data ty k ≠ none

/-- What is asked of a set. -/
structure SetOk (m : Machine) (lw : Nat) (num : Nat → Nat) (x : SetRec) : Prop where
  name : 0 ∉ x.name
  nameLen : x.name.length < 4096 ∧ Fits m lw x.name.length
  low : ∀ ty k, some (ty, k) ∈ x.low → ty < 5 ∧ k < num ty ∧ Fits m lw k
  lowLen : Fits m lw x.low.length
  tree : ∀ ty k, some (ty, k) ∈ x.tree → ty = 4 ∧ k < num 4 ∧ Fits m lw k
  treeLen : x.tree.length = 3
  extra : ∀ v ∈ x.extra, Fits m lw v
  extraLen : Fits m lw (3 + x.extra.length)

/-- What is asked of the description of a tag. -/
structure HeadOk (m : Machine) (lw : Nat) (t : TagRec) : Prop where
  name : 0 ∉ t.name
  nameLen : t.name.length < 256 ∧ Fits m lw t.name.length
  size : ∀ s, t.size = some s → s < 256 ^ m.width - 1 ∧ s < 256 ^ lw - 1

/-- A tag of the mesh that is read into: no data on any element. -/
def NoData (u : TagRec) : Prop := ∀ ty k, u.defined ty = true → u.data ty k = newRec u.dtype (u.sparse ty) u.size

/-- A tag of the mesh that is read into and a tag of the file with the same name. -/
structure Compat (t u : TagRec) : Prop where
  dtype : u.dtype = t.dtype
  size : u.size = t.size
  types : ∀ ty, ty < 6 → u.defined ty = true → t.defined ty = true ∧ u.sparse ty = t.sparse ty

/-- A mesh that can be written by the machine `m` and read by a machine with integers of `lw` bytes: it was made by
any history of calls, its local numbers have no holes (`ReorderEmpty`) and nothing is hidden; elements other than
nodes have a boundary; all numbers, lengths and names are within the limits of the format. -/
structure Saveable (m : Machine) (lw : Nat) (x : Extra) (no only : List (List Nat)) (M : PMesh) : Prop where
  reach : Reach M.T.cn M.T
  whole : ∀ y : El, M.T.alive y = true ↔ y.ty < 4 ∧ y.id < M.T.last y.ty
  shown : M.T.hide = false
  dim : M.dim = 2 ∨ M.dim = 3
  low : ∀ y : El, M.T.alive y = true → 0 < y.ty → M.T.low y ≠ [] ∧ Fits m lw (M.T.low y).length
  nodes : ∀ y : El, M.T.alive y = true → y.ty = 3 → M.T.cn = true → M.T.high y ≠ [] ∧ Fits m lw (M.T.high y).length
  counts : ∀ ty, ty < 6 → Fits m lw (M.num ty)
  coord : ∀ k, k < M.num 0 → (M.coord k).length = M.dim ∧ ∀ v ∈ M.coord k, v < 256 ^ 8
  sets : ∀ s ∈ M.sets, SetOk m lw M.num s
  setNames : (M.sets.map fun s : SetRec => s.name).Nodup
  tags : ∀ t ∈ savedTags no only M, HeadOk m lw t ∧ DataOk m lw M.num t
  tagNames : (M.tags.map fun t : TagRec => t.name).Nodup
  tagCount : Fits m lw (savedTags no only M).length
  extra : Fits m lw x.state ∧ Fits m lw x.rank ∧ x.remember.length = 15

/-- The mesh that is read into has no elements, and no data in its tags; a tag that is also in the file has the same
type and size there, and covers element types of the tag in the file. -/
structure Fresh (no only : List (List Nat)) (M M0 : PMesh) : Prop where
  topo : M0.T = Topo.init M.T.cn
  sets : M0.sets = []
  tagNames : (M0.tags.map fun t : TagRec => t.name).Nodup
  tags : ∀ t ∈ savedTags no only M, ∀ u ∈ M0.tags, u.name = t.name → NoData u ∧ Compat t u

/-- The same elements with the same boundaries and the same nodes of cells, in the same order; the elements built on
an element are the same, in the order of their numbers. -/
structure SameTopo (T T' : Topo) : Prop where
  cn : T'.cn = T.cn
  last : ∀ ty, ty < 4 → T'.last ty = T.last ty
  alive : ∀ x, T'.alive x = T.alive x
  shown : ∀ x, T'.hid x = false
  low : ∀ x, T.alive x = true → 0 < x.ty → T'.low x = T.low x
  nodes : ∀ x, T.alive x = true → x.ty = 3 → T'.high x = T.high x
  high : ∀ x, T.alive x = true → x.ty < 3 → (T'.high x).Perm (T.high x)
  sorted : ∀ x, T.alive x = true → x.ty < 3 → (T'.high x).Pairwise fun a b => a.id ≤ b.id
  cells : ∀ x, T.alive x = true → x.ty = 0 → (T'.low x).Perm (T.low x)

/-- The same tag with the same records on the elements of the mesh, except that an empty record of a tag of bytes
with variable size is one zero byte. -/
structure SameTag (num : Nat → Nat) (t u : TagRec) : Prop where
  name : u.name = t.name
  dtype : u.dtype = t.dtype
  size : u.size = t.size
  defined : ∀ ty, ty < 6 → u.defined ty = t.defined ty
  sparse : ∀ ty, ty < 6 → t.defined ty = true → u.sparse ty = t.sparse ty
  data : ∀ ty k, ty < 6 → t.defined ty = true → k < num ty →
    u.data ty k = (t.data ty k).map fun r => if t.dtype = 2 ∧ t.size = none ∧ r = [] then [.bulk 0] else r

/-- The tag is written to the file and not skipped when the file is read. -/
def Kept (no only no' only' : List (List Nat)) (M : PMesh) (t : TagRec) : Prop :=
  t ∈ M.tags ∧ checkSkip t.name no only = false ∧ checkSkip t.name no' only' = false

/-- `M'` is the mesh `M` that was read into `M0`. -/
structure Restored (no only no' only' : List (List Nat)) (M M0 M' : PMesh) : Prop where
  dim : M'.dim = M.dim
  topo : SameTopo M.T M'.T
  /-- The connectivity that was read is one that calls on an empty mesh give. -/
  reach : Reach M'.T.cn M'.T
  coord : ∀ k, k < M.num 0 → M'.coord k = M.coord k
  sets : M'.sets = M.sets
  tags : ∀ t, Kept no only no' only' M t → ∃ u ∈ M'.tags, SameTag M.num t u
  tagNames : (M'.tags.map fun t : TagRec => t.name).Nodup
  /-- Other tags are those of the mesh that is read into. -/
  others : ∀ u ∈ M'.tags, (∀ t, Kept no only no' only' M t → t.name ≠ u.name) → u ∈ M0.tags
  kept : ∀ u ∈ M0.tags, (∀ t, Kept no only no' only' M t → t.name ≠ u.name) → u ∈ M'.tags

end Verif.Pmf
