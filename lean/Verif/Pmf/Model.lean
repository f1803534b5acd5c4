import Verif.Binary.Spec
import Verif.Topology.Model

/-!
# Model of mesh files of the inner format

Source: `Source/IO/mesh_pmf_file.cpp` (SavePMF L50-598 for one processor, LoadPMF L601-1814 for one processor
and one part), `Source/IO/mesh_file.cpp` (CheckLoadSkip L104-112, CheckSaveSkip L114-122), with `io_converter`
of `Source/IO/io.hpp` as in `Verif.Binary`.

Simplifications.
* The machine that writes has any byte order, integers of `m.width` bytes and reals in the format IEEE of 8 bytes;
  a real is its bit pattern, a signed integer its two's complement.  The machine that reads is little-endian, with
  integers of `lw` bytes and the same reals.
* A byte is a number below 256.  Reading after the end, out of range of an array, a failed assertion and a thrown
  exception are `none`.
* The mesh that is written has no holes in the numbering (`ReorderEmpty`, L62, is modelled in `Verif.Storage`), so
  that the number of an element in the file, L160-172, is its local number.  No element is hidden.
* The mesh that is read into is empty, except for its tags.  A second part in the file (written by another
  processor) is not modelled.
* Tags are values with the records of all elements, justified by C09; DATA_REMOTE_REFERENCE, the option `noderivatives` and the
  contents of `remember` are not modelled.
-/

namespace Verif.Pmf
open Verif.Topology Verif.Binary

abbrev Bytes := List Nat

/-- A value in a record of a tag. -/
inductive Val
  | real (bits : Nat)
  | int (bits : Nat)
  | bulk (b : Nat)
  /-- An element: number of the type (4: set, 5: mesh) and local number, or an invalid handle. -/
  | ref (r : Option (Nat × Nat))
  /-- A value with its derivatives. -/
  | var (bits : Nat) (row : List (Nat × Nat))
  deriving DecidableEq, Repr

/-- A tag.  `size = none` is `ENUMUNDEF`; `data ty k` is the record of element `k` of type `ty`, `none` if a sparse
tag has no data there. -/
structure TagRec where
  name : List Nat
  dtype : Nat
  sparse : Nat → Bool
  defined : Nat → Bool
  size : Option Nat
  data : Nat → Nat → Option (List Val)

/-- A set: name, `LowConn` (invalid handles are holes), the first three entries of `HighConn` (parent, sibling,
child) and the others. -/
structure SetRec where
  name : List Nat
  low : List (Option (Nat × Nat))
  tree : List (Option (Nat × Nat))
  extra : List Nat
  deriving DecidableEq, Repr

/-- A mesh. -/
structure PMesh where
  dim : Nat
  T : Topo
  coord : Nat → List Nat
  sets : List SetRec
  /-- The tags except those of L84-88. -/
  tags : List TagRec

/-- `NumberOfNodes()`, ..., `NumberOfSets()`; one mesh. -/
def PMesh.num (M : PMesh) (ty : Nat) : Nat :=
  if ty < 4 then M.T.last ty else if ty = 4 then M.sets.length else if ty = 5 then 1 else 0

/-- `CheckSaveSkip`, `CheckLoadSkip`. -/
def checkSkip (name : List Nat) (no only : List (List Nat)) : Bool :=
  if only ≠ [] ∧ name ∉ only then true else decide (name ∈ no)

/-! ## Writing -/

/-- The machine that writes. -/
structure Machine where
  order : Order
  width : Nat

/-- `write_iValue`, io.hpp L473-478, `write_fValue` L508-516: the memory of a value of `w` bytes. -/
def mem (o : Order) (w v : Nat) : Bytes := (List.range w).map fun a => v / 256 ^ address o w a % 256

/-- `uconv.write_iValue` -/
def wI (m : Machine) (v : Nat) : Bytes := mem m.order m.width v

/-- `write_fValue` -/
def wF (m : Machine) (v : Nat) : Bytes := mem m.order 8 v

/-- A list with its length. -/
def wList (m : Machine) (l : List Nat) : Bytes := wI m l.length ++ l.flatMap (wI m)

/-- A name with its length. -/
def wName (m : Machine) (name : List Nat) : Bytes := wI m name.length ++ name

/-- The mask of element types, L144-148. -/
def maskOf (f : Nat → Bool) : Nat := ((List.range 6).map fun ty => if f ty then 2 ^ ty else 0).sum

/-- `GetSize()`; `ENUMUNDEF` has all bits set. -/
def sizeCode (m : Machine) : Option Nat → Nat
  | none => 256 ^ m.width - 1
  | some s => s

/-- The description of a tag, L138-154.  The length of the name is cast to a byte. -/
def wTag (m : Machine) (t : TagRec) : Bytes :=
  wI m (t.name.length % 256) ++ t.name ++ [t.dtype] ++ [maskOf t.sparse] ++ [maskOf t.defined] ++ wI m (sizeCode m t.size)

/-- The elements of one type in the order of iteration. -/
def elsOf (T : Topo) (ty : Nat) : List El := (List.range (T.last ty)).map fun k => ⟨ty, k⟩

/-- The boundary of an edge or of a face, L193-203, L210-220. -/
def wLow (m : Machine) (T : Topo) (x : El) : Bytes := wList m ((T.low x).map (·.id))

/-- A cell, L227-253. -/
def wCell (m : Machine) (T : Topo) (x : El) : Bytes :=
  wLow m T x ++ (if T.cn then wList m ((T.high x).map (·.id)) else wI m 0)

/-- A handle of a set or of a reference: the byte of the type and the number, L269-280, L284-295, L364-371. -/
def wHandle (m : Machine) : Option (Nat × Nat) → Bytes
  | none => [0]
  | some (ty, k) => [2 ^ ty] ++ wI m k

/-- A set, L260-301. -/
def wSet (m : Machine) (s : SetRec) : Bytes :=
  wName m s.name ++ (wI m s.low.length ++ s.low.flatMap (wHandle m)) ++
  (wI m (s.tree.length + s.extra.length) ++ s.tree.flatMap (wHandle m) ++ s.extra.flatMap (wI m))

/-- A value, L341-421; for a reference to the mesh or to an element that does not exist `set_id` is read where it
is not defined. -/
def wVal (m : Machine) (num : Nat → Nat) : Nat → Val → Option Bytes
  | 0, .real v => some (wF m v)
  | 1, .int v => some (wI m v)
  | 2, .bulk b => some [b]
  | 3, .ref none => some [0]
  | 3, .ref (some (ty, k)) => if ty < 5 ∧ k < num ty then some (wHandle m (some (ty, k))) else none
  | 5, .var v row => some (wF m v ++ (wI m row.length ++ row.flatMap fun p => wF m p.1 ++ wI m p.2))
  | _, _ => none

/-- The concatenation of what is written for the members of a list. -/
def wAll {α : Type} (f : α → Option Bytes) : List α → Option Bytes
  | [] => some []
  | a :: l => match f a, wAll f l with
    | some b, some bs => some (b ++ bs)
    | _, _ => none

/-- A record, L336-421; the length of a record of fixed size must be the size. -/
def wRec (m : Machine) (num : Nat → Nat) (t : TagRec) (r : List Val) : Option Bytes :=
  match t.size with
  | none => (wAll (wVal m num t.dtype) r).map (wI m r.length ++ ·)
  | some s => if r.length = s then wAll (wVal m num t.dtype) r else none

/-- One element of the loop L331-424. -/
def wElem (m : Machine) (num : Nat → Nat) (t : TagRec) (ty q : Nat) : Option Bytes :=
  match t.data ty q with
  | none => if t.sparse ty then some [] else none
  | some r => (wRec m num t r).map ((if t.sparse ty then wI m q else []) ++ ·)

/-- The data of a tag on one type of elements, L325-426. -/
def wType (m : Machine) (num : Nat → Nat) (t : TagRec) (ty : Nat) : Option Bytes :=
  if t.defined ty then
    (wAll (wElem m num t ty) (List.range (num ty))).map (· ++ if t.sparse ty then wI m (num ty) else [])
  else some []

/-- The data of a tag, L324-426. -/
def wData (m : Machine) (num : Nat → Nat) (t : TagRec) : Option Bytes := wAll (wType m num t) (List.range 6)

/-- What `Save` does with the records: `Bulk(tag)` of an empty array of variable size makes it one byte long
(`at_safe`, mesh.cpp L2203-2211, container.hpp L248-252). -/
def touchRec (t : TagRec) (r : List Val) : List Val :=
  if t.dtype = 2 ∧ t.size = none ∧ r = [] then [.bulk 0] else r

/-- A tag after `Save`. -/
def touch (num : Nat → Nat) (t : TagRec) : TagRec :=
  { t with data := fun ty k =>
      if t.defined ty ∧ ty < 6 ∧ k < num ty then (t.data ty k).map (touchRec t) else t.data ty k }

/-- What is written besides the mesh: `m_state`, `GetProcessorRank()`, `remember` (15 bytes). -/
structure Extra where
  state : Nat
  rank : Nat
  remember : List Nat

/-- The stream `out` of SavePMF, L60-430. -/
def body (m : Machine) (x : Extra) (M : PMesh) (tags : List TagRec) : Option Bytes :=
  match wAll (wData m M.num) tags with
  | none => none
  | some data => some (
    [0x10, 0x08] ++
    [writeOrder m.order, m.width, writeOrder m.order, m.width, 1, 8] ++
    [M.dim, M.num 0, M.num 1, M.num 2, M.num 3, M.num 4, tags.length, x.state, x.rank].flatMap (wI m) ++
    x.remember ++
    ([0x07] ++ wI m tags.length ++ tags.flatMap (wTag m)) ++
    ([0x02] ++ wI m (M.num 0) ++ (List.range (M.num 0)).flatMap fun k => (M.coord k).flatMap (wF m)) ++
    ([0x03] ++ wI m (M.num 1) ++ (elsOf M.T 1).flatMap (wLow m M.T)) ++
    ([0x04] ++ wI m (M.num 2) ++ (elsOf M.T 2).flatMap (wLow m M.T)) ++
    ([0x05] ++ wI m (M.num 3) ++ (elsOf M.T 3).flatMap (wCell m M.T)) ++
    ([0x06] ++ wI m (M.num 4) ++ M.sets.flatMap (wSet m)) ++
    ([0x11] ++ data) ++ [0x09])

/-- The tags that are written, L79-95, L122-136, L306-321. -/
def savedTags (no only : List (List Nat)) (M : PMesh) : List TagRec := M.tags.filter fun t => !checkSkip t.name no only

/-- `SavePMF` on one processor: the file, L583-596, and the mesh afterwards. -/
def save (m : Machine) (x : Extra) (no only : List (List Nat)) (M : PMesh) : Option (Bytes × PMesh) :=
  match body m x M (savedTags no only M) with
  | none => none
  | some b => some (
    [0x10] ++ [writeOrder m.order, 8] ++ mem m.order 8 1 ++ mem m.order 8 b.length ++ b,
    { M with tags := M.tags.map fun t => if checkSkip t.name no only then t else touch M.num t })

/-! ## Reading -/

/-- `source_iorder`, `source_ibytes`. -/
structure Conv where
  order : Order
  width : Nat

/-- `in.read(temp,n)` -/
def rN (n : Nat) (b : Bytes) : Option (Bytes × Bytes) := if n ≤ b.length then some (b.take n, b.drop n) else none

/-- `in.get(c)` -/
def rB : Bytes → Option (Nat × Bytes)
  | [] => none
  | c :: b => some (c, b)

/-- `read_iValue`, io.hpp L480-492, into an integer of `lw` bytes. -/
def rI (lw : Nat) (c : Conv) (b : Bytes) : Option (Nat × Bytes) :=
  match rN c.width b with
  | none => none
  | some (t, b) => match readIValue .little lw c.order c.width (fun i => t.getD i 0) with
    | none => none
    | some v => some (value .little lw v, b)

/-- `read_fValue`, io.hpp L571-589, for the same format. -/
def rF (c : Conv) (b : Bytes) : Option (Nat × Bytes) :=
  match rN 8 b with
  | none => none
  | some (t, b) => some (value .little 8 (convertEndianess 8 c.order .little (fun i => t.getD i 0)), b)

/-- `read_iByteOrder`, `read_iByteSize`. -/
def rConv (b : Bytes) : Option (Conv × Bytes) :=
  match b with
  | o :: w :: b => match readOrder o with
    | none => none
    | some o => some (⟨o, w⟩, b)
  | _ => none

/-- A loop that reads `n` values. -/
def rMany {α : Type} (p : Bytes → Option (α × Bytes)) : Nat → Bytes → Option (List α × Bytes)
  | 0, b => some ([], b)
  | n + 1, b => match p b with
    | none => none
    | some (a, b) => match rMany p n b with
      | none => none
      | some (l, b) => some (a :: l, b)

/-- A loop of `n` passes that changes a state. -/
def rFold {σ : Type} (p : σ → Bytes → Option (σ × Bytes)) : Nat → σ → Bytes → Option (σ × Bytes)
  | 0, s, b => some (s, b)
  | n + 1, s, b => match p s b with
    | none => none
    | some (s, b) => rFold p n s b

/-- `ElementNum` of one bit. -/
def typeNum (c : Nat) : Option Nat := (List.range 6).find? fun ty => 2 ^ ty = c

/-- `etype & mask` -/
def inMask (mask ty : Nat) : Bool := decide (mask / 2 ^ ty % 2 = 1)

/-- A tag of the file: `tags_*[i]`, with the position of the tag in the mesh, `none` if it is skipped. -/
structure TagInfo where
  name : List Nat
  dtype : Nat
  sparse : Nat
  defined : Nat
  size : Option Nat
  pos : Option Nat

/-- The variables of LoadPMF.  `links ty` is `new_nodes`, `new_edges`, `new_faces`, `new_cells`, `new_sets` as far as
filled. -/
structure Ld where
  start : Bool
  u : Conv
  i : Conv
  sizes : Nat → Nat
  links : Nat → List Nat
  tags : List TagInfo
  M : PMesh

/-- The records of a new tag: `size` zeros, empty arrays of variable size, nothing where the tag is sparse. -/
def zeroVal (dtype : Nat) : Val :=
  if dtype = 0 then .real 0 else if dtype = 1 then .int 0 else if dtype = 2 then .bulk 0
  else if dtype = 3 then .ref none else .var 0 []

/-- The record of an element where the tag was not defined before. -/
def newRec (dtype : Nat) (sparse : Bool) (size : Option Nat) : Option (List Val) :=
  if sparse then none else some (List.replicate (size.getD 0) (zeroVal dtype))

/-- `CreateTag` (C09) for a tag that is there: it becomes defined on the types of the mask; type and size must
match (tag.cpp L345-354), except that a
variable size is accepted for any tag. -/
def extendTag (t : TagRec) (dtype sparse defined : Nat) (size : Option Nat) : Option TagRec :=
  if t.dtype = dtype ∧ (size = none ∨ size = t.size) then
    some { t with
      sparse := fun ty => if t.defined ty then t.sparse ty else if inMask defined ty then inMask sparse ty else t.sparse ty
      defined := fun ty => t.defined ty || inMask defined ty
      data := fun ty k =>
        if t.defined ty then t.data ty k else if inMask defined ty then newRec t.dtype (inMask sparse ty) t.size
        else t.data ty k }
  else none

/-- `CreateTag` (C09): the tags and the position of the tag. -/
def createTag (tags : List TagRec) (name : List Nat) (dtype sparse defined : Nat) (size : Option Nat) :
    Option (List TagRec × Nat) :=
  match tags.findIdx? fun t => decide (t.name = name) with
  | some k => match tags[k]? with
    | none => none
    | some t => match extendTag t dtype sparse defined size with
      | none => none
      | some t' => some (tags.set k t', k)
  | none =>
    some (tags ++ [⟨name, dtype, fun ty => inMask sparse ty && inMask defined ty, inMask defined, size,
      fun ty _ => if inMask defined ty then newRec dtype (inMask sparse ty) size else none⟩], tags.length)

/-- `datalength`, L1156-1178, L1185. -/
def rSize (lw : Nat) (c : Conv) (b : Bytes) : Option (Option Nat × Bytes) :=
  match rI 8 c b with
  | none => none
  | some (v, b) =>
    let undef := 256 ^ (if c.width ∈ [1, 2, 4, 8] then c.width else lw) - 1
    let s := if v = undef then 256 ^ lw - 1 else v % 256 ^ lw
    some (if s = 256 ^ lw - 1 then none else some s, b)

/-- `TagsHeader`, one tag, L1135-1195; the name ends at the first zero. -/
def rTag (lw : Nat) (no only : List (List Nat)) (st : Ld) (b : Bytes) : Option (Ld × Bytes) :=
  match rI lw st.u b with
  | none => none
  | some (n, b) => match rN n b with
    | none => none
    | some (nm, b) => if 4096 ≤ n then none else match b with
      | dt :: sp :: df :: b => match rSize lw st.u b with
        | none => none
        | some (size, b) =>
          let name := nm.takeWhile (· ≠ 0)
          if checkSkip name no only then
            some ({ st with tags := st.tags ++ [⟨name, dt, sp, df, size, none⟩] }, b)
          else match createTag st.M.tags name dt sp df size with
            | none => none
            | some (tags, k) => some ({ st with
                tags := st.tags ++ [⟨name, dt, sp, df, size, some k⟩]
                M := { st.M with tags := tags } }, b)
      | _ => none

/-- One node, L1204-1220 (`old_nodes` is empty). -/
def rNode (st : Ld) (b : Bytes) : Option (Ld × Bytes) :=
  match rMany (rF st.i) st.M.dim b with
  | none => none
  | some (c, b) =>
    let id := st.M.T.last 0
    match st.M.T.createNode id with
    | none => none
    | some T => some ({ st with
        links := set1 st.links 0 (st.links 0 ++ [id])
        M := { st.M with T := T, coord := set1 st.M.coord id c } }, b)

/-- `new_nodes[lid]` and so on: the elements with the numbers `l`. -/
def linked (links : List Nat) : List Nat → Option (List Nat)
  | [] => some []
  | k :: l => match links[k]?, linked links l with
    | some i, some r => some (i :: r)
    | _, _ => none

/-- The number of members and the numbers, e.g. L1234-1239. -/
def rLinks (lw : Nat) (c : Conv) (links : List Nat) (b : Bytes) : Option (List Nat × Bytes) :=
  match rI lw c b with
  | none => none
  | some (n, b) => match rMany (rI lw c) n b with
    | none => none
    | some (l, b) => match linked links l with
      | none => none
      | some r => some (r, b)

/-- Creation of an element of type `ty` in the loops of edges, faces and cells; the checks for duplicates are off
(L1043-1047), the number is the next one. -/
def addElem (st : Ld) (ty : Nat) (low nodes : List Nat) : Option Ld :=
  let id := st.M.T.last ty
  match st.M.T.create false ty id (low.map fun k => ⟨ty - 1, k⟩) (nodes.map fun k => ⟨0, k⟩) with
  | some (T, some x, _) => some { st with
      links := set1 st.links ty (st.links ty ++ [x.id])
      M := { st.M with T := T } }
  | _ => none

/-- One edge, L1232-1242, or one face, L1254-1264. -/
def rElem (lw ty : Nat) (st : Ld) (b : Bytes) : Option (Ld × Bytes) :=
  match rLinks lw st.u (st.links (ty - 1)) b with
  | none => none
  | some (l, b) => match addElem st ty l [] with
    | none => none
    | some st => some (st, b)

/-- One cell, L1277-1295.  (Without nodes `RestoreCellNodes` finds them: not modelled.) -/
def rCell (lw : Nat) (st : Ld) (b : Bytes) : Option (Ld × Bytes) :=
  match rLinks lw st.u (st.links 2) b with
  | none => none
  | some (l, b) => match rLinks lw st.u (st.links 0) b with
    | none => none
    | some (ns, b) => if st.M.T.cn ∧ ns = [] then none else match addElem st 3 l ns with
      | none => none
      | some st => some (st, b)

/-- A handle: the byte of the type and the number. -/
def rHandle (lw : Nat) (c : Conv) (b : Bytes) : Option (Option (Nat × Nat) × Bytes) :=
  match rB b with
  | none => none
  | some (0, b) => some (none, b)
  | some (t, b) => match typeNum t, rI lw c b with
    | some ty, some (k, b) => some (some (ty, k), b)
    | _, _ => none

/-- A member of a set while sets are read, L1326-1342: sets are numbers of sets of the file. -/
def lowLink (links : Nat → List Nat) : Option (Nat × Nat) → Option (Option (Nat × Nat))
  | none => some none
  | some (ty, k) => if ty = 4 then some (some (ty, k)) else
    match (links ty)[k]? with
    | none => none
    | some i => some (some (ty, i))

/-- All of a list. -/
def allM {α β : Type} (f : α → Option β) : List α → Option (List β)
  | [] => some []
  | a :: l => match f a, allM f l with
    | some b, some bs => some (b :: bs)
    | _, _ => none

/-- `CreateSet`, mesh.cpp L1870-1888: the sets and the position. -/
def createSet (sets : List SetRec) (name : List Nat) : List SetRec × Nat :=
  match sets.findIdx? fun s => decide (s.name = name) with
  | some k => (sets, k)
  | none => (sets ++ [⟨name, [], [none, none, none], [0]⟩], sets.length)

/-- One set, L1316-1364. -/
def rSet (lw : Nat) (st : Ld) (b : Bytes) : Option (Ld × Bytes) :=
  match rI lw st.u b with
  | none => none
  | some (n, b) => match rN n b with
    | none => none
    | some (nm, b) => if 4096 ≤ n then none else match rI lw st.u b with
      | none => none
      | some (nl, b) => match rMany (rHandle lw st.u) nl b with
        | none => none
        | some (low, b) => match allM (lowLink st.links) low with
          | none => none
          | some low => match rI lw st.u b with
            | none => none
            | some (nh, b) => if nh < 3 then none else match rMany (rHandle lw st.u) 3 b with
              | none => none
              | some (tree, b) => match rMany (rI lw st.u) (nh - 3) b with
                | none => none
                | some (extra, b) =>
                  let (sets, k) := createSet st.M.sets (nm.takeWhile (· ≠ 0))
                  some ({ st with
                    links := set1 st.links 4 (st.links 4 ++ [k])
                    M := { st.M with sets := sets.modify k fun s => ⟨s.name, low, tree, extra⟩ } }, b)

/-- "convert handles to sets into links to new_sets", L1365-1385: the type of the entries of the tree is not
looked at. -/
def convTree (sets : List Nat) : Option (Nat × Nat) → Option (Option (Nat × Nat))
  | none => some none
  | some (_, k) => match sets[k]? with
    | none => none
    | some i => some (some (4, i))

/-- Members of sets. -/
def convLow (sets : List Nat) : Option (Nat × Nat) → Option (Option (Nat × Nat))
  | none => some none
  | some (ty, k) => if ty = 4 then convTree sets (some (ty, k)) else some (some (ty, k))

/-- One set. -/
def convSet (sets : List Nat) (s : SetRec) : Option SetRec :=
  match allM (convLow sets) s.low, allM (convTree sets) s.tree with
  | some low, some tree => some { s with low := low, tree := tree }
  | _, _ => none

/-- The loop over `new_sets`. -/
def convSets (links : List Nat) : List Nat → List SetRec → Option (List SetRec)
  | [], sets => some sets
  | k :: ks, sets => match sets[k]? with
    | none => none
    | some s => match convSet links s with
      | none => none
      | some s' => convSets links ks (sets.set k s')

/-- One derivative, L1640-1643. -/
def rEntry (lw : Nat) (c : Conv) (b : Bytes) : Option ((Nat × Nat) × Bytes) :=
  match rF c b with
  | none => none
  | some (x, b) => match rI lw c b with
    | none => none
    | some (k, b) => some ((x, k), b)

/-- A value, L1455-1650. -/
def rVal (lw : Nat) (st : Ld) (dtype : Nat) (b : Bytes) : Option (Val × Bytes) :=
  match dtype with
  | 0 => (rF st.i b).map fun p => (.real p.1, p.2)
  | 1 => (rI lw st.i b).map fun p => (.int p.1, p.2)
  | 2 => (rB b).map fun p => (.bulk p.1, p.2)
  | 3 => match rHandle lw st.u b with
    | none => none
    | some (none, b) => some (.ref none, b)
    | some (some (ty, k), b) => match (if ty = 5 then [0] else st.links ty)[k]? with
      | none => none
      | some i => some (.ref (some (ty, i)), b)
  | 5 => match rF st.i b with
    | none => none
    | some (v, b) => match rI lw st.i b with
      | none => none
      | some (n, b) => match rMany (rEntry lw st.i) n b with
        | none => none
        | some (row, b) => some (.var v row, b)
  | _ => none

/-- `recsize` and a record. -/
def rRec (lw : Nat) (st : Ld) (dtype : Nat) (size : Option Nat) (b : Bytes) : Option (List Val × Bytes) :=
  match size with
  | some s => rMany (rVal lw st dtype) s b
  | none => match rI lw st.u b with
    | none => none
    | some (n, b) => rMany (rVal lw st dtype) n b

/-- Storing of a record; `SetDataSize` of a tag of fixed size accepts only this size; `Bulk` of an empty array of
variable size makes it one byte long. -/
def putRec (M : PMesh) (pos ty k : Nat) (r : List Val) : Option PMesh :=
  match M.tags[pos]? with
  | none => none
  | some t =>
    if t.size = none ∨ t.size = some r.length then
      some { M with tags := M.tags.set pos { t with
        data := fun ty' k' => if ty' = ty ∧ k' = k then some (touchRec t r) else t.data ty' k' } }
    else none

/-- A record that was read is dropped if the tag is skipped. -/
def keepRec (st : Ld) (t : TagInfo) (ty k : Nat) (r : List Val) : Option Ld :=
  match t.pos with
  | none => some st
  | some pos => match putRec st.M pos ty k r with
    | none => none
    | some M => some { st with M := M }

/-- The loop over the elements, L1446-1657; the first argument bounds the number of passes. -/
def rElems (lw : Nat) (t : TagInfo) (ty : Nat) (stop : Nat) : Nat → Nat → Ld → Bytes → Option (Ld × Bytes)
  | 0, _, _, _ => none
  | f + 1, q, st, b =>
    if q = stop then some (st, b) else
    match (if ty = 5 then [0] else st.links ty)[q]? with
    | none => none
    | some k => match rRec lw st t.dtype t.size b with
      | none => none
      | some (r, b) =>
        match keepRec st t ty k r with
        | none => none
        | some st =>
          if inMask t.sparse ty then match rI lw st.u b with
            | none => none
            | some (q, b) => rElems lw t ty stop f q st b
          else rElems lw t ty stop f (q + 1) st b

/-- The data of a tag on one type of elements, L1422-1659. -/
def rType (lw : Nat) (t : TagInfo) (st : Ld) (ty : Nat) (b : Bytes) : Option (Ld × Bytes) :=
  if inMask t.defined ty then
    let stop := if ty = 5 then 1 else st.sizes ty
    if inMask t.sparse ty then match rI lw st.u b with
      | none => none
      | some (q, b) => rElems lw t ty stop (b.length + stop + 1) q st b
    else rElems lw t ty stop (b.length + stop + 1) 0 st b
  else some (st, b)

/-- A loop over a list that reads. -/
def rFor {α σ : Type} (p : σ → α → Bytes → Option (σ × Bytes)) : List α → σ → Bytes → Option (σ × Bytes)
  | [], s, b => some (s, b)
  | a :: l, s, b => match p s a b with
    | none => none
    | some (s, b) => rFor p l s b

/-- `MeshHeader`, L1081-1129; `SetDimensions` throws unless the dimension is 2 or 3. -/
def rHeader (lw : Nat) (st : Ld) (b : Bytes) : Option (Ld × Bytes) :=
  match rConv b with
  | none => none
  | some (u, b) => match rConv b with
    | none => none
    | some (i, b) => match b with
      | 1 :: 8 :: b => match rMany (rI lw u) 9 b with
        | none => none
        | some (h, b) => match rN 15 b with
          | none => none
          | some (_, b) =>
            let d := h.getD 0 0
            if d ≠ 2 ∧ d ≠ 3 then none else
            some ({ st with
              u := u
              i := i
              sizes := fun ty => if ty < 5 then h.getD (ty + 1) 0 else 0
              links := fun _ => []
              tags := []
              M := { st.M with dim := d } }, b)
      | _ => none

/-- The size of a section; `assert(size == new_nodes.size())`. -/
def rCount (lw : Nat) (st : Ld) (ty : Nat) (b : Bytes) : Option (Nat × Bytes) :=
  match rI lw st.u b with
  | none => none
  | some (n, b) => if n = st.sizes ty then some (n, b) else none

/-- One token, L1017-1673.  `start` before the first part; a second part is not modelled. -/
def rToken (lw : Nat) (no only : List (List Nat)) (st : Ld) (tok : Nat) (b : Bytes) : Option (Ld × Bytes) :=
  if st.start = false then
    if tok = 0x10 ∧ st.M.T.last 0 = 0 then some ({ st with start := true }, b) else none
  else if tok = 0x09 then some ({ st with start := false }, b)
  else if tok = 0x08 then rHeader lw st b
  else if tok = 0x07 then match rI lw st.u b with
    | none => none
    | some (n, b) => rFold (rTag lw no only) n st b
  else if tok = 0x02 then match rCount lw st 0 b with
    | none => none
    | some (n, b) => rFold rNode n st b
  else if tok = 0x03 then match rCount lw st 1 b with
    | none => none
    | some (n, b) => rFold (rElem lw 1) n st b
  else if tok = 0x04 then match rCount lw st 2 b with
    | none => none
    | some (n, b) => rFold (rElem lw 2) n st b
  else if tok = 0x05 then match rCount lw st 3 b with
    | none => none
    | some (n, b) => rFold (rCell lw) n st b
  else if tok = 0x06 then match rCount lw st 4 b with
    | none => none
    | some (n, b) => match rFold (rSet lw) n st b with
      | none => none
      | some (st, b) => match convSets (st.links 4) (st.links 4) st.M.sets with
        | none => none
        | some sets => some ({ st with M := { st.M with sets := sets } }, b)
  else if tok = 0x11 then rFor (fun st t b => rFor (fun st ty b => rType lw t st ty b) (List.range 6) st b) st.tags st b
  else none

/-- `while (in >> token)`; the first argument bounds the number of passes. -/
def rLoop (lw : Nat) (no only : List (List Nat)) : Nat → Ld → Bytes → Option Ld
  | _, st, [] => some st
  | 0, _, _ :: _ => none
  | f + 1, st, tok :: b => match rToken lw no only st tok b with
    | none => none
    | some (st, b) => rLoop lw no only f st b

/-- `LoadPMF` on one processor into the mesh `M0`: the header of the file, L947-990, all parts, and the end. -/
def load (lw : Nat) (no only : List (List Nat)) (M0 : PMesh) (file : Bytes) : Option PMesh :=
  match file with
  | 0x10 :: b => match rConv b with
    | none => none
    | some (c, b) => match rI 8 c b with
      | none => none
      | some (n, b) => match rMany (rI 8 c) n b with
        | none => none
        | some (sizes, b) => match rN sizes.sum b with
          | none => none
          | some (data, _) => match M0.T.beginMod with
            | none => none
            | some T => match rLoop lw no only (data.length + 1)
                ⟨false, ⟨.little, lw⟩, ⟨.little, lw⟩, fun _ => 0, fun _ => [], [], { M0 with T := T }⟩ data with
              | none => none
              | some st => match st.M.T.endMod (fun _ _ => false) with
                | none => none
                | some T => some { st.M with T := T }
  | _ => none

end Verif.Pmf
