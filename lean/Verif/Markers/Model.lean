import Verif.Handles.Model

/-!
# Model of markers

Models `/repo/Source/Headers/inmost_data.h` L58-74, `/repo/Source/Headers/inmost_mesh.h`
L2010-2039, `/repo/Source/Mesh/mesh.cpp` L268-318 and L2052-2157.

A marker is a word whose low 8 bits are a bit mask inside one byte and whose remaining
bits are the number of that byte; the highest bit tells private markers from shared ones.
Each element, and the mesh itself, owns a fixed number of marker bytes
(`MarkerFields = 16` shared bytes, and `MarkerFieldsPrivate = 4` bytes per thread).
The bytes owned by the mesh record which markers are allocated.

An access to a byte outside the array is undefined behaviour in the source and is the
outcome `none` here; a call whose `assert` fails is `none` as well.
-/

namespace Verif.Markers
open Verif.Handles

/-- `INMOST_DATA_BULK_TYPE`, an unsigned char. -/
abbrev Byte := BitVec 8

/-- `MarkerType`, inmost_data.h L62; `w` is the width of `INMOST_DATA_ENUM_TYPE`. -/
abbrev Marker (w : Nat) := BitVec w

/-- `MarkerPrivateBit`, inmost_data.h L68. -/
def privateBit (w : Nat) : Marker w := 1#w <<< (w - 1)

/-- `isPrivate`, inmost_data.h L73. -/
def isPrivate {w : Nat} (n : Marker w) : Bool := (n &&& privateBit w) == privateBit w

/-- `n >> MarkerShift`, inmost_data.h L72. -/
def byteIndex {w : Nat} (n : Marker w) : Nat := (n >>> 8).toNat

/-- `static_cast<bulk>(n & MarkerMask)`, inmost_data.h L70. -/
def byteMask {w : Nat} (n : Marker w) : Byte := (n &&& 0xFF#w).setWidth 8

/-- `(~marker_space[k]) & (-(~marker_space[k]))` truncated to a byte, mesh.cpp L2058.
The source computes in `int`, i.e. on 32 bits after zero extension of the byte. -/
def freeBit (b : Byte) : Byte :=
  let x : BitVec 32 := ~~~ (b.zeroExtend 32)
  (x &&& (-x)).setWidth 8

/-- The loop of `CreateMarker`, mesh.cpp L2056-2065, over the bytes from number `k` on.
Returns the marker without private bit and the updated bytes. -/
def createLoop {w : Nat} (k : Nat) : List Byte → Option (Marker w × List Byte)
  | [] => none
  | b :: bs =>
    let mask := freeBit b
    if mask ≠ 0 then
      some ((BitVec.ofNat w k <<< 8) ||| mask.zeroExtend w, (b ||| mask) :: bs)
    else match createLoop (k + 1) bs with
      | none => none
      | some (m, bs') => some (m, b :: bs')

/-- Bytes accessed by SetMarker: `bytes[n >> MarkerShift] |= n & MarkerMask`,
inmost_mesh.h L2014. -/
def setBytes {w : Nat} (bytes : List Byte) (n : Marker w) : Option (List Byte) :=
  match bytes[byteIndex n]? with
  | none => none
  | some b => some (bytes.set (byteIndex n) (b ||| byteMask n))

/-- Bytes accessed by RemMarker: `bytes[n >> MarkerShift] &= ~(n & MarkerMask)`,
inmost_mesh.h L2031. -/
def remBytes {w : Nat} (bytes : List Byte) (n : Marker w) : Option (List Byte) :=
  match bytes[byteIndex n]? with
  | none => none
  | some b => some (bytes.set (byteIndex n) (b &&& ~~~ byteMask n))

/-- Bytes read by GetMarker, inmost_mesh.h L2026. -/
def getBytes {w : Nat} (bytes : List Byte) (n : Marker w) : Option Bool :=
  match bytes[byteIndex n]? with
  | none => none
  | some b => some ((b &&& byteMask n) != 0)

/-- The marker bytes of one tag (`tag_markers`, or `tag_private_markers[thread]`):
those of the mesh itself and those of every element (by handle). -/
structure Space where
  mesh : List Byte
  elem : Nat → List Byte

/-- Update of the bytes of one element. -/
def Space.update (s : Space) (h : Nat) (bs : List Byte) : Space :=
  { s with elem := fun x => if x = h then bs else s.elem x }

/-- RemMarker for one element of a space. -/
def Space.rem {w : Nat} (s : Space) (h : Nat) (n : Marker w) : Option Space :=
  match remBytes (s.elem h) n with
  | none => none
  | some bs => some (s.update h bs)

/-- SetMarker for one element of a space. -/
def Space.set {w : Nat} (s : Space) (h : Nat) (n : Marker w) : Option Space :=
  match setBytes (s.elem h) n with
  | none => none
  | some bs => some (s.update h bs)

/-- GetMarker for one element of a space. -/
def Space.get {w : Nat} (s : Space) (h : Nat) (n : Marker w) : Option Bool :=
  getBytes (s.elem h) n

/-- The loop over elements in ReleaseMarker, mesh.cpp L2101-2103; the elements of one
type that are valid are given by the list of their handles.  (The loop is an OpenMP
parallel for in the source; iterations touch different elements.) -/
def Space.remAll {w : Nat} (s : Space) (n : Marker w) : List Nat → Option Space
  | [] => some s
  | h :: hs => match s.rem h n with
    | none => none
    | some s' => s'.remAll n hs

/-- The element types visited by the loop `etype = NODE; etype < MESH; etype <<= 1`,
mesh.cpp L2095. -/
def cleanupTypes : List ElementType := [NODE, EDGE, FACE, CELL, ESET]

/-- Loop over the types of ReleaseMarker, mesh.cpp L2095-2104, with `pop t` the handles
of the valid elements of type `t`. -/
def Space.cleanup {w : Nat} (s : Space) (n : Marker w) (mask : ElementType)
    (pop : ElementType → List Nat) : List ElementType → Option Space
  | [] => some s
  | t :: ts =>
    if mask &&& t ≠ 0 then
      match s.remAll n (pop t) with
      | none => none
      | some s' => s'.cleanup n mask pop ts
    else s.cleanup n mask pop ts

/-- ReleaseMarker on a space, mesh.cpp L2090-2121 (the debugging checks under
`CHECKS_MARKERS` are not modelled). -/
def Space.release {w : Nat} (s : Space) (n : Marker w) (mask : ElementType)
    (pop : ElementType → List Nat) : Option Space :=
  match s.cleanup n mask pop cleanupTypes with
  | none => none
  | some s' =>
    match remBytes s'.mesh n with
    | none => none
    | some bs => some { s' with mesh := bs }

/-- CreateMarker on a space. -/
def Space.create {w : Nat} (s : Space) : Option (Marker w × Space) :=
  match createLoop 0 s.mesh with
  | none => none
  | some (m, bs) => some (m, { s with mesh := bs })

/-- All marker memory of a mesh: the shared markers and, for each thread, the private
markers of that thread (mesh.cpp L298-336). -/
structure World where
  shared : Space
  priv : Nat → Space

/-- Update of the private space of one thread. -/
def World.setPriv (W : World) (t : Nat) (s : Space) : World :=
  { W with priv := fun x => if x = t then s else W.priv x }

/-- `Mesh::CreateMarker`, mesh.cpp L2052-2068. -/
def createMarker {w : Nat} (W : World) : Option (Marker w × World) :=
  match W.shared.create with
  | none => none
  | some (m, s) => some (m, { W with shared := s })

/-- `Mesh::CreatePrivateMarker` called on thread `t`, mesh.cpp L2069-2088. -/
def createPrivateMarker {w : Nat} (W : World) (t : Nat) : Option (Marker w × World) :=
  match (W.priv t).create with
  | none => none
  | some (m, s) => some (m ||| privateBit w, W.setPriv t s)

/-- `Mesh::SetMarker`, inmost_mesh.h L2014. -/
def setMarker {w : Nat} (W : World) (h : Nat) (n : Marker w) : Option World :=
  if isPrivate n then none else
  match W.shared.set h n with
  | none => none
  | some s => some { W with shared := s }

/-- `Mesh::RemMarker`, inmost_mesh.h L2031. -/
def remMarker {w : Nat} (W : World) (h : Nat) (n : Marker w) : Option World :=
  if isPrivate n then none else
  match W.shared.rem h n with
  | none => none
  | some s => some { W with shared := s }

/-- `Mesh::GetMarker`, inmost_mesh.h L2026. -/
def getMarker {w : Nat} (W : World) (h : Nat) (n : Marker w) : Option Bool :=
  if isPrivate n then none else W.shared.get h n

/-- `Mesh::SetPrivateMarker` on thread `t`, mesh.cpp L280-287. -/
def setPrivateMarker {w : Nat} (W : World) (t h : Nat) (n : Marker w) : Option World :=
  if isPrivate n then
    match (W.priv t).set h (n &&& ~~~ privateBit w) with
    | none => none
    | some s => some (W.setPriv t s)
  else none

/-- `Mesh::RemPrivateMarker` on thread `t`, mesh.cpp L289-296. -/
def remPrivateMarker {w : Nat} (W : World) (t h : Nat) (n : Marker w) : Option World :=
  if isPrivate n then
    match (W.priv t).rem h (n &&& ~~~ privateBit w) with
    | none => none
    | some s => some (W.setPriv t s)
  else none

/-- `Mesh::GetPrivateMarker` on thread `t`, mesh.cpp L268-278. -/
def getPrivateMarker {w : Nat} (W : World) (t h : Nat) (n : Marker w) : Option Bool :=
  if isPrivate n then (W.priv t).get h (n &&& ~~~ privateBit w) else none

/-- `Mesh::ReleaseMarker`, mesh.cpp L2090-2121. -/
def releaseMarker {w : Nat} (W : World) (n : Marker w) (mask : ElementType)
    (pop : ElementType → List Nat) : Option World :=
  if isPrivate n then none else
  match W.shared.release n mask pop with
  | none => none
  | some s => some { W with shared := s }

/-- `Mesh::ReleasePrivateMarker` on thread `t`, mesh.cpp L2123-2157. -/
def releasePrivateMarker {w : Nat} (W : World) (t : Nat) (n : Marker w) (mask : ElementType)
    (pop : ElementType → List Nat) : Option World :=
  if isPrivate n then
    match (W.priv t).release (n &&& ~~~ privateBit w) mask pop with
    | none => none
    | some s => some (W.setPriv t s)
  else none

/-- Marker memory right after construction of the mesh: `F` zero bytes for shared and `P`
zero bytes for private markers on the mesh and on every element
(the tags are created with size `MarkerFields` / `MarkerFieldsPrivate`; the storage of a
new element is zeroed, container.hpp L1416, mesh.cpp L2527-2541). -/
def initWorld (F P : Nat) : World where
  shared := { mesh := List.replicate F 0, elem := fun _ => List.replicate F 0 }
  priv := fun _ => { mesh := List.replicate P 0, elem := fun _ => List.replicate P 0 }

end Verif.Markers
