import Verif.Topology.Spec

/-!
# Model of second order adjacency, neighbouring cells and boundary

Source: `Source/Mesh/element.cpp` (BridgeAdjacencies L1863-1885), `Source/Mesh/face.cpp` (BackCell L8-31,
FrontCell L32-57, FaceOrientedOutside L126-132), `Source/Mesh/geometry.cpp` (NeighbouringCells L166-176,
Neighbour L277-283, Boundary L2127-2147, GatherBoundaryFaces L2558-2567, GatherInteriorFaces L2569-2591,
CountBoundaryFaces L2593-2602, MarkBoundaryFaces L2926-2975), `Source/Mesh/cell.cpp` (getFaces L1229-1248).

Simplifications.
* A private marker is the set of the elements that carry it, `El → Bool`; its creation and release are in
  the model of markers (C02-C04).
* The variants `BridgeAdjacencies2Node` ... `2Cell` (element.cpp L1888-1982) differ from `BridgeAdjacencies`
  in calling `getNodes()` ... instead of `getAdjElements(Dest)` and are not modelled.
-/

namespace Verif.Topology

/-- `mask == 0 || (invert ^ GetMarker(mask))`, element.cpp L1871 and L1875; `none` is the mask 0. -/
def picked (mask : Option (El → Bool)) (invert : Bool) (x : El) : Bool :=
  match mask with
  | none => true
  | some m => Bool.xor invert (m x)

/-- `for(it) it->SetPrivateMarker(mrk)`. -/
def setMarks (l : List El) (mrk : El → Bool) : El → Bool := fun y => if y ∈ l then true else mrk y

/-- `for(it) it->RemPrivateMarker(mrk)`. -/
def remMarks (l : List El) (mrk : El → Bool) : El → Bool := fun y => if y ∈ l then false else mrk y

/-- Inner loop of `BridgeAdjacencies`, element.cpp L1874-1879: `adjcells` and the marker. -/
def bridgeIn (tsel : El → Bool) : List El → List El → (El → Bool) → List El × (El → Bool)
  | [], acc, mrk => (acc, mrk)
  | j :: js, acc, mrk =>
    if !mrk j && tsel j then bridgeIn tsel js (acc ++ [j]) (set1 mrk j true)
    else bridgeIn tsel js acc mrk

/-- Outer loop, element.cpp L1871-1880. -/
def Topo.bridgeLoop (T : Topo) (dest : Nat → Bool) (bsel tsel : El → Bool) :
    List El → List El → (El → Bool) → Option (List El × (El → Bool))
  | [], acc, mrk => some (acc, mrk)
  | b :: bs, acc, mrk =>
    if bsel b then
      match T.getAdj b dest [0, 1, 2, 3] with
      | none => none
      | some sub =>
        T.bridgeLoop dest bsel tsel bs (bridgeIn tsel sub acc mrk).1 (bridgeIn tsel sub acc mrk).2
    else T.bridgeLoop dest bsel tsel bs acc mrk

/-- `BridgeAdjacencies(Bridge,Dest,bridge_mask,bridge_invert,target_mask,target_invert)`, element.cpp
L1863-1885: the result and the final state of the private marker, which is `mrk` at the beginning. -/
def Topo.bridge (T : Topo) (x : El) (brid dest : Nat → Bool) (bmask : Option (El → Bool)) (binv : Bool)
    (tmask : Option (El → Bool)) (tinv : Bool) (mrk : El → Bool) : Option (List El × (El → Bool)) :=
  match T.getAdj x brid [0, 1, 2, 3] with
  | none => none
  | some adj =>
    match (if brid x.ty then some [] else T.getAdj x dest [0, 1, 2, 3]) with
    | none => none
    | some my =>
      match T.bridgeLoop dest (picked bmask binv) (picked tmask tinv) adj [] (setMarks my mrk) with
      | none => none
      | some r => some (r.1, remMarks my (remMarks r.1 r.2))

/-- `BackCell`, face.cpp L8-31; the inner `none` is an invalid element.  An argument that is not a face
fails the assertion L10. -/
def Topo.backCell (T : Topo) (f : El) : Option (Option El) :=
  if f.ty ≠ 2 then none else
  match T.hcOf f with
  | none => none
  | some hc => if T.hide then some hc[T.getNext hc 0]? else some hc[0]?

/-- `FrontCell`, face.cpp L32-57. -/
def Topo.frontCell (T : Topo) (f : El) : Option (Option El) :=
  if f.ty ≠ 2 then none else
  match T.hcOf f with
  | none => none
  | some hc =>
    if T.hide then
      if T.getNext hc 0 < hc.length then some hc[T.getNext hc (T.getNext hc 0 + 1)]? else some none
    else some hc[1]?

/-- `FaceOrientedOutside`, face.cpp L126-132. -/
def Topo.orientedOutside (T : Topo) (f c : El) : Option Bool :=
  match T.backCell f with
  | none => none
  | some b => some (b == some c)

/-- `Neighbour`, geometry.cpp L277-283. -/
def Topo.neighbour (T : Topo) (c f : El) : Option (Option El) :=
  match T.backCell f with
  | none => none
  | some b => if b = some c then T.frontCell f else some b

/-- Loop of `NeighbouringCells`, geometry.cpp L170-174. -/
def Topo.neighbourLoop (T : Topo) (c : El) : List El → Option (List El)
  | [] => some []
  | f :: fs =>
    match T.neighbour c f, T.neighbourLoop c fs with
    | some (some y), some l => some (y :: l)
    | some none, some l => some l
    | _, _ => none

/-- `NeighbouringCells`, geometry.cpp L166-176; `getFaces` of a cell (cell.cpp L1229-1248) are the
elements of `LowConn` that are not hidden. -/
def Topo.neighbouringCells (T : Topo) (c : El) : Option (List El) :=
  if c.ty ≠ 3 then none else
  match T.lcOf c with
  | none => none
  | some lc => T.neighbourLoop c (lc.filter fun f => !T.hid f)

/-- `Boundary` of a face, geometry.cpp L2131-2134. -/
def Topo.faceBoundary (T : Topo) (f : El) : Option Bool :=
  match T.frontCell f with
  | none => none
  | some none => some true
  | some (some _) => some false

/-- Loop over faces with an early return, geometry.cpp L2140-2142. -/
def Topo.anyBoundary (T : Topo) : List El → Option Bool
  | [] => some false
  | f :: fs =>
    match T.faceBoundary f with
    | none => none
    | some true => some true
    | some false => T.anyBoundary fs

/-- `Boundary`, geometry.cpp L2127-2147. -/
def Topo.boundary (T : Topo) (x : El) : Option Bool :=
  if x.ty = 2 then T.faceBoundary x
  else if x.ty ≤ 3 then
    match T.getAdj x (fun i => i == 2) [0, 1, 2, 3] with
    | none => none
    | some l => T.anyBoundary l
  else some false

/-- Loop over the local numbers of faces with `isValidElement(FACE,f)`: the faces that exist, hidden ones
included (geometry.cpp L2561, L2574, L2596, L2965). -/
def Topo.faceIds (T : Topo) : List El :=
  ((List.range (T.last 2)).map fun i => (⟨2, i⟩ : El)).filter fun f => T.alive f

/-- Body of the loop of `GatherBoundaryFaces`. -/
def Topo.gatherB (T : Topo) : List El → Option (List El)
  | [] => some []
  | f :: fs =>
    match T.boundary f, T.gatherB fs with
    | some b, some l => some (if b then f :: l else l)
    | _, _ => none

/-- `GatherBoundaryFaces`, geometry.cpp L2558-2567. -/
def Topo.gatherBoundary (T : Topo) : Option (List El) := T.gatherB T.faceIds

/-- Body of the loop of `GatherInteriorFaces` on a mesh that is not distributed. -/
def Topo.gatherI (T : Topo) : List El → Option (List El)
  | [] => some []
  | f :: fs =>
    match T.nbAdj f (fun i => i == 3) [0, 1, 2, 3], T.gatherI fs with
    | some n, some l => some (if n = 2 then f :: l else l)
    | _, _ => none

/-- `GatherInteriorFaces`, geometry.cpp L2569-2591 (the case of one processor, L2572-2579). -/
def Topo.gatherInterior (T : Topo) : Option (List El) := T.gatherI T.faceIds

/-- Loop of `CountBoundaryFaces`, geometry.cpp L2595-2601. -/
def Topo.countB (T : Topo) : List El → Option Nat
  | [] => some 0
  | f :: fs =>
    match T.boundary f, T.countB fs with
    | some b, some n => some (if b then n + 1 else n)
    | _, _ => none

/-- `CountBoundaryFaces`. -/
def Topo.countBoundary (T : Topo) : Option Nat := T.countB T.faceIds

/-- Loop of `MarkBoundaryFaces` on one processor, geometry.cpp L2965-2972: the marker after it. -/
def Topo.markB (T : Topo) : List El → (El → Bool) → Option (El → Bool)
  | [], mrk => some mrk
  | f :: fs, mrk =>
    match T.boundary f with
    | none => none
    | some b => T.markB fs (set1 mrk f b)

/-- `MarkBoundaryFaces` on one processor. -/
def Topo.markBoundary (T : Topo) (mrk : El → Bool) : Option (El → Bool) := T.markB T.faceIds mrk

end Verif.Topology
