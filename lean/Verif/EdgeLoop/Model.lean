import Verif.Topology.Model

/-!
# Model of the order of edges of a face

Source: `Source/Mesh/face.cpp` (`Face::CheckEdgeOrder` L163-256, `Face::FixEdgeOrder` L258-472,
`Face::getNodes` L475-584, `Face::getNodes(mask,invert)` L587-850), `Source/Mesh/cell.cpp`
(`Cell::FixEdgeOrder` L90-303), for faces of dimension two (edges that join two nodes).

Every function of the source has a branch without hide marker and a branch with hide marker.
The former is the latter with tests of the marker left out, `getNext` replaced by the next
position and `Count` by the size; `Topo.hid` is then false for every element, so that both branches are
one definition here.

`none` is undefined behaviour, a failed assertion or a loop that does not end.
-/

namespace Verif.EdgeLoop
open Verif.Topology

variable (T : Topo)

/-- The entries of an array that are not hidden, in their order. -/
def vis (l : List El) : List El := l.filter fun x => !T.hid x

/-- `ilc[k1], ilc[k2]` after `if( Count(ilc) != 2 ) return false`, e.g. face.cpp L242-245;
`none`: the count is not two. -/
def ends (e : El) : Option (El × El) :=
  match vis T (T.low e) with
  | [a, b] => some (a, b)
  | _ => none

/-- `qlc[k]` for two successive values of `getNext`, without a test of the size, face.cpp L212-224;
`none`: read out of range. -/
def ends2 (e : El) : Option (El × El) :=
  match vis T (T.low e) with
  | a :: b :: _ => some (a, b)
  | _ => none

/-- `x == ilc[k1] || x == ilc[k2]`. -/
def touches (x : El) (p : El × El) : Bool := decide (x = p.1) || decide (x = p.2)

/-- The loop of `CheckEdgeOrder`, face.cpp L190-199 and L236-252, over the given edges. -/
def chkLoop : El → List El → Bool
  | _, [] => true
  | last, e :: es =>
    if T.hid e then chkLoop last es else
    match ends T e with
    | none => false
    | some (c, d) => if last = c then chkLoop d es else if last = d then chkLoop c es else false

/-- `Face::CheckEdgeOrder`, face.cpp L163-256.  The loop goes over positions `1 ≤ it < lc.size()-1`. -/
def checkEdgeOrder (f : El) : Option Bool :=
  let lc := T.low f
  if T.countVis lc < 3 then some false else
  let i := T.getNext lc 0
  match lc[i]?, lc[T.getNext lc (i + 1)]? with
  | some q, some r => match ends2 T q, ends2 T r with
    | some (a, b), some cd =>
      if touches a cd then some (chkLoop T a (lc.drop 1).dropLast)
      else if touches b cd then some (chkLoop T b (lc.drop 1).dropLast)
      else some false
    | _, _ => none
  | _, _ => none

/-- The search `while(jt < jend)`, face.cpp L291-315, L334-348, L386-415, L438-457: the position
of the first visible edge that satisfies `p`.  `none`: there is none, or an edge met before
does not have two nodes; the function returns false in both cases.  The list is the rest of the array from
position `j`. -/
def search (p : El × El → Bool) : List El → Nat → Option Nat
  | [], _ => none
  | e :: es, j =>
    if T.hid e then search p es (j + 1) else
    match ends T e with
    | none => none
    | some ab => if p ab then some j else search p es (j + 1)

/-- The loop of `FixEdgeOrder`, face.cpp L317-350 and L418-460, and the test that the loop is closed,
L352-355 and L461-468.  The first argument after `first` is `iend - it`.  After a swap the source repeats
the body for the same `it` and then takes the step; both passes are one step here. -/
def fixLoop (first : El) : Nat → Nat → El → List El → Option (Bool × List El)
  | 0, it, last, lc => match lc[it]? with
    | none => none
    | some e => match ends T e with
      | none => some (false, lc)
      | some (c, d) => some (decide ((c = last ∧ d = first) ∨ (c = first ∧ d = last)), lc)
  | n + 1, it, last, lc => match lc[it]? with
    | none => none
    | some e =>
      if T.hid e then fixLoop first n (it + 1) last lc else
      match ends T e with
      | none => some (false, lc)
      | some (c, d) =>
        if last = c then fixLoop first n (it + 1) d lc
        else if last = d then fixLoop first n (it + 1) c lc
        else match search T (touches last) (lc.drop (it + 1)) (it + 1) with
          | none => some (false, lc)
          | some j => match swapAt lc it j with
            | none => none
            | some lc' => match (lc'[it]?).bind (ends T) with
              | none => none
              | some (c, d) =>
                if last = c then fixLoop first n (it + 1) d lc'
                else fixLoop first n (it + 1) c lc'

/-- `Face::FixEdgeOrder`, face.cpp L258-472, on the array of edges: the answer and the new array. -/
def fixOrder (lc : List El) : Option (Bool × List El) :=
  if T.countVis lc < 3 then some (false, lc) else
  let i := T.getNext lc 0
  let i1 := T.getNext lc (i + 1)
  match lc[i]?, lc[i1]? with
  | some q, some r => match ends T q, ends T r with
    | some (a, b), some cd =>
      if touches a cd then fixLoop T b (lc.length - 1 - i1) i1 a lc
      else if touches b cd then fixLoop T a (lc.length - 1 - i1) i1 b lc
      else match search T (fun p => touches a p || touches b p) (lc.drop (i1 + 1)) (i1 + 1) with
        | none => some (false, lc)
        | some j => match swapAt lc i1 j with
          | none => none
          | some lc' => match (lc'[i1]?).bind (ends T) with
            | none => none
            | some p =>
              if touches a p then fixLoop T b (lc'.length - 1 - i1) i1 a lc'
              else fixLoop T a (lc'.length - 1 - i1) i1 b lc'
    | _, _ => some (false, lc)
  | _, _ => none

/-- `Face::FixEdgeOrder` as an operation on the mesh. -/
def fixEdgeOrder (f : El) : Option (Bool × Topo) :=
  match T.lcOf f with
  | none => none
  | some lc => match fixOrder T lc with
    | none => none
    | some (r, lc') => (T.modLow f fun _ => lc').map fun T' => (r, T')

/-- The inner search of `Cell::FixEdgeOrder`, cell.cpp L161-175, L273-288: the position is
not advanced, so that the loop only ends in its first pass (`none`: it does not end). -/
def cellSearch (p : El × El → Bool) (lc : List El) (j : Nat) : Option (Option Nat) :=
  match lc[j]? with
  | none => some none
  | some e =>
    if T.hid e then none else
    match ends T e with
    | none => some none
    | some ab => if p ab then some (some j) else none

/-- The main loop of `Cell::FixEdgeOrder`, cell.cpp L143-177 and L253-291, and the test that follows
it.  As in `fixLoop`, except for the search. -/
def cellLoop (first : El) : Nat → Nat → El → List El → Option (Bool × List El)
  | 0, it, last, lc => match lc[it]? with
    | none => none
    | some e => match ends T e with
      | none => some (false, lc)
      | some (c, d) => some (decide ((c = last ∧ d = first) ∨ (c = first ∧ d = last)), lc)
  | n + 1, it, last, lc => match lc[it]? with
    | none => none
    | some e =>
      if T.hid e then cellLoop first n (it + 1) last lc else
      match ends T e with
      | none => some (false, lc)
      | some (c, d) =>
        if last = c then cellLoop first n (it + 1) d lc
        else if last = d then cellLoop first n (it + 1) c lc
        else match cellSearch T (touches last) lc (it + 1) with
          | none => none
          | some none => some (false, lc)
          | some (some j) => match swapAt lc it j with
            | none => none
            | some lc' => match (lc'[it]?).bind (ends T) with
              | none => none
              | some (c, d) =>
                if last = c then cellLoop first n (it + 1) d lc'
                else cellLoop first n (it + 1) c lc'

/-- `Cell::FixEdgeOrder`, cell.cpp L90-303, for a cell of dimension two.  (The first search, L117-141 and
L221-250, does advance its position.) -/
def cellFixOrder (lc : List El) : Option (Bool × List El) :=
  if T.countVis lc < 3 then some (false, lc) else
  let i := T.getNext lc 0
  let i1 := T.getNext lc (i + 1)
  match lc[i]?, lc[i1]? with
  | some q, some r => match ends T q, ends T r with
    | some (a, b), some cd =>
      if touches a cd then cellLoop T b (lc.length - 1 - i1) i1 a lc
      else if touches b cd then cellLoop T a (lc.length - 1 - i1) i1 b lc
      else match search T (fun p => touches a p || touches b p) (lc.drop (i1 + 1)) (i1 + 1) with
        | none => some (false, lc)
        | some j => match swapAt lc i1 j with
          | none => none
          | some lc' => match (lc'[i1]?).bind (ends T) with
            | none => none
            | some p =>
              if touches a p then cellLoop T b (lc'.length - 1 - i1) i1 a lc'
              else cellLoop T a (lc'.length - 1 - i1) i1 b lc'
    | _, _ => some (false, lc)
  | _, _ => none

/-- `while (GetMarker(lc[iend],hm) && iend > 0) iend--`, face.cpp L562. -/
def lastVis (lc : List El) : Nat → Nat
  | 0 => 0
  | k + 1 => match lc[k + 1]? with
    | none => k + 1
    | some e => if T.hid e then lastVis lc k else k + 1

/-- The loop of `getNodes`, face.cpp L508-516 and L564-579: `acc` are the nodes stored so far without the
last one, `back` the last one. -/
def nodeLoop : List El → El → List El → Option (List El)
  | acc, back, [] => some (acc ++ [back])
  | acc, back, e :: es =>
    if T.hid e then nodeLoop acc back es else
    match ends T e with
    | none => none
    | some (c, d) => nodeLoop (acc ++ [back]) (if back = c then d else c) es

/-- `Face::getNodes`, face.cpp L475-584. -/
def getNodes (f : El) : Option (List El) :=
  let lc := T.low f
  if T.hide = false ∧ lc.length ≤ 2 then none else
  let i := T.getNext lc 0
  let i1 := T.getNext lc (i + 1)
  match lc[i]?, lc[i1]? with
  | some q, some r => match ends T q, ends T r with
    | some (a, b), some cd =>
      let es := (lc.take (lastVis T lc (lc.length - 1))).drop i1
      if touches a cd then nodeLoop T [b] a es else nodeLoop T [a] b es
    | _, _ => none
  | _, _ => none

/-- The loop of `getNodes(mask,invert)`, face.cpp L628-645, L694-714, L754-771 and L822-844; `p` is the test of the mask. -/
def maskLoop (p : El → Bool) : List El → El → List El → Option (List El)
  | acc, _, [] => some acc
  | acc, last, e :: es =>
    if T.hid e then maskLoop p acc last es else
    match ends2 T e with
    | none => none
    | some (c, d) =>
      let y := if last = c then d else c
      maskLoop p (if p y then acc ++ [y] else acc) y es

/-- `Face::getNodes(mask,invert)`, face.cpp L587-850; `priv` says that the mask is a private marker.
The loop goes over positions `1 ≤ it < iend`; `iend` is `lc.size()-1` for a private marker, and for
other markers (L821) the position of the last visible edge. -/
def getNodesMask (priv : Bool) (p : El → Bool) (f : El) : Option (List El) :=
  let lc := T.low f
  let i := T.getNext lc 0
  match lc[i]?, lc[T.getNext lc (i + 1)]? with
  | some q, some r => match ends2 T q, ends2 T r with
    | some (a, b), some cd =>
      let acc := [a, b].filter p
      let iend := if priv then lc.length - 1 else lastVis T lc (lc.length - 1)
      let es := (lc.take iend).drop 1
      if touches a cd then maskLoop T p acc.reverse a es else maskLoop T p acc b es
    | _, _ => none
  | _, _ => none

end Verif.EdgeLoop
