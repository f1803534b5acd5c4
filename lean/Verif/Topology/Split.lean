import Verif.Topology.Model

/-!
# Model of splitting and uniting edges

Source: `Source/Mesh/modify.cpp` (`Edge::SplitEdge` L1210-1415, `Edge::UniteEdges` L719-973).

Simplifications, in addition to those of `Topology/Model.lean`.
* What follows after the last change of connections (`ComputeGeometricType`, `RecomputeGeometricData`,
  `EndTopologyCheck`) is left out.  Its effect on connections, `FixNormalOrientation`, is a
  separate operation of the model.
* `ids` are the local numbers that `TieElement` returns for new edges.
* `dup` is the topology check `DUPLICATE_EDGE` of `CreateEdge`.
-/

namespace Verif.Topology

/-- The search for the edge in the array of a face, modify.cpp L1263-1271: the first position at which
the element is not hidden and is `e`.  `none`: not found. -/
def Topo.visIdx (T : Topo) (e : El) : List El → Option Nat
  | [] => none
  | x :: xs => if T.hid x = false ∧ x = e then some 0 else (T.visIdx e xs).map (· + 1)

/-- The loop L1259-1277; a failed search is a failed assertion. -/
def Topo.insPos (T : Topo) (e : El) : List El → Option (List (El × Nat))
  | [] => some []
  | f :: fs => match T.lcOf f with
    | none => none
    | some ilc => match T.visIdx e ilc, T.insPos e fs with
      | some p, some ps => some ((f, p) :: ps)
      | _, _ => none

/-- The chain of new edges, modify.cpp L1295-1314: an edge from `a` to the first target, from there to
the next and so on. -/
def Topo.chain (dup : Bool) : (a : El) → (targets : List El) → (ids : List Nat) → Topo →
    Option (Topo × List El)
  | _, [], _, T => some (T, [])
  | _, _ :: _, [], _ => none
  | a, b :: bs, id :: ids, T => match T.create dup 1 id [a, b] [] with
    | some (T1, some r, _) => if T1.hid r then none else match chain dup b bs ids T1 with
      | none => none
      | some (T2, rs) => some (T2, r :: rs)
    | _ => none

/-- `phc[0] == n || phc[1] == n`, modify.cpp L1323. -/
def isEnd (n : El) (phc : List El) : Option Bool :=
  match phc[0]? with
  | none => none
  | some x => if x = n then some true else match phc[1]? with
    | none => none
    | some y => some (decide (y = n))

/-- Insertion of the new edges into one face, modify.cpp L1319-1326. -/
def Topo.insStep (n0 : El) (ret : List El) (T : Topo) (fp : El × Nat) : Option Topo :=
  match T.lcOf fp.1 with
  | none => none
  | some lc =>
    if lc.length = 0 ∨ lc.length < fp.2 then none else
    match lc[(fp.2 + lc.length - 1) % lc.length]? with
    | none => none
    | some p => match T.lcOf p with
      | none => none
      | some phc => match isEnd n0 phc with
        | none => none
        | some b => T.modLow fp.1 fun l =>
            l.take fp.2 ++ (if b then ret else ret.reverse) ++ l.drop fp.2

section
variable (flip : Topo → El → Bool)

/-- `if( !e->Hide() ) { ... }`, modify.cpp L1281-1293. -/
def Topo.dropEdge (T : Topo) (e : El) : Option Topo :=
  if T.hide then T.hideEl flip e else
  match T.hcOf e with
  | none => none
  | some hc => match forEach (fun T f => T.modLow f (eraseAll e)) hc T with
    | none => none
    | some T1 => match T1.modHigh e fun _ => [] with
      | none => none
      | some T2 => T2.destroy flip e

/-- The part of `SplitEdge` that follows the creation of the edges, modify.cpp L1316-1354. -/
def Topo.splitLinks (T : Topo) (n0 : El) (ret nodes faces cells : List El) (pos : List (El × Nat)) :
    Option Topo :=
  match forEach (Topo.insStep n0 ret) pos T with
  | none => none
  | some T1 => match forEach (fun T r => T.modHigh r (· ++ faces)) ret T1 with
    | none => none
    | some T2 =>
      if T.cn then
        match forEach (fun T n => T.modLow n (· ++ cells)) nodes T2 with
        | none => none
        | some T3 => forEach (fun T c => T.modHigh c (· ++ nodes)) cells T3
      else some T2

/-- `Edge::SplitEdge`, modify.cpp L1210-1415.  `prot`: the edge has the marker `del_protect`.
The result is the state and the array of new edges. -/
def Topo.splitEdge (T : Topo) (dup prot : Bool) (e : El) (nodes : List El) (ids : List Nat) :
    Option (Topo × List El) :=
  if T.alive e = false then none else
  if prot = true ∨ nodes = [] then some (T, []) else
  match T.hcOf e with
  | none => none
  | some hc =>
    let faces := hc.filter fun x => !T.hid x
    match T.collectVia T.hcOf [] hc with
    | none => none
    | some cells => match (T.low e).filter (fun x => !T.hid x) with
      | [n0, n1] => match T.insPos e faces with
        | none => none
        | some pos => match T.dropEdge flip e with
          | none => none
          | some T1 => match Topo.chain dup n0 (nodes ++ [n1]) ids T1 with
            | none => none
            | some (T2, ret) => match T2.splitLinks n0 ret nodes faces cells pos with
              | none => none
              | some T3 => some (T3, ret)
      | _ => none

/-! ## UniteEdges -/

/-- The faces of the edges, modify.cpp L737-745: visible, each once. -/
def Topo.facesOf (T : Topo) (acc : List El) : List El → Option (List El)
  | [] => some acc
  | e :: es => match T.hcOf e with
    | none => none
    | some hc => T.facesOf (T.collect acc hc) es

/-- All visible entries of the arrays of nodes of the edges, modify.cpp L746-748. -/
def Topo.endsOf (T : Topo) (edges : List El) : List El :=
  edges.flatMap fun e => (T.low e).filter fun x => !T.hid x

/-- A new key in a `std::map` with nodes as keys: the keys stay sorted by handle. -/
def keyInsert (n : El) : List El → List El
  | [] => [n]
  | x :: xs => if n.id < x.id then n :: x :: xs else if n = x then x :: xs else x :: keyInsert n xs

/-- The keys of the map `nodes`, in increasing order; the value of a key is the number of its
occurrences. -/
def keys (l : List El) : List El := l.foldl (fun m n => keyInsert n m) []

/-- The search of the first edge to be removed, modify.cpp L811-834. -/
def remIdx (edges : List El) : List El → Option Nat
  | [] => none
  | x :: xs => if x ∈ edges then some 0 else (remIdx edges xs).map (· + 1)

/-- The positions for all faces; a failed search is a failed assertion (L835-839, L846). -/
def Topo.remPos (T : Topo) (edges : List El) : List El → Option (List (El × Nat))
  | [] => some []
  | f :: fs => match T.lcOf f with
    | none => none
    | some lc => match remIdx edges lc, T.remPos edges fs with
      | some p, some ps => some ((f, p) :: ps)
      | _, _ => none

/-- Removal of one edge, modify.cpp L869-874. -/
def Topo.remEdge (T : Topo) (e : El) : Option Topo :=
  if T.hide then T.hideEl flip e else
  match T.modHigh e fun _ => [] with
  | none => none
  | some T1 => T1.destroy flip e

/-- Removal of one inner node, modify.cpp L881-904. -/
def Topo.remNode (T : Topo) (n : El) : Option Topo :=
  if T.hide then T.hideEl flip n else
  match (if T.cn then match T.lcOf n with
      | none => none
      | some lc => forEach (fun T c => T.modHigh c (eraseAll n)) lc T
    else some T) with
  | none => none
  | some T1 => T1.destroy flip n

/-- Insertion of the new edge into one face, modify.cpp L912-915. -/
def Topo.uniteIns (e : El) (T : Topo) (fp : El × Nat) : Option Topo :=
  match T.lcOf fp.1 with
  | none => none
  | some lc =>
    if lc.length < fp.2 then none else
    match T.modLow fp.1 fun l => l.take fp.2 ++ [e] ++ l.drop fp.2 with
    | none => none
    | some T1 => T1.modHigh e (· ++ [fp.1])

/-- The changes made by `UniteEdges`, modify.cpp L851-916. -/
def Topo.uniteRun (T : Topo) (dup : Bool) (edges faces inner build : List El) (pos : List (El × Nat))
    (id : Nat) : Option (Topo × Option El) :=
  match (if T.hide then some T else
      forEach (fun T f => T.modLow f (·.filter (· ∉ edges))) faces T) with
  | none => none
  | some T1 => match forEach (Topo.remEdge flip) edges T1 with
    | none => none
    | some T2 => match forEach (Topo.remNode flip) inner T2 with
      | none => none
      | some T3 => match T3.create dup 1 id build [] with
        | some (T4, some e, _) => match forEach (Topo.uniteIns e) pos T4 with
          | none => none
          | some T5 => some (T5, some e)
        | _ => none

/-- `Edge::UniteEdges`, modify.cpp L719-973.  `prot`: the elements with the marker `del_protect`.
The second component of the result is the new edge, `none` for `InvalidHandle`. -/
def Topo.uniteEdges (T : Topo) (dup : Bool) (prot : El → Bool) (edges : List El) (id : Nat) :
    Option (Topo × Option El) :=
  if edges = [] then some (T, none) else
  if edges.any (fun e => !T.alive e) then none else
  match T.facesOf [] edges with
  | none => none
  | some faces =>
    if edges.any prot then some (T, none) else
    let ends := T.endsOf edges
    let nodes := keys ends
    let build := nodes.filter fun n => ends.count n = 1
    if build.length ≠ 2 then none else
    if nodes.any (fun n => decide (2 < ends.count n)) then none else
    if nodes.any (fun n => decide (ends.count n = 2) && prot n) then some (T, none) else
    match T.remPos edges faces with
    | none => none
    | some pos => T.uniteRun flip dup edges faces (nodes.filter fun n => ends.count n ≠ 1) build pos id

/-- `Edge::TestUniteEdges`, modify.cpp L974-1084. -/
def Topo.testUnite (T : Topo) (prot : El → Bool) (edges : List El) : Option Bool :=
  if edges = [] then some false else
  if edges.any (fun e => !T.alive e) then none else
  match T.facesOf [] edges with
  | none => none
  | some faces =>
    if edges.any prot then some false else
    let ends := T.endsOf edges
    let nodes := keys ends
    if nodes.any (fun n => decide (2 < ends.count n)) then none else
    if nodes.any (fun n => decide (ends.count n = 2) && prot n) then some false else
    match T.remPos edges faces with
    | none => none
    | some _ => some true

end

end Verif.Topology
