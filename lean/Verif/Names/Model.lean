import Mathlib.Data.List.Basic

/-!
# Model of the names of element sets

Models `Mesh::CreateSetUnique`, `Mesh::CreateSet`, `/repo/Source/Mesh/mesh.cpp` L1870-1890, `Mesh::GetSet`
L2632-2647, `Mesh::GetSetsByPrefix` L2649-2675, the part of `Mesh::Destroy` that concerns names,
`/repo/Source/Mesh/modify.cpp` L2199, `Mesh::Clear`, mesh.cpp L610-662, and the copy constructor
of `Mesh`, mesh.cpp L396-478.

Simplifications.  A string is a list of bytes.  `set_search`, a `std::map`, is the list of its
entries in the order of the keys; `find`, `operator []`, `erase` and `lower_bound` of the standard library are
modelled by what they do to this list.  A set is a number; of a set only its name is modelled, and
whether it is hidden.
-/

namespace Verif.Names

/-- A string: its bytes. -/
abbrev Str := List Nat

/-- `operator <` of `std::string`: lexicographic comparison of (unsigned) bytes. -/
def strLt : Str → Str → Bool
  | _, [] => false
  | [], _ :: _ => true
  | a :: as, b :: bs => if a < b then true else if b < a then false else strLt as bs

/-- `set_search`, inmost_mesh.h L1324. -/
abbrev Reg := List (Str × Nat)

/-- `set_search.find(name)`. -/
def Reg.find : Reg → Str → Option Nat
  | [], _ => none
  | (k, h) :: r, n => if k = n then some h else Reg.find r n

/-- `set_search[name] = he`. -/
def Reg.put : Reg → Str → Nat → Reg
  | [], n, h => [(n, h)]
  | (k, g) :: r, n, h =>
    if strLt n k then (n, h) :: (k, g) :: r
    else if strLt k n then (k, g) :: Reg.put r n h
    else (k, h) :: r

/-- `set_search.erase(name)`. -/
def Reg.erase : Reg → Str → Reg
  | [], _ => []
  | (k, h) :: r, n => if k = n then r else (k, h) :: Reg.erase r n

/-- `set_search.lower_bound(name)` up to the end. -/
def Reg.lowerBound : Reg → Str → Reg
  | [], _ => []
  | (k, h) :: r, n => if strLt k n then Reg.lowerBound r n else (k, h) :: r

/-- The loop of `GetSetsByPrefix`, mesh.cpp L2664-2673. -/
def prefixLoop (n : Str) : Reg → List Nat
  | [] => []
  | (k, h) :: r =>
    if k.take n.length = n then h :: prefixLoop n r
    else if strLt n (k.take n.length) then []
    else prefixLoop n r

/-- The sets of a mesh: which exist, their names (`PROTECTED_SET_NAME`), which are hidden, whether the mesh
is being modified, and `set_search`. -/
structure Sets where
  live : Nat → Bool
  name : Nat → Str
  hide : Bool
  hidden : Nat → Bool
  last : Nat
  reg : Reg

/-- A new mesh. -/
def Sets.init : Sets := ⟨fun _ => false, fun _ => [], false, fun _ => false, 0, []⟩

/-- `GetSet`, mesh.cpp L2632-2647. -/
def Sets.getSet (S : Sets) (n : Str) : Option Nat := S.reg.find n

/-- `GetSetsByPrefix`, mesh.cpp L2649-2675. -/
def Sets.byPrefix (S : Sets) (n : Str) : List Nat := prefixLoop n (S.reg.lowerBound n)

/-- `CreateSetUnique`, mesh.cpp L1870-1880; `h` is the number that `TieElement` returned. -/
def Sets.createUnique (S : Sets) (n : Str) (h : Nat) : Sets :=
  { S with
    live := fun k => if k = h then true else S.live k
    name := fun k => if k = h then n else S.name k
    hidden := fun k => if k = h then false else S.hidden k
    last := max S.last (h + 1)
    reg := S.reg.put n h }

/-- `CreateSet`, mesh.cpp L1882-1888: the set and whether it is new. -/
def Sets.create (S : Sets) (n : Str) (h : Nat) : Sets × Nat × Bool :=
  match S.getSet n with
  | some g => (S, g, false)
  | none => (S.createUnique n h, h, true)

/-- `Destroy` of a set, modify.cpp L2186-2208; asserts that it exists. -/
def Sets.destroy (S : Sets) (h : Nat) : Option Sets :=
  if S.live h then some { S with
    live := fun k => if k = h then false else S.live k
    hidden := fun k => if k = h then false else S.hidden k
    reg := S.reg.erase (S.name h) }
  else none

/-- `Delete` of a set, modify.cpp L2240-2258: within a modification the set is hidden, otherwise
destroyed. -/
def Sets.delete (S : Sets) (h : Nat) : Option Sets :=
  if S.hide then
    if S.live h then some { S with hidden := fun k => if k = h then true else S.hidden k } else none
  else S.destroy h

/-- `BeginModification`, modify.cpp L1750-1758. -/
def Sets.beginMod (S : Sets) : Option Sets :=
  if S.hide then none else some { S with hide := true, hidden := fun _ => false }

/-- The loop over sets in `EndModification`, modify.cpp L2144-2150. -/
def endLoop : List Nat → Sets → Option Sets
  | [], S => some S
  | h :: hs, S =>
    if S.live h && S.hidden h then
      match S.destroy h with
      | none => none
      | some S' => endLoop hs S'
    else endLoop hs S

/-- `EndModification`, modify.cpp L2121-2183. -/
def Sets.endMod (S : Sets) : Option Sets :=
  if S.hide then match endLoop (List.range S.last) S with
    | none => none
    | some S' => some { S' with hide := false }
  else none

/-- `Clear`, mesh.cpp L610-662: elements and tags go, `set_search` stays. -/
def Sets.clear (S : Sets) : Sets := { S with live := fun _ => false, hidden := fun _ => false, last := 0 }

/-- `Mesh(const Mesh & other)`, mesh.cpp L396-478: elements and data are copied, `set_search` is
empty. -/
def Sets.copy (S : Sets) : Sets := { S with reg := [] }

end Verif.Names
