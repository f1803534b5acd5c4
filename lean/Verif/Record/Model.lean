/-!
# Model of storing variables to flat arrays

`multivar_expression::Record`, `RecordSize`, `Retrieve`, `RetrieveSize` (Source/Headers/inmost_expression.h L324-370) and their use in
`Mesh::GetData`, `Mesh::SetData`, `Mesh::GetDataCapacity` for tags of type `DATA_VARIABLE` (Source/Mesh/mesh.cpp).
The buffer is an array of `Row::entry` with a fixed length; an access outside it gives `none`.  Conversions between
`int` and the index type are not modelled (numbers are unbounded).
-/

namespace Verif.Record

variable {K : Type}

/-- A variable: `value` and `entries`. -/
structure Var (K : Type) where
  value : K
  entries : List (Nat × K)

/-- The buffer: an array of `Row::entry`. -/
abbrev Buf (K : Type) := List (Nat × K)

/-- `v[k].first = i; v[k].second = a`. -/
def write (b : Buf K) (p : Nat) (e : Nat × K) : Option (Buf K) := if p < b.length then some (b.set p e) else none

/-- The loop of `Record`, L335-340. -/
def recordLoop (b : Buf K) (p : Nat) : List (Nat × K) → Option (Buf K × Nat)
  | [] => some (b, p)
  | e :: es =>
    match write b p e with
    | none => none
    | some b' => recordLoop b' (p + 1) es

/-- `x.Record(v)` with `v` the address of the element `p` of the buffer, L329-342: the new buffer and the number of
elements written. -/
def record (b : Buf K) (p : Nat) (x : Var K) : Option (Buf K × Nat) :=
  match write b p (x.entries.length, x.value) with
  | none => none
  | some b' =>
    match recordLoop b' (p + 1) x.entries with
    | none => none
    | some (b'', q) => some (b'', q - p)

/-- `RecordSize`, L344-347. -/
def recordSize (x : Var K) : Nat := 1 + x.entries.length

/-- The loop of `Retrieve`, L358-363. -/
def retrieveLoop (b : Buf K) (p : Nat) : Nat → Option (List (Nat × K))
  | 0 => some []
  | n + 1 =>
    match b[p]? with
    | none => none
    | some e =>
      match retrieveLoop b (p + 1) n with
      | none => none
      | some es => some (e :: es)

/-- `x.Retrieve(v)` with `v` the address of the element `p`, L352-365: the new contents of `x` and the number of elements
read. -/
def retrieve (b : Buf K) (p : Nat) : Option (Var K × Nat) :=
  match b[p]? with
  | none => none
  | some (n, a) =>
    match retrieveLoop b (p + 1) n with
    | none => none
    | some es => some (⟨a, es⟩, 1 + n)

/-- `RetrieveSize(v)`, L367-370. -/
def retrieveSize (b : Buf K) (p : Nat) : Option Nat :=
  match b[p]? with
  | none => none
  | some (n, _) => some (1 + n)

/-- `Mesh::GetData` for variables, mesh.cpp L2443-2449 and L2456-2462: the variables with numbers `shift .. shift+size-1` are written
one after another. -/
def getData (vars : List (Var K)) (shift : Nat) (b : Buf K) (k : Nat) : Nat → Option (Buf K × Nat)
  | 0 => some (b, k)
  | size + 1 =>
    match vars[shift]? with
    | none => none
    | some x =>
      match record b k x with
      | none => none
      | some (b', n) => getData vars (shift + 1) b' (k + n) size

/-- `Mesh::SetData` for variables, mesh.cpp L2485-2492 and L2498-2505. -/
def setData (vars : List (Var K)) (shift : Nat) (b : Buf K) (k : Nat) : Nat → Option (List (Var K) × Nat)
  | 0 => some (vars, k)
  | size + 1 =>
    match retrieve b k with
    | none => none
    | some (x, n) => if shift < vars.length then setData (vars.set shift x) (shift + 1) b (k + n) size else none

/-- `Mesh::GetDataCapacity(adata, size, tag)` for variables, mesh.cpp L2344-2351, in elements instead of bytes. -/
def bufCapacity (b : Buf K) (k : Nat) : Nat → Option Nat
  | 0 => some k
  | size + 1 =>
    match retrieveSize b k with
    | none => none
    | some n => bufCapacity b (k + n) size

/-- `Mesh::GetDataCapacity(h, tag)` for variables, mesh.cpp L2375-2382 and L2388-2395, in elements instead of bytes. -/
def dataCapacity (vars : List (Var K)) : Nat := (vars.map recordSize).sum

end Verif.Record
