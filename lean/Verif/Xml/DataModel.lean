import Verif.Xml.ExprModel

/-!
# Model of data sections of xml files

Source: `Source/Misc/xml.cpp` (ToLower, ConvertHex L34-40, atoc L41-44, CharToHex L46-53, ReferenceToString L62-77, VariableToString
L101-127, GetContentsWord L981-1115, atoes L1138-1151, atoe L1153-1166, atoh L1168-1181, atov L1202-1220, SplitValueMultiplier L1248-1261,
ParseCommaSeparated L1272-1284, ParseReal L1287-1315, ParseVariable L1318-1340, ParseInteger L1342-1364, ParseBulk L1367-1401,
ParseReference L1404-1435), `Source/IO/mesh_xml_file.cpp` (reading L411-463 and L726-1009, writing L1169-1204 and L1226-1453).

Simplifications.
* The data of one tag on one type of elements is a function from the number of the element to its record.
* What is undefined (an index outside of an array) and a thrown exception are `none`; messages of `Report` are not modelled.
* Reals are any type with `fmt` for `fout <<` and `atof`.  Integers do not overflow.
* `offset` is 0; sparse records of sets are given by number, not by name; options of tags are those of C48.
-/

namespace Verif.Xml

/-! ## Words -/

/-- The states of `GetContentsWord`. -/
inductive WSt
  | wait
  | read
  | vector
  | mult
  | scopes
  | quotes
  deriving DecidableEq, Repr

/-- The last character is `c`. -/
def lastIs (s : Str) (c : Char) : Bool := decide (s.getLast? = some c)

/-- `GetContentsWord`, L994-1115: the state, the word and `testend`.  The result is the word, whether the contents ended,
and what is left. -/
def wordLoop (st : WSt) (ret : Str) (te : Nat) : Str → Option (Str × Bool × Str)
  | [] => none
  | c :: t =>
    let br := decide (c = ']') && decide (st ≠ .quotes)
    if br = false ∧ c = '>' ∧ te = 2 ∧ ret.drop (ret.length - 2) = [']', ']'] then
      some (ret.take (ret.length - 2), true, c :: t)
    else
      let te' := if br then te + 1 else if c = '>' ∧ te = 2 then 0 else te
      match st with
      | .wait =>
        if isSpace c then wordLoop .wait ret te' t
        else if c = '{' then wordLoop .vector (ret ++ [c]) te' t
        else if c = '*' then wordLoop .mult (ret ++ [c]) te' t
        else if c = '"' then wordLoop .quotes (ret ++ [c]) te' t
        else wordLoop .read (ret ++ [c]) te' t
      | .read =>
        if isSpace c then some (ret, false, t)
        else if c = '*' then wordLoop .mult (ret ++ [c]) te' t
        else wordLoop .read (ret ++ [c]) te' t
      | .vector =>
        if c = '}' then wordLoop .read (ret ++ [c]) te' t
        else if isSpace c then wordLoop .vector ret te' t
        else wordLoop .vector (ret ++ [c]) te' t
      | .mult =>
        if isSpace c then if lastIs ret '*' then wordLoop .mult ret te' t else some (ret, false, t)
        else if c = '(' ∧ lastIs ret '*' = true then wordLoop .scopes (ret ++ [c]) te' t
        else wordLoop .mult (ret ++ [c]) te' t
      | .scopes =>
        if c = ')' then some (ret ++ [c], false, t)
        else if isSpace c then wordLoop .scopes ret te' t
        else wordLoop .scopes (ret ++ [c]) te' t
      | .quotes =>
        if c = '"' then
          if lastIs ret '\\' then wordLoop .quotes (ret.dropLast ++ [c]) te' t else wordLoop .read (ret ++ [c]) te' t
        else wordLoop .quotes (ret ++ [c]) te' t

/-- The words up to the end of the contents, the text directly before the end, which is not given to the loops of
LoadXML, and what is left. -/
def contents : Nat → Str → Option (List Str × Str × Str)
  | 0, _ => none
  | f + 1, s => match wordLoop .wait [] 0 s with
    | none => none
    | some (w, true, t) => some ([], w, t)
    | some (w, false, t) => match contents f t with
      | none => none
      | some (ws, l, t) => some (w :: ws, l, t)

/-! ## Values -/

/-- How values of one type are read and written. -/
structure Kind (V : Type) where
  /-- one value in braces -/
  item : Str → Option V
  /-- a record without braces -/
  one : Str → Option (List V)
  zero : V
  put : V → Str

/-- `atoi` -/
def digitsVal (s : Str) : Nat := (s.takeWhile isDigit).foldl (fun a c => 10 * a + (c.toNat - 48)) 0

/-- `atoi` -/
def atoi (s : Str) : Int :=
  match s.dropWhile isSpace with
  | '-' :: d => -(digitsVal d : Int)
  | '+' :: d => digitsVal d
  | d => digitsVal d

/-- `fout << i` -/
def showInt : Int → Str
  | .ofNat n => decimal n
  | .negSucc n => '-' :: decimal (n + 1)

/-- Integers, L1342-1364. -/
def intKind : Kind Int where
  item s := some (atoi s)
  one s := some [atoi s]
  zero := 0
  put := showInt

/-- Reals, L1287-1315. -/
def realKind {R : Type} (fmt : R → Str) (atof : Str → R) (zero : R) : Kind R where
  item s := some (atof s)
  one s := some [atof s]
  zero := zero
  put := fmt

/-- `ConvertHex` -/
def convertHex (c : Char) : Int :=
  let l : Int := if 65 ≤ c.toNat ∧ c.toNat ≤ 90 then c.toNat + 32 else c.toNat
  let r := l - 48
  let r := if r > 10 then r - 7 else r
  if r > 15 then r - 32 else r

/-- `atoc`: a byte. -/
def atoc (a b : Char) : Nat := ((convertHex a * 16 + convertHex b) % 256).toNat

/-- `hex` -/
def hexDigit (n : Nat) : Char := if n < 10 then Char.ofNat (48 + n) else Char.ofNat (55 + n)

/-- `CharToHex` -/
def charToHex (b : Nat) : Str := [hexDigit (b / 16), hexDigit (b % 16)]

/-- `atoc` of the first two characters; after the end is a zero. -/
def atocStr : Str → Nat
  | [] => atoc '\x00' '\x00'
  | [a] => atoc a '\x00'
  | a :: b :: _ => atoc a b

/-- L1394-1398 -/
def hexPairs : Str → List Nat
  | a :: b :: t => atoc a b :: hexPairs t
  | _ => []

/-- Bytes, L1367-1401. -/
def bulkKind : Kind Nat where
  item s := some (atocStr s)
  one s := if s.head? = some '"' then if s.length < 2 then none else some (((s.drop 1).take (s.length - 2)).map (·.toNat))
    else if 2 ≤ s.length ∧ s.length % 2 = 0 then some (hexPairs s) else some []
  zero := 0
  put := charToHex

/-- Names of element types in references: `Node`, `Edge`, `Face`, `Cell`, `Set`, `Mesh`. -/
def typeName : Nat → Str
  | 0 => ['N', 'o', 'd', 'e']
  | 1 => ['E', 'd', 'g', 'e']
  | 2 => ['F', 'a', 'c', 'e']
  | 3 => ['C', 'e', 'l', 'l']
  | 4 => ['S', 'e', 't']
  | 5 => ['M', 'e', 's', 'h']
  | _ => []

/-- `atoe`: the number of the type, `none` is `NONE`. -/
def atoe (s : Str) : Option Nat := (List.range 6).find? fun ty => decide (typeName ty = s)

/-- `None:0` -/
def noneRef : Str := ['N', 'o', 'n', 'e', ':', '0']

/-- `atoh`: type and number. -/
def atoh (s : Str) : Option Nat × Int :=
  if s = ['N', 'o', 'n', 'e'] ∨ s = noneRef then (none, 0)
  else if ':' ∉ s then (none, 1)
  else (atoe (s.takeWhile (· ≠ ':')), atoi ((s.dropWhile (· ≠ ':')).drop 1))

/-- `links[ElementNum(type)][number]`, L878; `ElementNum(NONE)` is 0. -/
def linkOf (num : Nat → Nat) (r : Option Nat × Int) : Option (Option (Nat × Nat)) :=
  let ty := r.1.getD 0
  if ty < 5 ∧ 0 ≤ r.2 ∧ r.2 < num ty then some (some (ty, r.2.toNat)) else none

/-- References, L1404-1435, L861-893; `num` gives the numbers of elements of the mesh. -/
def refKind (num : Nat → Nat) : Kind (Option (Nat × Nat)) where
  item s := linkOf num (atoh s)
  one s := (linkOf num (atoh s)).map ([·])
  zero := none
  put
    | none => noneRef
    | some (ty, k) => typeName ty ++ ':' :: decimal k

/-- `ParseCommaSeparated`: `word.find(symbol)`, `substr` in a loop. -/
def splitC (c : Char) : Str → List Str
  | [] => [[]]
  | x :: t => if x = c then [] :: splitC c t else
    match splitC c t with
    | p :: ps => (x :: p) :: ps
    | [] => [[x]]

/-- `sstrip` -/
def sstrip (s : Str) : Str := trimEnd (s.dropWhile isSpace)

/-- The loop of `atov`, L1214-1218, from the number `q`. -/
def atovLoop {R : Type} (atof : Str → R) (d : List Str) : Nat → Nat → List (R × Int) → Option (List (R × Int))
  | 0, _, row => some row
  | f + 1, q, row =>
    if q < row.length then
      if q + 1 < d.length then atovLoop atof d f (q + 2) (row.set q (atof (d.getD q []), atoi (d.getD (q + 1) [])))
      else none
    else some row

/-- `ENUMUNDEF` -/
def enumUndef : Int := 4294967295

/-- `atov` -/
def atov {R : Type} (atof : Str → R) (zero : R) (s : Str) : Option (R × List (R × Int)) :=
  if s.length < 2 then none else
  let d := (splitC ';' ((s.drop 1).dropLast)).map sstrip
  let n := atoi (d.getD 1 [])
  if d.length < 2 ∨ n < 0 then none else
  (atovLoop atof d (n.toNat + 1) 2 (List.replicate n.toNat (zero, enumUndef))).map (atof (d.getD 0 []), ·)

/-- `VariableToString` -/
def varToStr {R : Type} (fmt : R → Str) (v : R × List (R × Int)) : Str :=
  '(' :: (fmt v.1 ++ ';' :: (showInt v.2.length ++ v.2.flatMap (fun p => ';' :: (fmt p.1 ++ ';' :: showInt p.2)) ++ [')']))

/-- Values with derivatives, L1318-1340. -/
def varKind {R : Type} (fmt : R → Str) (atof : Str → R) (zero : R) : Kind (R × List (R × Int)) where
  item s := atov atof zero s
  one s := (atov atof zero s).map ([·])
  zero := (zero, [])
  put := varToStr fmt

variable {V : Type}

/-- A value between commas; white space is skipped. -/
def optItem (K : Kind V) (s : Str) : Option (List V) := if s.all isSpace then some [] else (K.item s).map ([·])

/-- The values in braces: the last part goes up to the brace. -/
def items (K : Kind V) : List Str → Option (List V)
  | [] => none
  | [p] => if '}' ∈ p then optItem K (p.takeWhile (· ≠ '}')) else none
  | p :: ps => match optItem K p, items K ps with
    | some a, some b => some (a ++ b)
    | _, _ => none

/-- `ParseReal`, ... without the multiplier. -/
def parseVec (K : Kind V) (s : Str) : Option (List V) :=
  if s.head? = some '{' then items K (splitC ',' s.tail) else K.one s

/-- `SplitValueMultiplier` -/
def splitMul (s : Str) : Str × Str := (s.takeWhile (· ≠ '*'), (s.dropWhile (· ≠ '*')).drop 1)

/-- `ParseReal`, ...: the vector and the number of repetitions. -/
def parseWord (K : Kind V) (num : Str → ℚ) (setSize : Nat) (s : Str) : Option (List V × Int) :=
  match parseVec K (splitMul s).1, convertMultiplier num (splitMul s).2 setSize with
  | some v, some r => some (v, r)
  | _, _ => none

/-! ## Reading into the mesh -/

/-- The data of a tag on one type of elements and the current element. -/
structure DSt (V : Type) where
  data : Nat → Option (List V)
  it : Nat

/-- `f` with another value. -/
def upd {A : Type} (f : Nat → A) (k : Nat) (a : A) : Nat → A := fun j => if j = k then a else f j

/-- The assignments L772-788: `cur` is the element of the array `data`, `i` the number of the value.  `size` is `none` for
variable size. -/
def assign (sparse : Bool) (size : Option Nat) (n : Nat) : List V → Nat → Nat → DSt V → Option (DSt V)
  | [], _, _, d => some d
  | v :: vs, i, cur, d => match d.data cur with
    | none => none
    | some r =>
      if r.length = 0 then none else
      let data := upd d.data cur (some (r.set (i % r.length) v))
      match size with
      | none => assign sparse size n vs (i + 1) cur ⟨data, d.it⟩
      | some s =>
        if sparse = false ∧ (i + 1) % s = 0 then
          assign sparse size n vs (i + 1) (if d.it + 1 < n then d.it + 1 else cur) ⟨data, d.it + 1⟩
        else assign sparse size n vs (i + 1) cur ⟨data, d.it⟩

/-- `RealArray(*it,tag)`: a sparse record is created. -/
def access (K : Kind V) (size : Option Nat) (r : Option (List V)) : List V := r.getD (List.replicate (size.getD 0) K.zero)

/-- `resize` -/
def resize (K : Kind V) (n : Nat) (r : List V) : List V := r.take n ++ List.replicate (n - r.length) K.zero

/-- The word of a record, L758-791; `n` is the number of elements, a current element after the last one is undefined, as is
a negative number of repetitions. -/
def loadWord (K : Kind V) (num : Str → ℚ) (sparse : Bool) (size : Option Nat) (n : Nat) (w : Str) (d : DSt V) : Option (DSt V) :=
  if n ≤ d.it then none else
  match parseWord K num n w with
  | none => none
  | some (vec, rep) =>
    if rep < 0 then none else
    let all := (List.replicate rep.toNat vec).flatten
    let r := access K size (d.data d.it)
    match size with
    | none => match assign sparse size n all 0 d.it ⟨upd d.data d.it (some (resize K all.length r)), d.it⟩ with
      | none => none
      | some d => some ⟨d.data, if sparse then d.it else d.it + 1⟩
    | some s => if sparse = true ∧ s ≠ all.length then none else
      assign sparse size n all 0 d.it ⟨upd d.data d.it (some r), d.it⟩

/-- The loop over words, L728-1009: `last` is the text before the end of the contents. -/
def loadWords (K : Kind V) (num : Str → ℚ) (sparse : Bool) (size : Option Nat) (n : Nat) (last : Str) :
    List Str → DSt V → Option (DSt V)
  | [], d => some d
  | w :: ws, d =>
    if sparse then
      if w.head? = some '"' ∨ w.head? = some '\'' ∨ atoi w < 0 then none else
      match ws with
      | [] => loadWord K num sparse size n last ⟨d.data, (atoi w).toNat⟩
      | v :: ws => match loadWord K num sparse size n v ⟨d.data, (atoi w).toNat⟩ with
        | none => none
        | some d => loadWords K num sparse size n last ws d
    else match loadWord K num sparse size n w d with
      | none => none
      | some d => loadWords K num sparse size n last ws d

/-- Reading the contents of a `DataSet`: the data and what is left. -/
def loadData (K : Kind V) (num : Str → ℚ) (sparse : Bool) (size : Option Nat) (n : Nat) (data : Nat → Option (List V)) (s : Str) :
    Option ((Nat → Option (List V)) × Str) :=
  match contents (s.length + 1) s with
  | none => none
  | some (ws, last, t) => match loadWords K num sparse size n last ws ⟨data, 0⟩ with
    | none => none
    | some d => some (d.data, t)

/-! ## Writing -/

/-- Values separated by commas. -/
def joinC : List Str → Str
  | [] => []
  | [w] => w
  | w :: ws => w ++ ',' :: joinC ws

/-- A record that is not empty, L1235-1251. -/
def putRec (K : Kind V) : List V → Str
  | [v] => K.put v
  | r => '{' :: (joinC (r.map K.put) ++ ['}'])

/-- A new line. -/
def newLine : Str := ['\n', '\t', '\t', '\t']

/-- The loop over elements, L1230-1262; `e` is `endl_count`. -/
def writeLoop (K : Kind V) (sparse : Bool) (data : Nat → Option (List V)) : List Nat → Nat → Str
  | [], _ => []
  | k :: ks, e => match data k with
    | none => writeLoop K sparse data ks e
    | some r =>
      if r = [] then (if sparse then [] else [' ', '{', ' ', '}', ' ']) ++ writeLoop K sparse data ks e
      else
        let e' := (if sparse then e + 1 else e) + r.length
        (if sparse then decimal k ++ [' '] else []) ++ putRec K r ++
          (if e' > 8 then newLine ++ writeLoop K sparse data ks 0 else ' ' :: writeLoop K sparse data ks e')

/-- The contents of a `DataSet` after `<![CDATA[`, L1225-1453. -/
def writeData (K : Kind V) (sparse : Bool) (n : Nat) (data : Nat → Option (List V)) : Str :=
  newLine ++ writeLoop K sparse data (List.range n) 0 ++ newLine ++ [']', ']', '>']

/-! ## Declarations of tags -/

/-- `DataType` -/
inductive DTy
  | real
  | integer
  | bulk
  | reference
  | remoteReference
  | variable
  deriving DecidableEq, Repr

/-- A tag: masks of types of elements are sums of `2 ^ ElementNum`, `size` is `none` for `ENUMUNDEF`. -/
structure TagDecl where
  name : Str
  type : DTy
  size : Option Nat
  defined : Nat
  sparse : Nat
  deriving DecidableEq, Repr

/-- `names`, L1176 -/
def pluralName : Nat → Str
  | 0 => ['N', 'o', 'd', 'e', 's']
  | 1 => ['E', 'd', 'g', 'e', 's']
  | 2 => ['F', 'a', 'c', 'e', 's']
  | 3 => ['C', 'e', 'l', 'l', 's']
  | 4 => ['S', 'e', 't', 's']
  | 5 => ['M', 'e', 's', 'h']
  | _ => []

/-- `atoes`, L1138-1151: the mask. -/
def atoes (s : Str) : Nat := match (List.range 6).find? fun ty => decide (pluralName ty = s) with
  | some ty => 2 ^ ty
  | none => 0

/-- L1189-1196 -/
def maskText (m : Nat) : Str := joinC (((List.range 6).filter fun ty => m.testBit ty).map pluralName)

/-- L440-449 -/
def maskOf (s : Str) : Nat := ((splitC ',' s).map sstrip).foldl (fun m w => m ||| atoes w) 0

/-- L1178-1188 -/
def dtyText : DTy → Str
  | .real => ['R', 'e', 'a', 'l']
  | .integer => ['I', 'n', 't', 'e', 'g', 'e', 'r']
  | .bulk => ['B', 'u', 'l', 'k']
  | .reference => ['R', 'e', 'f', 'e', 'r', 'e', 'n', 'c', 'e']
  | .remoteReference => ['R', 'e', 'm', 'o', 't', 'e', 'R', 'e', 'f', 'e', 'r', 'e', 'n', 'c', 'e']
  | .variable => ['V', 'a', 'r', 'i', 'a', 'b', 'l', 'e']

/-- `ToLower` -/
def toLower (s : Str) : Str := s.map fun c => if 65 ≤ c.toNat ∧ c.toNat ≤ 90 then Char.ofNat (c.toNat + 32) else c

/-- L429-439; other words leave `DATA_REAL`. -/
def dtyOf (s : Str) : DTy :=
  let l := toLower s
  if l = ['r', 'e', 'a', 'l'] then .real
  else if l = ['i', 'n', 't', 'e', 'g', 'e', 'r'] then .integer
  else if l = ['r', 'e', 'f', 'e', 'r', 'e', 'n', 'c', 'e'] then .reference
  else if l = ['r', 'e', 'm', 'o', 't', 'e', 'R', 'e', 'f', 'e', 'r', 'e', 'n', 'c', 'e'] then .remoteReference
  else if l = ['b', 'u', 'l', 'k'] then .bulk
  else if l = ['v', 'a', 'r', 'i', 'a', 'b', 'l', 'e'] then .variable
  else .real

/-- The attributes of the xml tag of a tag, L1197-1202. -/
def tagAttrs (t : TagDecl) : List (Str × Str) :=
  [(['N', 'a', 'm', 'e'], t.name)] ++
  (match t.size with
    | none => []
    | some n => [(['S', 'i', 'z', 'e'], decimal n)]) ++
  [(['T', 'y', 'p', 'e'], dtyText t.type),
   (['S', 'p', 'a', 'r', 's', 'e'], if maskText t.sparse = [] then ['N', 'o', 'n', 'e'] else maskText t.sparse),
   (['D', 'e', 'f', 'i', 'n', 'i', 't', 'i', 'o', 'n'], maskText t.defined)]

/-- One attribute, L419-451; masks of repeated attributes are united. -/
def tagAttr (t : TagDecl) (a : Str × Str) : TagDecl :=
  let n := toLower a.1
  if n = ['n', 'a', 'm', 'e'] then { t with name := a.2 }
  else if n = ['s', 'i', 'z', 'e'] then
    { t with size := if toLower a.2 = ['v', 'a', 'r', 'i', 'a', 'b', 'l', 'e'] then none else some (atoi a.2).toNat }
  else if n = ['t', 'y', 'p', 'e'] then { t with type := dtyOf a.2 }
  else if n = ['s', 'p', 'a', 'r', 's', 'e'] then { t with sparse := t.sparse ||| maskOf a.2 }
  else if n = ['d', 'e', 'f', 'i', 'n', 'i', 't', 'i', 'o', 'n'] then { t with defined := t.defined ||| maskOf a.2 }
  else t

/-- The tag that is created from the attributes, L411-463. -/
def readTag (attrs : List (Str × Str)) : TagDecl := attrs.foldl tagAttr ⟨[], .real, none, 0, 0⟩

end Verif.Xml
