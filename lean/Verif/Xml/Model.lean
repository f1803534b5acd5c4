import Mathlib.Tactic.NormNum

/-!
# Model of the reader and the writer of XML

Source: `Source/Misc/xml.cpp`, class `XMLReader` (GetChar L321-350, RetChar L352-363, SkipComments L364-423,
ExpectOpenTag L524-559, ReadOpenTag L561-668, ReadCloseTag L669-693, ReadFinishTag L696-762, AttributeName L764-846,
AttributeValue L848-925, OpenTag L1481-1538, CloseTag L1540-1554, ReadUntil L1556-1578, ReadXMLSub L1582-1671,
ReadXML L1673-1682, Tabs L1684-1688, WriteXML L1735-1752), `Source/Headers/inmost_xml.h` (XMLTag, XMLTree).

Simplifications.
* A character is a code; codes above 127 are neither letters nor printable.
* The stack of input streams is the text that is left to read: at the end of an included file GetChar goes on with
  the file below, L333-342, so that `PushStream` puts the text of the file before what is left.  Names of included
  files are relative to one folder.
* `GetChar` at the end of the last stream sets both `eof` and `fail`, so that the state is `Failure` (L341, L346); the
  stream stays failed.
* `RetChar` returns the character that was read last in the same function.
* Messages of `Report` are not modelled; `verbose` is 0.
* A thrown exception is `none`.  Loops have a bound on the number of passes; if it is reached, the result is `none`.
-/

namespace Verif.Xml

abbrev Str := List Char

/-- `isspace` -/
def isSpace (c : Char) : Bool := c.toNat == 32 || (decide (9 ≤ c.toNat) && decide (c.toNat ≤ 13))

/-- `isalpha` -/
def isAlpha (c : Char) : Bool :=
  (decide (65 ≤ c.toNat) && decide (c.toNat ≤ 90)) || (decide (97 ≤ c.toNat) && decide (c.toNat ≤ 122))

/-- `isdigit` -/
def isDigit (c : Char) : Bool := decide (48 ≤ c.toNat) && decide (c.toNat ≤ 57)

/-- `isprint` -/
def isPrint (c : Char) : Bool := decide (32 ≤ c.toNat) && decide (c.toNat ≤ 126)

/-- `XMLReader::State`, as far as `ReadXML` uses it. -/
inductive St
  | start
  | waitTag
  | waitAttribute
  | waitAttributeValue
  | endTag
  | readCloseTagSlash
  | failure
  deriving DecidableEq, Repr

/-- The reader: `_state` and the text that is left to read. -/
structure Rd where
  st : St
  rest : Str
  deriving DecidableEq, Repr

/-- `XMLReader::XMLTag`. -/
structure XTag where
  name : Str
  attrs : List (Str × Str)
  finish : Nat
  deriving DecidableEq, Repr

/-- `XMLReader::XMLTree`. -/
inductive Tree
  | mk (tag : XTag) (children : List Tree) (contents : Str)

/-- `SkipComments` in the state `ReadCommentExclamation`, L370-393: what is left after `-->`; `p2` and `p1` are the
last two characters. -/
def skipExcl (p2 p1 : Char) : Str → Str
  | [] => []
  | c :: t => if c = '>' ∧ p1 = '-' ∧ p2 = '-' then t else skipExcl p1 c t

/-- `SkipComments` in the state `ReadCommentQuestion`, L394-417. -/
def skipQuest (p1 : Char) : Str → Str
  | [] => []
  | c :: t => if c = '>' ∧ p1 = '?' then t else skipQuest c t

/-- `ExpectOpenTag`, L534-559. -/
def expectLoop : Str → Bool × Rd
  | [] => (false, ⟨.failure, []⟩)
  | c :: t =>
    if c = '<' then (true, ⟨.waitTag, t⟩)
    else if isSpace c = false then (false, ⟨.start, c :: t⟩)
    else expectLoop t

/-- `ExpectOpenTag`, L524-533: `return ""` is `true`. -/
def expectOpenTag (r : Rd) : Bool × Rd := if r.st = .start then expectLoop r.rest else (true, ⟨.failure, r.rest⟩)

/-- `![CDATA[` -/
def cdata : Str := ['!', '[', 'C', 'D', 'A', 'T', 'A', '[']

/-- `ReadOpenTag` in the state `ReadTag`, L636-660. -/
def tagName (ret : Str) : Str → Str × Rd
  | [] => (ret, ⟨.failure, []⟩)
  | c :: t =>
    if isSpace c then (ret, ⟨.waitAttribute, t⟩)
    else if c = '/' ∨ c = '>' then (ret, ⟨.endTag, c :: t⟩)
    else if isAlpha c ∨ (ret ≠ [] ∧ isPrint c) then
      if ret ++ [c] = cdata then (ret ++ [c], ⟨.endTag, t⟩) else tagName (ret ++ [c]) t
    else tagName ret t

/-- `ReadOpenTag`, L573-635: `wait` is the state `WaitTag`, otherwise `Intro`. -/
def openLoop : Nat → Bool → Str → Option (Str × Rd)
  | 0, _, _ => none
  | _ + 1, _, [] => some ([], ⟨.failure, []⟩)
  | f + 1, false, c :: t =>
    if c = '<' then openLoop f true t
    else if isSpace c = false then some ([], ⟨.failure, t⟩)
    else openLoop f false t
  | f + 1, true, c :: t =>
    if c = '?' then openLoop f false (skipQuest '\x00' t)
    else if c = '!' then match t with
      | [] => some ([], ⟨.failure, []⟩)
      | c2 :: t2 =>
        if c2 = '-' then match t2 with
          | [] => some ([], ⟨.failure, []⟩)
          | c3 :: t3 =>
            if c3 = '-' then openLoop f false (skipExcl '\x00' '\x00' t3) else openLoop f true t3
        else if c2 = '[' then some (tagName ['!', '['] t2)
        else openLoop f true t2
    else if c = '/' then some ([], ⟨.readCloseTagSlash, c :: t⟩)
    else if isAlpha c ∨ c = '_' then some (tagName [c] t)
    else openLoop f true t

/-- `ReadOpenTag`. -/
def readOpenTag (r : Rd) : Option (Str × Rd) :=
  match r.st with
  | .start => openLoop (r.rest.length + 1) false r.rest
  | .waitTag => openLoop (r.rest.length + 1) true r.rest
  | _ => some ([], ⟨.failure, r.rest⟩)

/-- `ReadCloseTag`, L669-693. -/
def readCloseTag (r : Rd) : Nat × Rd :=
  match r.rest with
  | [] => (0, ⟨.failure, []⟩)
  | c :: t =>
    if c = '>' then (1, ⟨.start, t⟩)
    else if c = '/' then match t with
      | [] => (0, ⟨.failure, []⟩)
      | c2 :: t2 => if c2 = '>' then (2, ⟨.start, t2⟩) else (0, ⟨.failure, t2⟩)
    else (0, ⟨.failure, t⟩)

/-- `ReadFinishTag` in the state `ReadCloseTagName`, L744-748. -/
def closeName (tag name : Str) : Str → Bool × Rd
  | [] => (false, ⟨.failure, []⟩)
  | c :: t =>
    if c = '>' then (decide (name = tag), ⟨.start, t⟩)
    else if isAlpha c ∨ (name ≠ [] ∧ isPrint c) then closeName tag (name ++ [c]) t
    else closeName tag name t

/-- `ReadFinishTag`, L708-743: `slash` is the state `ReadCloseTagSlash`, otherwise `WaitCloseTag`. -/
def closeLoop (tag : Str) : Nat → Bool → Str → Option (Bool × Rd)
  | 0, _, _ => none
  | _ + 1, _, [] => some (false, ⟨.failure, []⟩)
  | f + 1, false, c :: t =>
    if isSpace c then closeLoop tag f false t
    else if c = '<' then closeLoop tag f true t
    else some (false, ⟨.failure, t⟩)
  | f + 1, true, c :: t =>
    if c = '?' then closeLoop tag f false (skipQuest '\x00' t)
    else if c = '!' then closeLoop tag f false (skipExcl '\x00' '\x00' t)
    else if c = '/' then some (closeName tag [] t)
    else some (false, ⟨.failure, t⟩)

/-- `ReadFinishTag`. -/
def readFinishTag (tag : Str) (r : Rd) : Option (Bool × Rd) :=
  match r.st with
  | .start => closeLoop tag (r.rest.length + 1) false r.rest
  | .readCloseTagSlash => closeLoop tag (r.rest.length + 1) true r.rest
  | _ => some (false, ⟨.failure, r.rest⟩)

/-- `AttributeName` in the state `ReadAttribute`, L818-832. -/
def attrName (ret : Str) : Str → Str × Rd
  | [] => (ret, ⟨.failure, []⟩)
  | c :: t =>
    if c = '=' then (ret, ⟨.waitAttributeValue, c :: t⟩)
    else if isSpace c then (ret, ⟨.waitAttributeValue, t⟩)
    else if isAlpha c ∨ isDigit c ∨ c = '_' ∨ c = '-' ∨ c = '.' ∨ c = ':' then attrName (ret ++ [c]) t
    else (ret, ⟨.failure, t⟩)

/-- `AttributeName` in the state `WaitAttribute`, L775-817. -/
def attrLoop : Nat → Str → Option (Str × Rd)
  | 0, _ => none
  | _ + 1, [] => some ([], ⟨.failure, []⟩)
  | f + 1, c :: t =>
    if isSpace c then attrLoop f t
    else if c = '<' then match t with
      | [] => some ([], ⟨.failure, []⟩)
      | c2 :: t2 =>
        if c2 = '?' then attrLoop f (skipQuest '\x00' t2)
        else if c2 = '!' then attrLoop f (skipExcl '\x00' '\x00' t2)
        else some ([], ⟨.failure, t2⟩)
    else if isAlpha c ∨ c = '_' then some (attrName [c] t)
    else if c = '>' ∨ c = '/' then some ([], ⟨.endTag, c :: t⟩)
    else attrLoop f t

/-- `AttributeName`. -/
def attributeName (r : Rd) : Option (Str × Rd) :=
  if r.st = .waitAttribute then attrLoop (r.rest.length + 1) r.rest else some ([], r)

/-- `AttributeValue` in the state `ReadAttributeValueQuote`, L897-911. -/
def valueQuote (ret : Str) : Str → Str × Rd
  | [] => (ret, ⟨.failure, []⟩)
  | c :: t =>
    if c = '"' then (ret, ⟨.waitAttribute, t⟩)
    else if isPrint c = false then (ret, ⟨.failure, t⟩)
    else valueQuote (ret ++ [c]) t

/-- `AttributeValue` in the state `ReadAttributeValue`, L875-896. -/
def valueRead (ret : Str) : Str → Str × Rd
  | [] => (ret, ⟨.failure, []⟩)
  | c :: t =>
    if isSpace c ∧ ret = [] then valueRead ret t
    else if c = '"' ∧ ret = [] then valueQuote ret t
    else if c = '>' ∨ c = '/' then (ret, ⟨.endTag, t⟩)
    else if isSpace c = false then valueRead (ret ++ [c]) t
    else (ret, ⟨.waitAttribute, t⟩)

/-- `AttributeValue` in the state `WaitAttributeValue`, L864-874. -/
def valueWait : Str → Str × Rd
  | [] => ([], ⟨.failure, []⟩)
  | c :: t => if isSpace c then valueWait t else if c = '=' then valueRead [] t else valueWait t

/-- `AttributeValue`. -/
def attributeValue (r : Rd) : Str × Rd := if r.st = .waitAttributeValue then valueWait r.rest else ([], r)

/-- `Include` -/
def includeName : Str := ['I', 'n', 'c', 'l', 'u', 'd', 'e']

/-- The loop of `OpenTag` over attributes, L1505-1512: attributes and the value of `Include`. -/
def attrsLoop : Nat → Str → List (Str × Str) → Str → Rd → Option (List (Str × Str) × Str × Rd)
  | 0, _, _, _, _ => none
  | f + 1, name, attrs, inc, r =>
    if r.st = .endTag ∨ r.st = .failure then some (attrs, inc, r) else
      match attributeName (attributeValue r).2 with
      | none => none
      | some (next, r') =>
        if name = includeName then attrsLoop f next attrs (attributeValue r).1 r'
        else attrsLoop f next (attrs ++ [(name, (attributeValue r).1)]) inc r'

/-- `PushStream`, L493-514: a file that cannot be opened changes nothing. -/
def paste (files : Str → Option Str) (inc rest : Str) : Str := if inc = [] then rest else (files inc).getD [] ++ rest

/-- `OpenTag`. -/
def openTag (files : Str → Option Str) (r : Rd) : Option (XTag × Rd) :=
  let e := expectOpenTag r
  if e.2.st = .failure then some (⟨[], [], 0⟩, e.2)
  else if e.1 = false then some (⟨[], [], 5⟩, e.2)
  else match readOpenTag e.2 with
    | none => none
    | some (name, r) =>
      if name = cdata then some (⟨name, [], 4⟩, r)
      else if r.st = .readCloseTagSlash then some (⟨[], [], 3⟩, r)
      else match attributeName r with
        | none => none
        | some (a, r) => match attrsLoop (r.rest.length + 1) a [] [] r with
          | none => none
          | some (attrs, inc, r) =>
            let c := readCloseTag r
            some (⟨name, attrs, c.1⟩, ⟨c.2.st, paste files inc c.2.rest⟩)

/-- `CloseTag`. -/
def closeTag (t : XTag) (r : Rd) : Option (Bool × Rd) :=
  if t.finish = 3 then some (false, r)
  else if t.finish = 2 then some (true, r)
  else if t.finish = 0 then some (false, r)
  else readFinishTag t.name r

/-- `ReadUntil`: what was read, and what is left unless the end was reached. -/
def readUntil (stop ret : Str) : Str → Str × Option Str
  | [] => (ret, none)
  | c :: t =>
    if (ret ++ [c]).length < stop.length ∨ (ret ++ [c]).drop ((ret ++ [c]).length - stop.length) ≠ stop then
      readUntil stop (ret ++ [c]) t
    else (ret ++ [c], some t)

/-- "remove trailing spaces", L1609-1610. -/
def trimEnd (s : Str) : Str := (s.reverse.dropWhile isSpace).reverse

/-- A new child. -/
def addChild : Tree → Tree → Tree
  | .mk t cs x, c => .mk t (cs ++ [c]) x

/-- `root.contents += data` -/
def addText : Tree → Str → Tree
  | .mk t cs x, d => .mk t cs (x ++ d)

/-- `ReadXMLSub`: the tree and whether the result is 0. -/
def readSub (files : Str → Option Str) : Nat → Tree → Rd → Option (Tree × Bool × Rd)
  | 0, _, _ => none
  | f + 1, root, r => match openTag files r with
    | none => none
    | some (t, r) =>
      if t.finish = 3 then some (root, true, r)
      else if t.finish = 5 then match readUntil ['<'] [] r.rest with
        | (d, rest) => if d = [] then none else
          readSub files f (addText root (trimEnd d.dropLast)) ⟨.start, match rest with | none => [] | some x => '<' :: x⟩
      else if t.finish = 4 then match readUntil [']', ']', '>'] [] r.rest with
        | (d, rest) => if d.length < 3 then none else
          readSub files f (addText root (d.take (d.length - 3))) ⟨.start, rest.getD []⟩
      else if t.finish = 0 then some (root, false, r)
      else if t.finish = 1 then match readSub files f (.mk t [] []) r with
        | none => none
        | some (child, false, r) => some (addChild root child, false, r)
        | some (child, true, r) => match closeTag t r with
          | none => none
          | some (false, r) => some (addChild root child, false, r)
          | some (true, r) => readSub files f (addChild root child) r
      else match closeTag t r with
        | none => none
        | some (false, r) => some (addChild root (.mk t [] []), false, r)
        | some (true, r) => readSub files f (addChild root (.mk t [] [])) r

/-- `ReadXML`: the tree, whether it was read without a message about a failure, and what is left. -/
def readXML (files : Str → Option Str) (f : Nat) (text : Str) : Option (Tree × Bool × Rd) :=
  match openTag files ⟨.start, text⟩ with
  | none => none
  | some (t, r) => match readSub files f (.mk t [] []) r with
    | none => none
    | some (root, ok, r) => match closeTag t r with
      | none => none
      | some (ok2, r) => some (root, ok && ok2, r)

/-! ## Writing -/

/-- `Tabs` -/
def tabs (n : Nat) : Str := List.replicate n '\t'

/-- An attribute. -/
def writeAttr (off : Nat) (a : Str × Str) : Str :=
  '\n' :: (tabs (off + 1) ++ a.1 ++ ['=', '"'] ++ a.2 ++ ['"'])

mutual
/-- `WriteXML` -/
def writeXML : Tree → Nat → Str
  | .mk t cs x, off =>
    tabs off ++ '<' :: (t.name ++ t.attrs.flatMap (writeAttr off)) ++
    (if t.finish = 2 then ['/', '>', '\n'] else
      ['>', '\n'] ++ writeAll cs (off + 1) ++
      (if x = [] then [] else tabs (off + 1) ++ '<' :: cdata ++ x ++ [']', ']', '>', '\n']) ++
      (tabs off ++ ['<', '/'] ++ t.name ++ ['>', '\n']))
/-- The loop over the children. -/
def writeAll : List Tree → Nat → Str
  | [], _ => []
  | c :: cs, off => writeXML c off ++ writeAll cs off
end

end Verif.Xml
