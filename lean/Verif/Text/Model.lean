import Mathlib.Data.List.SplitOn

/-!
# Model of Source/Misc/base64.cpp and of `split_string` in Source/Misc/utils.cpp

A `BYTE` is an `UInt8`, a string is a list of bytes.  Arithmetic on `BYTE` is done in `int` and the result
is truncated on assignment.
-/

namespace Verif.Text

/-- `base64_chars`, base64.cpp L7-10, as characters. -/
def table : List Char :=
  ['A', 'B', 'C', 'D', 'E', 'F', 'G', 'H', 'I', 'J', 'K', 'L', 'M', 'N', 'O', 'P',
   'Q', 'R', 'S', 'T', 'U', 'V', 'W', 'X', 'Y', 'Z', 'a', 'b', 'c', 'd', 'e', 'f',
   'g', 'h', 'i', 'j', 'k', 'l', 'm', 'n', 'o', 'p', 'q', 'r', 's', 't', 'u', 'v',
   'w', 'x', 'y', 'z', '0', '1', '2', '3', '4', '5', '6', '7', '8', '9', '+', '/']

/-- The code of a character, in ASCII. -/
def code (c : Char) : UInt8 := UInt8.ofNat c.toNat

/-- `base64_chars[k]`; `none` is an index out of range. -/
def charAt (k : UInt8) : Option UInt8 := (table.map code)[k.toNat]?

/-- `(BYTE)base64_chars.find(c)`: `npos` becomes 255. -/
def find (c : UInt8) : UInt8 :=
  match (table.map code).idxOf? c with
  | some k => UInt8.ofNat k
  | none => 255

/-- `is_base64`, L13-16, with `isalnum` of the "C" locale. -/
def isBase64 (c : UInt8) : Bool :=
  let n := c.toNat
  (48 ≤ n && n ≤ 57) || (65 ≤ n && n ≤ 90) || (97 ≤ n && n ≤ 122) || c == code '+' || c == code '/'

/-- An array of bytes with one element changed. -/
def put (a : Nat → UInt8) (i : Nat) (v : UInt8) : Nat → UInt8 := fun j => if j = i then v else a j

/-- `char_array_4` from `char_array_3`, L31-34 and L46-49. -/
def pack (a : Nat → UInt8) : Nat → UInt8 := fun j =>
  let a0 := (a 0).toNat
  let a1 := (a 1).toNat
  let a2 := (a 2).toNat
  if j = 0 then UInt8.ofNat ((a0 &&& 0xfc) >>> 2)
  else if j = 1 then UInt8.ofNat (((a0 &&& 0x03) <<< 4) + ((a1 &&& 0xf0) >>> 4))
  else if j = 2 then UInt8.ofNat (((a1 &&& 0x0f) <<< 2) + ((a2 &&& 0xc0) >>> 6))
  else UInt8.ofNat (a2 &&& 0x3f)

/-- `for(i = 0; i < n; i++) ret += base64_chars[char_array_4[i]]`, L35-36 and L51-52; `none` if an index is out of range. -/
def emit (a : Nat → UInt8) (n : Nat) (ret : List UInt8) : Option (List UInt8) :=
  match (List.range n).mapM (fun i => charAt (a i)) with
  | some cs => some (ret ++ cs)
  | none => none

/-- The loop `while (bufLen--)`, L26-39: `i`, `char_array_3`, `ret` after it. -/
def encLoop : List UInt8 → Nat → (Nat → UInt8) → List UInt8 → Option (Nat × (Nat → UInt8) × List UInt8)
  | [], i, a, ret => some (i, a, ret)
  | b :: bs, i, a, ret =>
    let a := put a i b
    if i + 1 = 3 then
      match emit (pack a) 4 ret with
      | some ret => encLoop bs 0 a ret
      | none => none
    else encLoop bs (i + 1) a ret

/-- `for(j = i; j < 3; j++) char_array_3[j] = 0`, L43-44, and the same with 4, L90-91. -/
def zeroFrom (i n : Nat) (a : Nat → UInt8) : Nat → UInt8 := fun j => if i ≤ j ∧ j < n then 0 else a j

/-- `base64_encode`, L18-59.  `a` is what the local array contains. -/
def encode (a : Nat → UInt8) (buf : List UInt8) : Option (List UInt8) :=
  match encLoop buf 0 a [] with
  | none => none
  | some (i, a, ret) =>
    if i = 0 then some ret
    else
      match emit (pack (zeroFrom i 3 a)) (i + 1) ret with
      | none => none
      | some ret => some (ret ++ List.replicate (3 - i) (code '='))

/-- `char_array_3` from `char_array_4`, L78-80 and L96-98. -/
def unpack (a : Nat → UInt8) : Nat → UInt8 := fun j =>
  let a0 := (a 0).toNat
  let a1 := (a 1).toNat
  let a2 := (a 2).toNat
  let a3 := (a 3).toNat
  if j = 0 then UInt8.ofNat ((a0 <<< 2) + ((a1 &&& 0x30) >>> 4))
  else if j = 1 then UInt8.ofNat (((a1 &&& 0xf) <<< 4) + ((a2 &&& 0x3c) >>> 2))
  else UInt8.ofNat (((a2 &&& 0x3) <<< 6) + a3)

/-- The loop of `base64_decode`, L70-86.  The length fits into an `int` (see `decode`). -/
def decLoop : List UInt8 → Nat → (Nat → UInt8) → List UInt8 → Nat × (Nat → UInt8) × List UInt8
  | [], i, a, ret => (i, a, ret)
  | c :: cs, i, a, ret =>
    if c ≠ code '=' ∧ isBase64 c = true then
      let a := put a i c
      if i + 1 = 4 then
        let a := fun j => if j < 4 then find (a j) else a j
        let r := unpack a
        decLoop cs 0 a (ret ++ [r 0, r 1, r 2])
      else decLoop cs (i + 1) a ret
    else (i, a, ret)

/-- `base64_decode`, L61-104.  The length is converted to `int`: for `2^31` characters or more the result is not defined by the language. -/
def decode (a : Nat → UInt8) (s : List UInt8) : Option (List UInt8) :=
  if s.length < 2 ^ 31 then
    match decLoop s 0 a [] with
    | (i, a, ret) =>
      if i = 0 then some ret
      else
        let a := zeroFrom i 4 a
        let a := fun j => if j < 4 then find (a j) else a j
        let r := unpack a
        some (ret ++ (List.range (i - 1)).map r)
  else none

/-- `str.find_first_of(delims, pos)` (with `p` = "is a delimiter") and `str.find_first_not_of(delims, pos)` (with `p` = "is no delimiter"); `none` is
`npos`. -/
def findFrom (p : UInt8 → Bool) (s : List UInt8) : Option Nat → Option Nat
  | none => none
  | some k => ((s.drop k).findIdx? p).map (· + k)

/-- `str.substr(end, pos - end)`; `none` is the exception for `end` out of range. -/
def substr (s : List UInt8) : Option Nat → Option Nat → Option (List UInt8)
  | none, _ => none
  | some e, none => some (s.drop e)
  | some e, some p => some ((s.drop e).take (p - e))

/-- The loop of `split_string`, utils.cpp L56-61; `none` if it throws, or does not end in the given number of passes. -/
def splitLoop (delims s : List UInt8) : Nat → Option Nat → Option Nat → List (List UInt8) → Option (List (List UInt8))
  | 0, _, _, _ => none
  | f + 1, e, p, l =>
    if p ≠ none ∨ e ≠ none then
      match substr s e p with
      | none => none
      | some t =>
        let e := findFrom (fun c => !delims.contains c) s p
        let p := findFrom (fun c => delims.contains c) s e
        splitLoop delims s f e p (l ++ [t])
    else some l

/-- `split_string(str, str_list, delims)`, L52-62. -/
def splitString (s : List UInt8) (l : List (List UInt8)) (delims : List UInt8) : Option (List (List UInt8)) :=
  let e := findFrom (fun c => !delims.contains c) s (some 0)
  let p := findFrom (fun c => delims.contains c) s e
  splitLoop delims s (s.length + 2) e p l

end Verif.Text
