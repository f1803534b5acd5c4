import Verif.Xml.Model
import Mathlib.Data.Nat.Digits.Defs
import Mathlib.Algebra.Order.Floor.Ring
import Mathlib.Data.Rat.Floor

/-!
# Model of the interpreter of expressions

Source: `Source/Misc/xml.cpp`, get_priority L19-32, Interpreter::Expand L130-149, MakePolish L153-200, Run L207-292,
Evaluate L302-309, EvaluateExpression L1223-1228, ConvertMultiplier L1230-1246.

Simplifications: numbers are those of a field, `num` is `atof`; the result of a failed evaluation (1.0e+20) is any
number.
-/

namespace Verif.Xml

/-- `get_priority`, L19-32 -/
def prio (c : Char) : Int :=
  if c = '(' then 0 else if c = ')' then 1 else if c = '+' ∨ c = '-' then 8 else if c = '*' ∨ c = '/' then 9
  else if c = '~' then 10 else -1

/-- The loop of `Expand`, L134-147: `put` is the word that is being read. -/
def expandLoop (put : Str) : Str → List Str
  | [] => if put = [] then [] else [put]
  | c :: t =>
    if prio c ≠ -1 then (if put = [] then [] else [put]) ++ [c] :: expandLoop [] t
    else expandLoop (put ++ [c]) t

/-- `Expand`, L130-149 -/
def expand (s : Str) : List Str := expandLoop [] s

/-- A token that is an operation: `size() == 1 && get_priority(...) != -1`, L159, L212. -/
def isOp : Str → Option Char
  | [c] => if prio c ≠ -1 then some c else none
  | _ => none

/-- L164-168, `while(!stack.empty() && priority <= get_priority(stack.back()[0]))`; the top of the stack is the head. -/
def popGe (p : Int) : List Char → List Str → List Char × List Str
  | [], ret => ([], ret)
  | s :: st, ret => if p ≤ prio s then popGe p st (ret ++ [[s]]) else (s :: st, ret)

/-- "unary minus": the first token or one after an operation, L187 -/
def afterOp : Option Str → Bool
  | none => true
  | some t => (isOp t).isSome

/-- The loop of `MakePolish`, L157-200: the previous token, the tokens, the stack, the result; `true` is `error_state`. -/
def polishLoop : Option Str → List Str → List Char → List Str → List Str × Bool
  | _, [], st, ret => (ret ++ st.map ([·]), false)
  | prev, t :: ts, st, ret => match isOp t with
    | none => polishLoop (some t) ts st (ret ++ [t])
    | some op =>
      let p := if op ≠ '(' then popGe (prio op) st ret else (st, ret)
      if op = ')' then match p.1 with
        | [] => (p.2, true)
        | s :: st' => if s = '(' then polishLoop (some t) ts st' p.2 else (p.2 ++ (s :: st').map ([·]), true)
      else if op = '-' ∧ afterOp prev = true then polishLoop (some t) ts ('~' :: p.1) p.2
      else polishLoop (some t) ts (op :: p.1) p.2

/-- `MakePolish`, L153-200 -/
def makePolish (ts : List Str) : List Str × Bool := polishLoop none ts [] []

variable {K : Type} [Field K]

/-- The loop of `Run`, L210-291; brackets are ignored: `none` is an error. -/
def runLoop (num : Str → K) : List Str → List K → Option K
  | [], [x] => some x
  | [], _ => none
  | t :: ts, st => match isOp t with
    | none => runLoop num ts (num t :: st)
    | some op =>
      if op = '+' then match st with
        | r :: l :: st => runLoop num ts ((l + r) :: st)
        | _ => none
      else if op = '-' then match st with
        | r :: l :: st => runLoop num ts ((l - r) :: st)
        | _ => none
      else if op = '*' then match st with
        | r :: l :: st => runLoop num ts ((l * r) :: st)
        | _ => none
      else if op = '/' then match st with
        | r :: l :: st => runLoop num ts ((l / r) :: st)
        | _ => none
      else if op = '~' then match st with
        | l :: st => runLoop num ts ((-l) :: st)
        | _ => none
      else runLoop num ts st

/-- `Evaluate`, L302-309: the value unless `Run` fails, and `error_state`. -/
def evaluate (num : Str → K) (s : Str) : Option K × Bool :=
  let p := makePolish (expand s)
  let v := runLoop num p.1 []
  (v, p.2 || v.isNone)

/-- `SetSize` -/
def setSizeName : Str := ['S', 'e', 't', 'S', 'i', 'z', 'e']

/-- The loop of `ConvertMultiplier`, L1237-1242: the first argument is the number of characters that are dropped. -/
def substSize (dec : Str) : Nat → Str → Str
  | _, [] => []
  | k + 1, _ :: t => substSize dec k t
  | 0, c :: t => if setSizeName.isPrefixOf (c :: t) then dec ++ substSize dec 6 t else c :: substSize dec 0 t

/-- L1236, `conv << SetSize` for a size that is not negative. -/
def decimal (n : Nat) : Str := if n = 0 then ['0'] else ((Nat.digits 10 n).reverse.map fun d => Char.ofNat (48 + d))

/-- `(int)x`, L1226: towards zero; out of range it is undefined. -/
def castInt (x : ℚ) : Option Int :=
  let t := if x < 0 then ⌈x⌉ else ⌊x⌋
  if -2 ^ 31 ≤ t ∧ t < 2 ^ 31 then some t else none

/-- `ConvertMultiplier`, L1230-1246; a failed evaluation gives 1.0e+20, which is out of range. -/
def convertMultiplier (num : Str → ℚ) (s : Str) (n : Nat) : Option Int :=
  if s = [] then some 1 else (evaluate num (substSize (decimal n) 0 s)).1.bind castInt

end Verif.Xml
