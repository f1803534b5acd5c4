import Verif.Xml.DataModel
import Verif.Xml.Spec

/-!
# Specification vocabulary for data sections
-/

namespace Verif.Xml

/-- A word without white space and without the signs that have a meaning in contents. -/
def Plain (w : Str) : Prop := w ≠ [] ∧ ∀ c ∈ w, isSpace c = false ∧ c ∉ ['{', '}', '*', ']', '"', ',']

/-- A word of the contents and its text: a plain word, or values in braces with any white space. -/
inductive Value : Str → Str → Prop
  | plain {w : Str} : Plain w → Value w w
  | vector {b : Str} : (∀ c ∈ b, c ∉ ['}', ']']) →
      Value ('{' :: (b.filter (fun c => !isSpace c) ++ ['}'])) ('{' :: (b ++ ['}']))

/-- The same with a multiplier after `*`. -/
inductive Token : Str → Str → Prop
  | value {w t : Str} : Value w t → Token w t
  | times {w t m : Str} : Value w t → m ≠ [] → (∀ c ∈ m, isSpace c = false ∧ c ∉ ['(', ']', '*']) →
      Token (w ++ '*' :: m) (t ++ '*' :: m)

/-- The text of words up to the end of the contents. -/
inductive Listing : List Str → Str → Prop
  | done {sp : Str} : Spaces sp → Listing [] (sp ++ [']', ']', '>'])
  | word {sp w t l : Str} {c : Char} {ws : List Str} : Spaces sp → Token w t → isSpace c = true → Listing ws l →
      Listing (w :: ws) (sp ++ t ++ c :: l)

/-- A value that is written as a plain word and read back from it. -/
structure Good {V : Type} (K : Kind V) (v : V) : Prop where
  plain : Plain (K.put v)
  item : K.item (K.put v) = some v
  one : K.one (K.put v) = some [v]

/-- The word of a record: a value, or values in braces, separated by commas. -/
def recWord {V : Type} (K : Kind V) : List V → Str
  | [v] => K.put v
  | r => '{' :: (joinC (r.map K.put) ++ ['}'])

/-- What a file keeps of a record of a sparse tag: an empty record is lost. -/
def savedRec {V : Type} : Option (List V) → Option (List V)
  | some [] => none
  | r => r

/-- Records of a tag of this size (`none`: variable). -/
def RecSize {V : Type} (size : Option Nat) (r : List V) : Prop := ∀ s, size = some s → r.length = s ∧ 0 < s

end Verif.Xml
