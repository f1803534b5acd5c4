import Verif.Xml.Model

/-!
# Specification vocabulary for XML documents

The grammar of documents, without reference to the states of the reader.
-/

namespace Verif.Xml

/-- White space. -/
def Spaces (w : Str) : Prop := ∀ c ∈ w, isSpace c = true

/-- `pat` ends `s` and does not occur before. -/
def FirstEnd (pat s : Str) : Prop := pat <:+ s ∧ ∀ k, pat <+: s.drop k → k + pat.length = s.length

/-- What may stand between tags: white space, comments `<!-- ... -->` and `<? ... ?>`. -/
inductive Gap : Str → Prop
  | nil : Gap []
  | space {c : Char} {w : Str} : isSpace c = true → Gap w → Gap (c :: w)
  | comment {d w : Str} : FirstEnd ['-', '-', '>'] d → Gap w → Gap ('<' :: '!' :: '-' :: '-' :: (d ++ w))
  | instruction {d w : Str} : FirstEnd ['?', '>'] d → Gap w → Gap ('<' :: '?' :: (d ++ w))

/-- What may stand between attributes: the same, comments also without the first two dashes. -/
inductive AttrGap : Str → Prop
  | nil : AttrGap []
  | space {c : Char} {w : Str} : isSpace c = true → AttrGap w → AttrGap (c :: w)
  | comment {d w : Str} : FirstEnd ['-', '-', '>'] d → AttrGap w → AttrGap ('<' :: '!' :: (d ++ w))
  | instruction {d w : Str} : FirstEnd ['?', '>'] d → AttrGap w → AttrGap ('<' :: '?' :: (d ++ w))

/-- Names of tags: a letter, then any printable characters except a space, `/` and `>`. -/
def TagName (n : Str) : Prop :=
  (∃ c t, n = c :: t ∧ isAlpha c = true) ∧ ∀ c ∈ n, isPrint c = true ∧ isSpace c = false ∧ c ≠ '/' ∧ c ≠ '>'

/-- Names of attributes. -/
def AttrName (n : Str) : Prop :=
  (∃ c t, n = c :: t ∧ (isAlpha c = true ∨ c = '_')) ∧
    ∀ c ∈ n, isAlpha c = true ∨ isDigit c = true ∨ c = '_' ∨ c = '-' ∨ c = '.' ∨ c = ':'

/-- Values in quotes. -/
def Quoted (v : Str) : Prop := ∀ c ∈ v, isPrint c = true ∧ c ≠ '"'

/-- Values without quotes. -/
def Bare (v : Str) : Prop := v ≠ [] ∧ v.head? ≠ some '"' ∧ ∀ c ∈ v, isSpace c = false ∧ c ≠ '>' ∧ c ≠ '/'

/-- The text of attributes, after the name of the tag and up to the end of the tag. -/
inductive Attrs : List (Str × Str) → Str → Prop
  | nil {w : Str} : AttrGap w → Attrs [] w
  | quoted {w n w1 w2 v i : Str} {l : List (Str × Str)} : AttrGap w → AttrName n → Spaces w1 → Spaces w2 → Quoted v →
      Attrs l i → Attrs ((n, v) :: l) (w ++ n ++ w1 ++ '=' :: (w2 ++ '"' :: (v ++ '"' :: i)))
  | bare {w n w1 w2 v i : Str} {c : Char} {l : List (Str × Str)} : AttrGap w → AttrName n → Spaces w1 → Spaces w2 →
      Bare v → isSpace c = true → Attrs l i → Attrs ((n, v) :: l) (w ++ n ++ w1 ++ '=' :: (w2 ++ v ++ c :: i))

/-- The beginning of a tag: `<`, the name and attributes. -/
inductive Head (n : Str) : List (Str × Str) → Str → Prop
  | plain : TagName n → Head n [] ('<' :: n)
  | attrs {c : Char} {i : Str} {l : List (Str × Str)} : TagName n → isSpace c = true → Attrs l i →
      Head n l ('<' :: (n ++ c :: i))

/-- The attributes of the tree: all but `Include`. -/
def kept (l : List (Str × Str)) : List (Str × Str) := l.filter fun a => decide (a.1 ≠ includeName)

/-- The file that is included: the last one that is given. -/
def included (l : List (Str × Str)) : Str := ((l.filter fun a => decide (a.1 = includeName)).getLast?.map (·.2)).getD []

/-- Raw text: no `<`, no white space at the ends. -/
def RawText (d : Str) : Prop :=
  d ≠ [] ∧ (∀ c ∈ d, c ≠ '<') ∧ (∀ c, d.head? = some c → isSpace c = false) ∧ (∀ c, d.getLast? = some c → isSpace c = false)

/-- `Body files cs x i o`: the text `i` begins with the inside of a tag with the children `cs` and the contents `x`,
then comes `<` and the text `o` that begins with `/`.  The text of an included file stands after the tag that
includes it. -/
inductive Body (files : Str → Option Str) : List Tree → Str → Str → Str → Prop
  | close {w o : Str} : Gap w → Body files [] [] (w ++ '<' :: '/' :: o) ('/' :: o)
  | raw {w d w' i o x : Str} {cs : List Tree} : Spaces w → RawText d → Spaces w' → Body files cs x ('<' :: i) o →
      Body files cs (d ++ x) (w ++ d ++ w' ++ '<' :: i) o
  | block {w d i o x : Str} {cs : List Tree} : Gap w → FirstEnd [']', ']', '>'] (d ++ [']', ']', '>']) → Body files cs x i o →
      Body files cs (d ++ x) (w ++ '<' :: (cdata ++ d ++ [']', ']', '>'] ++ i)) o
  | stub {w n h i o x : Str} {l : List (Str × Str)} {cs : List Tree} : Gap w → Head n l h →
      Body files cs x (paste files (included l) i) o →
      Body files (.mk ⟨n, kept l, 2⟩ [] [] :: cs) x (w ++ h ++ '/' :: '>' :: i) o
  | child {w n h i i' o x x' : Str} {l : List (Str × Str)} {cs cs' : List Tree} : Gap w → Head n l h →
      Body files cs' x' (paste files (included l) i) ('/' :: (n ++ '>' :: i')) → Body files cs x i' o →
      Body files (.mk ⟨n, kept l, 1⟩ cs' x' :: cs) x (w ++ h ++ '>' :: i) o

/-- A document with the tree `t`; `o` is what follows. -/
inductive Document (files : Str → Option Str) : Tree → Str → Str → Prop
  | mk {w n h i o x : Str} {l : List (Str × Str)} {cs : List Tree} : Gap w → Head n l h →
      Body files cs x (paste files (included l) i) ('/' :: (n ++ '>' :: o)) →
      Document files (.mk ⟨n, kept l, 1⟩ cs x) (w ++ h ++ '>' :: i) o

/-- The text begins with the inside of a tag in which, at some depth, the first closing tag that has not the name of its
opening tag occurs. -/
inductive Broken (files : Str → Option Str) : Str → Prop
  | here {w n h i i' m x' : Str} {l : List (Str × Str)} {cs' : List Tree} : Gap w → Head n l h →
      Body files cs' x' (paste files (included l) i) ('/' :: (m ++ '>' :: i')) → TagName m → m ≠ n →
      Broken files (w ++ h ++ '>' :: i)
  | inside {w n h i : Str} {l : List (Str × Str)} : Gap w → Head n l h → Broken files (paste files (included l) i) →
      Broken files (w ++ h ++ '>' :: i)
  | raw {w d w' i : Str} : Spaces w → RawText d → Spaces w' → Broken files ('<' :: i) →
      Broken files (w ++ d ++ w' ++ '<' :: i)
  | block {w d i : Str} : Gap w → FirstEnd [']', ']', '>'] (d ++ [']', ']', '>']) → Broken files i →
      Broken files (w ++ '<' :: (cdata ++ d ++ [']', ']', '>'] ++ i))
  | stub {w n h i : Str} {l : List (Str × Str)} : Gap w → Head n l h → Broken files (paste files (included l) i) →
      Broken files (w ++ h ++ '/' :: '>' :: i)
  | child {w n h i i' x' : Str} {l : List (Str × Str)} {cs' : List Tree} : Gap w → Head n l h →
      Body files cs' x' (paste files (included l) i) ('/' :: (n ++ '>' :: i')) → Broken files i' →
      Broken files (w ++ h ++ '>' :: i)

/-- Reading of `text` ends with the tree `t` without a failure, and `o` is left. -/
def ReadsAs (files : Str → Option Str) (text : Str) (t : Tree) (o : Str) : Prop :=
  ∃ N, ∀ f, N ≤ f → readXML files f text = some (t, true, ⟨.start, o⟩)

/-- Reading of `text` ends with the message about a failure. -/
def ReadFails (files : Str → Option Str) (text : Str) : Prop :=
  ∃ N t r, ∀ f, N ≤ f → readXML files f text = some (t, false, r)

mutual
/-- Trees that can be written: names of the grammar, values that can be quoted, contents without `]]>`; a tag that is
closed at once has neither children nor contents. -/
def Writable : Tree → Prop
  | .mk t cs x => TagName t.name ∧ (∀ a ∈ t.attrs, AttrName a.1 ∧ a.1 ≠ includeName ∧ Quoted a.2) ∧
      ((t.finish = 2 ∧ cs = [] ∧ x = []) ∨ t.finish = 1) ∧
      FirstEnd [']', ']', '>'] (x ++ [']', ']', '>']) ∧ WritableAll cs
def WritableAll : List Tree → Prop
  | [] => True
  | c :: cs => Writable c ∧ WritableAll cs
end

end Verif.Xml
