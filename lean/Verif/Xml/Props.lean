import Verif.Xml.Lemmas

/-!
# C78, C79: writing and reading of XML documents
-/

namespace Verif.Xml

variable {files : Str → Option Str}

/-- **C79.** Every document of the grammar, with white space, comments, raw text, data blocks, attributes with and
without quotes and included files, is read as its tree, without a failure; reading ends right after the document.

`_partial`: comments before raw text, values without quotes at the end of a tag and white space in closing tags are
not in the grammar, see the theorems with the suffix `_fails`. -/
theorem C79_document_partial {t : Tree} {text o : Str} (h : Document files t text o) : ReadsAs files text t o :=
  document_reads h

/-- No text is a document with two trees. -/
theorem C79_unambiguous {t t' : Tree} {text o o' : Str} (h : Document files t text o) (h' : Document files t' text o') :
    t = t' ∧ o = o' := by
  obtain ⟨N, hN⟩ := document_reads h
  obtain ⟨N', hN'⟩ := document_reads h'
  have e := (hN (max N N') (le_max_left _ _)).symm.trans (hN' (max N N') (le_max_right _ _))
  simp only [Option.some.injEq, Prod.mk.injEq, Rd.mk.injEq, true_and] at e
  exact e

/-- **C79.** A closing tag with another name than the opening tag, in the root or at any depth, is a failure. -/
theorem C79_mismatch {w n h i : Str} {l : List (Str × Str)} (hw : Gap w) (hh : Head n l h)
    (hb : Broken files (paste files (included l) i) ∨ ∃ cs x m o,
      Body files cs x (paste files (included l) i) ('/' :: (m ++ '>' :: o)) ∧ TagName m ∧ m ≠ n) :
    ReadFails files (w ++ h ++ '>' :: i) := by
  have ho := openTag_head (files := files) (i := i) hw hh (.inl ⟨rfl, rfl⟩)
  rw [show ['>'] ++ i = '>' :: i from rfl] at ho
  rcases hb with hb | ⟨cs, x, m, o, hb, hm, hne⟩
  · obtain ⟨N, hN⟩ := readSub_broken hb
    obtain ⟨t, r, e⟩ := hN N (.mk ⟨n, kept l, 1⟩ [] []) (le_refl _)
    obtain ⟨⟨b, r'⟩, e2⟩ := closeTag_some ⟨n, kept l, 1⟩ r
    refine readFails_of (f := N) (t := t) (r := r') ?_
    rw [readXML, ho]
    simp only [e, e2, Bool.false_and]
  · obtain ⟨N, hN⟩ := readSub_body hb
    refine readFails_of (f := N) (t := extend (.mk ⟨n, kept l, 1⟩ [] []) cs x) (r := ⟨.start, o⟩) ?_
    rw [readXML, ho]
    simp only
    rw [hN N _ (le_refl _)]
    simp only [closeTag_other hm hne]
    rfl

/-- The classes of characters, for codes below 128, are those of the locale "C". -/
theorem C79_classes (c : Char) :
    (isSpace c = true ↔ c ∈ [' ', '\t', '\n', '\x0b', '\x0c', '\r']) ∧
    (isDigit c = true ↔ '0' ≤ c ∧ c ≤ '9') ∧
    (isAlpha c = true ↔ 'a' ≤ c ∧ c ≤ 'z' ∨ 'A' ≤ c ∧ c ≤ 'Z') ∧ (isPrint c = true ↔ ' ' ≤ c ∧ c ≤ '~') := by
  have le : ∀ a b : Char, a ≤ b ↔ a.toNat ≤ b.toNat := fun a b => by rw [Char.le_def, UInt32.le_iff_toNat_le]; rfl
  have eq : ∀ a b : Char, a = b ↔ a.toNat = b.toNat := fun a b =>
    ⟨fun h => by rw [h], fun h => by rw [← Char.ofNat_toNat a, h, Char.ofNat_toNat]⟩
  refine ⟨?_, ?_, ?_, ?_⟩
  · simp only [isSpace, List.mem_cons, List.not_mem_nil, or_false, eq, Bool.or_eq_true, beq_iff_eq, Bool.and_eq_true,
      decide_eq_true_eq]
    simp only [show ' '.toNat = 32 by rfl, show '\t'.toNat = 9 by rfl, show '\n'.toNat = 10 by rfl, show '\x0b'.toNat = 11 by rfl,
      show '\x0c'.toNat = 12 by rfl, show '\r'.toNat = 13 by rfl]
    omega
  · simp only [isDigit, le, Bool.and_eq_true, decide_eq_true_eq]
    simp only [show '0'.toNat = 48 by rfl, show '9'.toNat = 57 by rfl]
  · simp only [isAlpha, le, Bool.or_eq_true, Bool.and_eq_true, decide_eq_true_eq]
    simp only [show 'a'.toNat = 97 by rfl, show 'z'.toNat = 122 by rfl, show 'A'.toNat = 65 by rfl, show 'Z'.toNat = 90 by rfl]
    omega
  · simp only [isPrint, le, Bool.and_eq_true, decide_eq_true_eq]
    simp only [show ' '.toNat = 32 by rfl, show '~'.toNat = 126 by rfl]

/-- The tree of the text `<?x?><a b="1" c = 2 Include="f"><!--z-->  <d/> w <![CDATA[>]]></a>`, where the file `f` is
`<e></e>`. -/
def sampleTree : Tree := .mk ⟨['a'], [(['b'], ['1']), (['c'], ['2'])], 1⟩
  [.mk ⟨['e'], [], 1⟩ [] [], .mk ⟨['d'], [], 2⟩ [] []] ['w', '>']

/-- Its text. -/
def sampleText : Str :=
  ['<', '?', 'x', '?', '>', '<', 'a', ' ', 'b', '=', '"', '1', '"', ' ', 'c', ' ', '=', ' ', '2', ' ',
   'I', 'n', 'c', 'l', 'u', 'd', 'e', '=', '"', 'f', '"', '>', '<', '!', '-', '-', 'z', '-', '-', '>', ' ', ' ',
   '<', 'd', '/', '>', ' ', 'w', ' ', '<', '!', '[', 'C', 'D', 'A', 'T', 'A', '[', '>', ']', ']', '>', '<', '/', 'a', '>', '!']

/-- The file. -/
def sampleFiles : Str → Option Str := fun n => if n = ['f'] then some ['<', 'e', '>', '<', '/', 'e', '>'] else none

theorem tagName_letter {c : Char} (h : isAlpha c = true) : TagName [c] := by
  refine ⟨⟨c, [], rfl, h⟩, ?_⟩
  intro b hb
  simp only [List.mem_singleton] at hb
  subst hb
  obtain ⟨h1, -, -, -, h5, h6⟩ := alpha_facts (.inl h)
  refine ⟨?_, h1, h5, h6⟩
  simp only [isAlpha, isPrint, Bool.or_eq_true, Bool.and_eq_true, decide_eq_true_eq] at h ⊢
  omega

/-- `<a>t<b></c></a>` -/
example : ReadFails files ['<', 'a', '>', 't', '<', 'b', '>', '<', '/', 'c', '>', '<', '/', 'a', '>'] :=
  C79_mismatch (w := []) (i := ['t', '<', 'b', '>', '<', '/', 'c', '>', '<', '/', 'a', '>']) .nil
    (.plain (tagName_letter (c := 'a') (by decide))) (.inl (.raw (w := []) (w' := []) (d := ['t']) spaces_nil
      ⟨by decide, by decide, by decide, by decide⟩ spaces_nil (.here (w := []) .nil (.plain (tagName_letter (c := 'b') (by decide)))
        (i := ['<', '/', 'c', '>', '<', '/', 'a', '>']) (.close (w := []) .nil) (tagName_letter (c := 'c') (by decide)) (by decide))))

instance {v : Str} : Decidable (Quoted v) := by unfold Quoted; infer_instance
instance {v : Str} : Decidable (Spaces v) := by unfold Spaces; infer_instance
instance {v : Str} : Decidable (Bare v) := by unfold Bare; infer_instance

/-- A way to decide `FirstEnd`. -/
theorem firstEnd_of {p s : Str} (h1 : p <:+ s) (h2 : ∀ k ∈ List.range (s.length + 1), p <+: s.drop k → k + p.length = s.length)
    (h0 : p ≠ []) : FirstEnd p s := by
  refine ⟨h1, fun k hk => ?_⟩
  by_cases h : k < s.length + 1
  · exact h2 k (List.mem_range.2 h) hk
  · rw [List.drop_eq_nil_of_le (by omega)] at hk
    exact absurd (List.prefix_nil.1 hk) h0

example : Document sampleFiles sampleTree sampleText ['!'] := by
  have hq : Quoted ['1'] := by decide
  have hf : Quoted ['f'] := by decide
  have hb : Bare ['2'] := by decide
  have nb : AttrName ['b'] := ⟨⟨'b', [], rfl, by decide⟩, by decide⟩
  have nc : AttrName ['c'] := ⟨⟨'c', [], rfl, by decide⟩, by decide⟩
  have ni : AttrName includeName := ⟨⟨'I', _, rfl, by decide⟩, by decide⟩
  have sp : Spaces [' '] := by decide
  have a3 : Attrs [(includeName, ['f'])] _ := .quoted .nil ni spaces_nil spaces_nil hf (.nil .nil)
  have a2 := Attrs.bare .nil nc sp sp hb (show isSpace ' ' = true by decide) a3
  have a1 := Attrs.quoted .nil nb spaces_nil spaces_nil hq (attrs_space (show isSpace ' ' = true by decide) a2)
  have hh := Head.attrs (tagName_letter (show isAlpha 'a' = true by decide)) (show isSpace ' ' = true by decide) a1
  have b1 : Body sampleFiles [] [] ['<', '/', 'a', '>', '!'] ['/', 'a', '>', '!'] := .close .nil
  have b2 := Body.block (w := []) (d := ['>']) .nil (firstEnd_of (by decide) (by decide) (by decide)) b1
  have b3 := Body.raw sp (d := ['w']) ⟨by decide, by decide, by decide, by decide⟩ sp b2
  have b4 := Body.stub (w := ['<', '!', '-', '-', 'z', '-', '-', '>', ' ', ' ']) (l := [])
    (.comment (d := ['z', '-', '-', '>']) (firstEnd_of (by decide) (by decide) (by decide)) (.space (by decide) (.space (by decide) .nil)))
    (.plain (tagName_letter (show isAlpha 'd' = true by decide))) b3
  have b5 := Body.child (files := sampleFiles) (w := []) (l := []) .nil (.plain (tagName_letter (show isAlpha 'e' = true by decide)))
    (i := ['<', '/', 'e', '>'] ++ _) (.close (w := []) .nil) b4
  exact Document.mk (w := ['<', '?', 'x', '?', '>']) (.instruction (d := ['x', '?', '>'])
    (firstEnd_of (by decide) (by decide) (by decide)) .nil) hh (i := ['<', '!', '-', '-', 'z', '-', '-', '>', ' ', ' ',
   '<', 'd', '/', '>', ' ', 'w', ' ', '<', '!', '[', 'C', 'D', 'A', 'T', 'A', '[', '>', ']', ']', '>', '<', '/', 'a', '>', '!']) b5

/-- **C78.** A tree that was written is read back. `_partial`: trees of `Writable`. -/
theorem C78_write_read_partial {t : XTag} {cs : List Tree} {x : Str} (h : Writable (.mk t cs x)) (hf : t.finish = 1) (off : Nat) :
    ReadsAs files (writeXML (.mk t cs x) off) (.mk t cs x) ['\n'] :=
  document_reads (document_write files h hf off)

/-- Different trees are written differently. -/
theorem C78_injective_partial {t t' : XTag} {cs cs' : List Tree} {x x' : Str} (h : Writable (.mk t cs x)) (h' : Writable (.mk t' cs' x'))
    (hf : t.finish = 1) (hf' : t'.finish = 1) (e : writeXML (.mk t cs x) 0 = writeXML (.mk t' cs' x') 0) :
    Tree.mk t cs x = .mk t' cs' x' := by
  have d := document_write (fun _ => none) h hf 0
  rw [e] at d
  exact (C79_unambiguous d (document_write (fun _ => none) h' hf' 0)).1

example : Writable sampleTree := by
  unfold sampleTree
  simp only [Writable, WritableAll]
  have hx : FirstEnd [']', ']', '>'] ([] ++ [']', ']', '>']) := firstEnd_of (by decide) (by decide) (by decide)
  refine ⟨tagName_letter (by decide), ?_, .inr trivial, firstEnd_of (by decide) (by decide) (by decide),
    ⟨tagName_letter (by decide), by simp, .inr trivial, hx, trivial⟩, ⟨tagName_letter (by decide), by simp, .inl ⟨trivial, trivial, trivial⟩, hx, trivial⟩, trivial⟩
  intro a ha
  simp only [List.mem_cons, List.not_mem_nil, or_false] at ha
  rcases ha with rfl | rfl
  · exact ⟨⟨⟨'b', [], rfl, by decide⟩, by decide⟩, by decide, by decide⟩
  · exact ⟨⟨⟨'c', [], rfl, by decide⟩, by decide⟩, by decide, by decide⟩

/-- A root that is closed at once: the tree is read, and a failure is reported. -/
theorem C78_root_stub_fails : Writable (.mk ⟨['a'], [], 2⟩ [] []) ∧ ReadFails files (writeXML (.mk ⟨['a'], [], 2⟩ [] []) 0) :=
  ⟨by
    simp only [Writable, WritableAll]
    exact ⟨tagName_letter (by decide), by simp, .inl ⟨trivial, trivial, trivial⟩, firstEnd_of (by decide) (by decide) (by decide), trivial⟩,
   readFails_of (f := 2) rfl⟩

/-- A name that begins with an underscore is accepted in the opening tag and not in the closing one, L746. -/
theorem C78_underscore_fails : writeXML (.mk ⟨['_', 'a'], [], 1⟩ [] []) 0 =
    ['<', '_', 'a', '>', '\n', '<', '/', '_', 'a', '>', '\n'] ∧ ReadFails files (writeXML (.mk ⟨['_', 'a'], [], 1⟩ [] []) 0) :=
  ⟨rfl, readFails_of (f := 2) rfl⟩

/-- A quote in a value is not escaped: the tree that is read has another attribute. -/
theorem C78_quote_fails : ReadsAs files (writeXML (.mk ⟨['a'], [(['b'], ['"', ' ', 'c', '=', '"'])], 1⟩ [] []) 0)
    (.mk ⟨['a'], [(['b'], []), (['c'], [])], 1⟩ [] []) ['\n'] :=
  ⟨2, fun _ hf => readXML_more (f := 2) rfl hf⟩

/-- The end of a data block is not escaped: contents `]]></a><b>` close the tag. -/
theorem C78_contents_fails : ReadsAs files (writeXML (.mk ⟨['a'], [], 1⟩ [] [']', ']', '>', '<', '/', 'a', '>', '<', 'b', '>']) 0)
    (.mk ⟨['a'], [], 1⟩ [] []) ['<', 'b', '>', ']', ']', '>', '\n', '<', '/', 'a', '>', '\n'] :=
  ⟨3, fun _ hf => readXML_more (f := 3) rfl hf⟩

/-- `<a><!--c-->t</a>`: raw text after a comment. -/
theorem C79_text_after_comment_fails :
    ReadFails files ['<', 'a', '>', '<', '!', '-', '-', 'c', '-', '-', '>', 't', '<', '/', 'a', '>'] :=
  readFails_of (f := 2) rfl

/-- `<a b=c></a>`: a value without quotes at the end of a tag, L882-887 drops the character that ends the tag. -/
theorem C79_bare_value_fails : ReadFails files ['<', 'a', ' ', 'b', '=', 'c', '>', '<', '/', 'a', '>'] :=
  readFails_of (f := 3) rfl

/-- `<a></a >`: white space in a closing tag. -/
theorem C79_space_in_close_fails : ReadFails files ['<', 'a', '>', '<', '/', 'a', ' ', '>'] :=
  readFails_of (f := 2) rfl

/-- `<a><![CDATA[x`: a file that ends inside of a data block raises an exception (`resize` of a string of one character
to `-2`), L1623. -/
theorem C79_truncated_fails (f : Nat) :
    readXML files f ['<', 'a', '>', '<', '!', '[', 'C', 'D', 'A', 'T', 'A', '[', 'x'] = none := by
  match f with
  | 0 => rfl
  | f + 1 => rfl

end Verif.Xml
