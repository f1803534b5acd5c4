import Verif.Xml.DataRuns
import Verif.Xml.ExprProps

/-!
# C81: data of tags in xml files
-/

namespace Verif.Xml

variable {V : Type} {K : Kind V}

/-- **C81, words.** The words of a data section are those between white space; white space in braces is left out. -/
theorem C81_words {ws : List Str} {t : Str} (h : Listing ws t) (rest : Str) :
    contents ((t ++ rest).length + 1) (t ++ rest) = some (ws, [], '>' :: rest) :=
  listing_contents h rest _ (by simp)

/-- ` 1.5*SetSize	{ 1, 2 }` and the end. -/
example : Listing [['1', '.', '5', '*', 'S'], ['{', '1', ',', '2', '}']]
    ([' ', '1', '.', '5', '*', 'S', '\t', '{', ' ', '1', ',', ' ', '2', ' ', '}', '\n', ']', ']', '>']) := by
  have h0 : Listing [] [']', ']', '>'] := Listing.done (sp := []) (by intro c hc; simp at hc)
  have h1 : Listing [['{', '1', ',', '2', '}']] ['{', ' ', '1', ',', ' ', '2', ' ', '}', '\n', ']', ']', '>'] :=
    Listing.word (sp := []) (c := '\n') (by intro c hc; simp at hc)
      (.value (.vector (b := [' ', '1', ',', ' ', '2', ' ']) (by decide))) (by decide) h0
  exact Listing.word (sp := [' ']) (c := '\t') (by intro c hc; simp at hc; subst hc; decide)
    (.times (m := ['S']) (.plain (w := ['1', '.', '5']) ⟨by simp, by decide⟩) (by simp) (by decide)) (by decide) h1

/-- **C81, full claim for tags without gaps.** The data that is written for all elements of a type is read back, whatever
the size of the tag, fixed or variable.  The values are those that survive being written (`Good`). -/
theorem C81_dense (num : Str → ℚ) (size : Option Nat) (n : Nat) (data init : Nat → Option (List V)) (rest : Str)
    (h : ∀ k < n, ∃ r, data k = some r ∧ RecSize size r ∧ ∀ v ∈ r, Good K v)
    (h0 : ∀ k < n, ∀ s, size = some s → ∃ r, init k = some r ∧ r.length = s) :
    ∃ data', loadData K num false size n init (writeData K false n data ++ rest) = some (data', '>' :: rest) ∧
      (∀ k < n, data' k = data k) ∧ ∀ k, n ≤ k → data' k = init k := by
  unfold loadData
  rw [C81_words (writeData_listing false n data ?_) rest]
  · simp only
    rw [List.range_eq_range']
    obtain ⟨d', e1, e2⟩ := loadWords_dense num size n [] data n 0 ⟨init, 0⟩ (by omega) rfl
      (fun k _ hk => h k hk) (fun k s _ hk hs => h0 k hk s hs)
    rw [e1]
    refine ⟨d'.data, rfl, fun k hk => ?_, fun k hk => ?_⟩
    · rw [e2 k, if_pos ⟨Nat.zero_le k, hk⟩]
    · rw [e2 k, if_neg (by omega)]
  · intro k hk r hr
    obtain ⟨r', e, -, hg⟩ := h k hk
    rw [e] at hr
    injection hr with hr
    rwa [← hr]

/-- A case of C81: integers of variable size on three elements. -/
example : ∃ data', loadData intKind dig false none 3 (fun _ => none)
    (writeData intKind false 3 (fun k => some (List.replicate k (-7 : Int))) ++ ['x']) = some (data', ['>', 'x']) ∧
    (∀ k < 3, data' k = some (List.replicate k (-7 : Int))) ∧ ∀ k, 3 ≤ k → data' k = none :=
  C81_dense dig none 3 (fun k => some (List.replicate k (-7 : Int))) (fun _ => none) ['x']
    (fun k _ => ⟨_, rfl, (by intro s h; cases h), fun v _ => good_int v⟩) (fun k _ s h => by cases h)

/-- The text of that case. -/
example : writeData intKind false 3 (fun k => some (List.replicate k (-7 : Int))) =
    newLine ++ [' ', '{', ' ', '}', ' ', '-', '7', ' ', '{', '-', '7', ',', '-', '7', '}', ' '] ++ newLine ++ [']', ']', '>'] := by
  decide +kernel

/-- **C81.** The data of a sparse tag is read back; of the records only those that are empty are lost, see
`C81_empty_record_fails`. -/
theorem C81_sparse_partial (num : Str → ℚ) (size : Option Nat) (n : Nat) (data : Nat → Option (List V)) (rest : Str)
    (h : ∀ k < n, ∀ r, data k = some r → RecSize size r ∧ ∀ v ∈ r, Good K v) :
    ∃ data', loadData K num true size n (fun _ => none) (writeData K true n data ++ rest) = some (data', '>' :: rest) ∧
      (∀ k < n, data k ≠ some [] → data' k = data k) ∧ (∀ k < n, data k = some [] → data' k = none) ∧
      ∀ k, n ≤ k → data' k = none := by
  unfold loadData
  rw [C81_words (writeData_listing true n data fun k hk r hr => (h k hk r hr).2) rest]
  simp only
  rw [List.range_eq_range']
  obtain ⟨d', e1, e2⟩ := loadWords_sparse num size n [] data n 0 ⟨fun _ => none, 0⟩ (by omega)
    (fun k r _ hk hr _ => h k hk r hr) (fun _ _ => rfl)
  rw [e1]
  refine ⟨d'.data, rfl, fun k hk hr => ?_, fun k hk hr => ?_, fun k hk => ?_⟩
  · rw [e2 k, if_pos ⟨Nat.zero_le k, hk⟩]
    cases hd : data k with
    | none => rfl
    | some r => exact savedRec_of fun e => hr (by rw [hd, e])
  · rw [e2 k, if_pos ⟨Nat.zero_le k, hk⟩, hr]; rfl
  · rw [e2 k, if_neg (by omega)]

/-- A case of C81: bytes of size 2 on every second of five elements. -/
example : ∃ data', loadData bulkKind dig true (some 2) 5 (fun _ => none)
    (writeData bulkKind true 5 (fun k => if k % 2 = 0 then some [k, 255 - k] else none) ++ []) = some (data', ['>']) ∧
    data' 2 = some [2, 253] ∧ data' 3 = none := by
  obtain ⟨d, h1, h2, -⟩ := C81_sparse_partial (K := bulkKind) dig (some 2) 5
    (fun k => if k % 2 = 0 then some [k, 255 - k] else none) [] (by
      intro k hk r hr
      split at hr
      · injection hr with hr
        subst hr
        refine ⟨fun s h => by injection h with h; subst h; simp, fun v hv => good_bulk v ?_⟩
        simp only [List.mem_cons, List.not_mem_nil, or_false] at hv
        omega
      · cases hr)
  refine ⟨d, h1, ?_, ?_⟩
  · rw [h2 2 (by decide) (by simp)]; rfl
  · rw [h2 3 (by decide) (by simp)]; rfl

/-- **C81, repetitions.** A record and `*` and an expression is the record that number of times, for the next elements;
`runs` has words, their records and the values of their expressions.  Elements after the last record keep their data. -/
theorem C81_runs (num : Str → ℚ) (s n : Nat) (hs : 0 < s) (runs : List (Str × List V × Nat)) (t rest : Str)
    (init : Nat → Option (List V)) (ht : Listing (runs.map (·.1)) t)
    (hr : ∀ q ∈ runs, q.2.1.length = s ∧ (∀ v ∈ q.2.1, Good K v) ∧ 0 < q.2.2 ∧
      (q.1 = recWord K q.2.1 ∧ q.2.2 = 1 ∨
        ∃ m, q.1 = recWord K q.2.1 ++ '*' :: m ∧ convertMultiplier num m n = some (q.2.2 : Int)))
    (hn : (runs.flatMap fun q => List.replicate q.2.2 q.2.1).length ≤ n)
    (h0 : ∀ k < n, ∃ r, init k = some r ∧ r.length = s) :
    ∃ data', loadData K num false (some s) n init (t ++ rest) = some (data', '>' :: rest) ∧
      ∀ k, data' k = match (runs.flatMap fun q => List.replicate q.2.2 q.2.1)[k]? with
        | some r => some r
        | none => init k := by
  unfold loadData
  rw [C81_words ht rest]
  simp only
  obtain ⟨d', e1, e2⟩ := loadWords_runs (K := K) num s n hs [] runs ⟨init, 0⟩ (by
    intro q hq
    obtain ⟨h1, h2, h3, h4⟩ := hr q hq
    refine ⟨h1, h2, h3, ?_⟩
    have hstar := recWord_mem (K := K) (c := '*') (by decide) q.2.1 h2
    rcases h4 with ⟨h4, h5⟩ | ⟨m, h4, h5⟩
    · obtain ⟨g1, g2⟩ := takeWhile_star hstar
      have : splitMul q.1 = (recWord K q.2.1, []) := by unfold splitMul; rw [h4, g1, g2]; rfl
      rw [this, h5]
      exact ⟨rfl, rfl⟩
    · rw [h4, split_star hstar]
      exact ⟨rfl, h5⟩) (by simpa using hn) h0
  rw [e1]
  refine ⟨d'.data, rfl, fun k => ?_⟩
  rw [e2 k]
  simp only [Nat.zero_add, Nat.zero_le, true_and, Nat.sub_zero]
  split
  · rename_i h
    rw [List.getElem?_eq_getElem h]
  · rename_i h
    rw [List.getElem?_eq_none (by omega)]

/-- **C81.** `record*SetSize` gives the record to every element. -/
theorem C81_set_size (num : Str → ℚ) (s n : Nat) (hs : 0 < s) (hn : 0 < n) (hn' : n < 2 ^ 31) (hnum : num (decimal n) = n) (r : List V)
    (hr : r.length = s) (hg : ∀ v ∈ r, Good K v) (rest : Str) (init : Nat → Option (List V))
    (h0 : ∀ k < n, ∃ r, init k = some r ∧ r.length = s) :
    ∃ data', loadData K num false (some s) n init
        (recWord K r ++ '*' :: setSizeName ++ ['\n', ']', ']', '>'] ++ rest) = some (data', '>' :: rest) ∧
      (∀ k < n, data' k = some r) ∧ ∀ k, n ≤ k → data' k = init k := by
  have hm : convertMultiplier num setSizeName n = some (n : Int) := by
    have w1 : withSize num n setSizeName = some ((n : Nat) : ℚ) := by simp [withSize]
    rw [C80_multiplier_partial num n hnum setSizeName n (.product (.factor (.word ⟨by decide, by decide⟩ w1))) (by decide)]
    unfold castInt
    have h1 : ¬ (n : ℚ) < 0 := by simp
    simp only [if_neg h1, Int.floor_natCast]
    rw [if_pos ⟨by omega, by omega⟩]
  have hl : Listing [recWord K r ++ '*' :: setSizeName] ((recWord K r ++ '*' :: setSizeName) ++ '\n' :: [']', ']', '>']) := by
    refine listing_word ?_ (by decide) (Listing.done (sp := []) (by intro c hc; simp at hc))
    exact .times (recWord_value r hg) (by decide) (by decide)
  obtain ⟨data', e1, e2⟩ := C81_runs (K := K) num s n hs [(recWord K r ++ '*' :: setSizeName, r, n)] _ rest init hl
    (by
      intro q hq
      rw [List.mem_singleton] at hq
      subst hq
      exact ⟨hr, hg, hn, .inr ⟨_, rfl, hm⟩⟩) (by simp) h0
  refine ⟨data', e1, fun k hk => ?_, fun k hk => ?_⟩
  · rw [e2 k]
    simp [List.getElem?_replicate, hk]
  · rw [e2 k]
    simp [List.getElem?_replicate, hk]

/-- A case of C81: `{1,-2}*SetSize` on 4 elements. -/
example : ∃ data', loadData intKind dig false (some 2) 4 (fun _ => some [0, 0])
    (['{', '1', ',', '-', '2', '}', '*'] ++ setSizeName ++ ['\n', ']', ']', '>']) = some (data', ['>']) ∧
    (∀ k < 4, data' k = some [1, -2]) ∧ ∀ k, 4 ≤ k → data' k = some [0, 0] :=
  have e : ['{', '1', ',', '-', '2', '}', '*'] ++ setSizeName ++ ['\n', ']', ']', '>'] =
      recWord intKind [1, -2] ++ '*' :: setSizeName ++ ['\n', ']', ']', '>'] ++ [] := by decide +kernel
  e ▸ C81_set_size (K := intKind) dig 2 4 (by decide) (by decide) (by decide) (by decide +kernel) [1, -2] rfl (fun v _ => good_int v)
    [] (fun _ => some [0, 0]) (fun _ _ => ⟨_, rfl, rfl⟩)

/-! ## Values -/

/-- **C81, integers.** Every integer survives. -/
theorem C81_integer (i : Int) : Good intKind i := good_int i

/-- **C81, bytes.** Every byte survives. -/
theorem C81_bulk (b : Nat) (h : b < 256) : Good bulkKind b := good_bulk b h

/-- **C81, references.** A reference to an element of the mesh, numbered by `ty` and `k`, survives. -/
theorem C81_reference {num : Nat → Nat} {ty k : Nat} (hty : ty < 5) (hk : k < num ty) : Good (refKind num) (some (ty, k)) :=
  good_ref hty hk

/-- **C81, reals.** A real survives if `atof` is inverse to the output, whose text is a plain word. -/
theorem C81_real {R : Type} {fmt : R → Str} {atof : Str → R} {zero x : R} (hp : Plain (fmt x)) (h : atof (fmt x) = x) :
    Good (realKind fmt atof zero) x := good_real hp h

/-- **C81, values with derivatives.** A value without derivatives survives.  Missing: values with derivatives, see
`C81_derivatives_fails`. -/
theorem C81_variable_partial {R : Type} {fmt : R → Str} {atof : Str → R} {zero x : R} (hp : Plain (fmt x)) (hs : ';' ∉ fmt x)
    (h : atof (fmt x) = x) : Good (varKind fmt atof zero) (x, []) := by
  have e : (varKind fmt atof zero).put (x, []) = '(' :: (fmt x ++ [';', '0', ')']) := by
    change '(' :: (fmt x ++ ';' :: (showInt 0 ++ [] ++ [')'])) = _
    rfl
  have h1 : ((('(' :: (fmt x ++ [';', '0', ')'])).drop 1).dropLast) = fmt x ++ ';' :: ['0'] := by
    rw [List.drop_succ_cons, List.drop_zero, List.dropLast_append_of_ne_nil (by simp)]
    rfl
  have h2 : sstrip (fmt x) = fmt x := by
    obtain ⟨g0, g1⟩ := hp
    have a : (fmt x).dropWhile isSpace = fmt x := by
      obtain ⟨c, l, e⟩ := List.exists_cons_of_ne_nil g0
      rw [e, List.dropWhile_cons, (g1 c (by simp [e])).1]; rfl
    unfold sstrip
    rw [a]
    unfold trimEnd
    have b : (fmt x).reverse.dropWhile isSpace = (fmt x).reverse := by
      obtain ⟨c, l, e⟩ := List.exists_cons_of_ne_nil (l := (fmt x).reverse) (by simpa using g0)
      rw [e, List.dropWhile_cons, (g1 c (List.mem_reverse.1 (by simp [e]))).1]; rfl
    rw [b, List.reverse_reverse]
  have hi : (varKind fmt atof zero).item ('(' :: (fmt x ++ [';', '0', ')'])) = some (x, []) := by
    change atov atof zero _ = _
    unfold atov
    rw [if_neg (by simp), h1, splitC_append hs]
    have h3 : splitC ';' ['0'] = [['0']] := by decide
    have h4 : sstrip ['0'] = ['0'] := by decide
    simp only [h3, List.map_cons, List.map_nil, h2, h4]
    have h5 : atoi ['0'] = 0 := by decide
    simp only [List.getD_cons_succ, List.getD_cons_zero, h5]
    rw [if_neg (by simp)]
    simp [atovLoop, h]
  refine ⟨?_, by rw [e, hi], ?_⟩
  · rw [e]
    refine ⟨by simp, fun c hc => ?_⟩
    simp only [List.mem_cons, List.mem_append, List.not_mem_nil, or_false] at hc
    rcases hc with rfl | hc | rfl | rfl | rfl
    · decide
    · exact hp.2 c hc
    · decide
    · decide
    · decide
  · rw [e]
    change ((varKind fmt atof zero).item _).map _ = _
    rw [hi]; rfl

example : Good (varKind showInt atoi 0) (-12, []) :=
  C81_variable_partial (plain_int (-12)) (by decide) (by decide)

/-- C81 fails for references: a reference to no element is read as that to the first node. -/
theorem C81_none_fails {num : Nat → Nat} (h : 0 < num 0) :
    (refKind num).item ((refKind num).put none) = some (some (0, 0)) := by
  change linkOf num (atoh noneRef) = _
  have : atoh noneRef = (none, 0) := by decide
  rw [this]
  unfold linkOf
  simp [h]

/-- C81 fails for values with derivatives: one or two derivatives are lost, whatever they are. -/
theorem C81_derivatives_fails : (varKind showInt atoi 0).item ((varKind showInt atoi 0).put (3, [(2, 7)])) =
    some (3, [(0, enumUndef)]) ∧
    (varKind showInt atoi 0).item ((varKind showInt atoi 0).put (3, [(2, 7), (5, 9)])) =
      some (3, [(0, enumUndef), (0, enumUndef)]) := by
  decide +kernel

/-- C81 fails for empty records of sparse tags of variable size: that the record exists is lost. -/
theorem C81_empty_record_fails : writeData intKind true 1 (fun _ => some []) = writeData intKind true 1 (fun _ => none) := rfl

/-- C81 fails if there is no white space between the last word and the end of the contents: the word is not read. -/
theorem C81_last_word_fails (init : Nat → Option (List Int)) :
    (loadData intKind dig false (some 1) 1 init ['5', ']', ']', '>']).map (·.1) = some init := rfl

/-- C81 fails for a tag of size 2 and the values one by one: the second value replaces the first one. -/
theorem C81_one_by_one_fails :
    ((loadData intKind dig false (some 2) 2 (fun _ => some [0, 0]) ['1', ' ', '2', ' ', '3', ' ', '4', ' ', ']', ']', '>']).map
      fun d => (d.1 0, d.1 1)) = some (some [4, 0], some [0, 0]) := by decide +kernel

/-- C81 fails for an expression with brackets inside of brackets: the word ends at the first right bracket. -/
theorem C81_nested_brackets_fails : contents 100 ['1', '*', '(', '(', '1', '+', '1', ')', '*', '2', ')', ' ', ']', ']', '>'] =
    some ([['1', '*', '(', '(', '1', '+', '1', ')'], ['*', '2', ')']], [], ['>']) := by decide +kernel

/-! ## Declarations -/

/-- **C81, declarations.** A tag of any type but that of remote references is declared in the file with its name, type,
size, the types of elements it is defined on and sparse on, and read so. -/
theorem C81_declaration_partial (t : TagDecl) (ht : t.type ≠ .remoteReference) (hd : t.defined < 64) (hs : t.sparse < 64) :
    readTag (tagAttrs t) = t := by
  have hmask : ∀ m < 64, maskOf (maskText m) = m ∧ maskOf (if maskText m = [] then ['N', 'o', 'n', 'e'] else maskText m) = m := by
    decide +kernel
  have hty : dtyOf (dtyText t.type) = t.type := by
    revert ht
    cases t.type <;> decide
  obtain ⟨name, type, size, defined, sparse⟩ := t
  have h1 := (hmask defined hd).1
  have h2 := (hmask sparse hs).2
  simp only at hty
  have e : ∀ (u : TagDecl), (∀ v, tagAttr u (['N', 'a', 'm', 'e'], v) = { u with name := v }) ∧
      (∀ v, tagAttr u (['S', 'i', 'z', 'e'], v) =
        { u with size := if toLower v = ['v', 'a', 'r', 'i', 'a', 'b', 'l', 'e'] then none else some (atoi v).toNat }) ∧
      (∀ v, tagAttr u (['T', 'y', 'p', 'e'], v) = { u with type := dtyOf v }) ∧
      (∀ v, tagAttr u (['S', 'p', 'a', 'r', 's', 'e'], v) = { u with sparse := u.sparse ||| maskOf v }) ∧
      (∀ v, tagAttr u (['D', 'e', 'f', 'i', 'n', 'i', 't', 'i', 'o', 'n'], v) = { u with defined := u.defined ||| maskOf v }) :=
    fun u => ⟨fun v => rfl, fun v => rfl, fun v => rfl, fun v => rfl, fun v => rfl⟩
  unfold readTag tagAttrs
  cases size with
  | none =>
    simp only [List.append_nil, List.singleton_append, List.foldl_cons, List.foldl_nil, (e _).1, (e _).2.2.1, (e _).2.2.2.1,
      (e _).2.2.2.2, hty, h1, h2, Nat.zero_or]
  | some n =>
    have hv : toLower (decimal n) ≠ ['v', 'a', 'r', 'i', 'a', 'b', 'l', 'e'] := by
      obtain ⟨g1, g2⟩ := decimal_digits n
      obtain ⟨c, l, g3⟩ := List.exists_cons_of_ne_nil g1
      obtain ⟨d, hd, hc⟩ := g2 c (by simp [g3])
      rw [g3, hc]
      unfold toLower
      simp only [List.map_cons]
      intro hh
      injection hh with hh _
      revert hh hd
      clear hc
      revert d
      decide
    simp only [List.singleton_append, List.cons_append, List.nil_append, List.foldl_cons, List.foldl_nil, (e _).1, (e _).2.1,
      (e _).2.2.1, (e _).2.2.2.1, (e _).2.2.2.2, hty, h1, h2, Nat.zero_or, if_neg hv, atoi_decimal, Int.toNat_natCast]

example : readTag (tagAttrs ⟨['T'], .reference, some 3, 9, 8⟩) = ⟨['T'], .reference, some 3, 9, 8⟩ :=
  C81_declaration_partial _ (by decide) (by decide) (by decide)

/-- C81 fails for tags of remote references: the name of the type is compared with `remoteReference` after all letters
are made small, and the tag becomes one of reals. -/
theorem C81_remote_fails (t : TagDecl) (ht : t.type = .remoteReference) : (readTag (tagAttrs t)).type = .real := by
  have hty : dtyOf (dtyText .remoteReference) = .real := by decide
  obtain ⟨name, type, size, defined, sparse⟩ := t
  simp only at ht
  subst ht
  cases size <;> exact hty

end Verif.Xml
