import Verif.Optim.Params
import Mathlib.Data.List.Infix

/-!
# Configuration lines of optimizers (C147)

Models `OptimizersConfiguration` of `/repo/Source/Optimizer/optimizers.cpp` L702-773 and the reads from an `istringstream` it makes.

Simplifications: a line is the list of its tokens with one flag for blank characters after the last token; a token is either a whole number
or does not begin with a character of a number. A failed read of a number stores zero, as in C++11. A read that is not tried leaves its variable as it was:
an uninitialised variable is `none`. The construction of values from a range is in `Verif.Optim.Params`; here its arguments are kept.
-/

namespace Verif.Optim.Config

/-- a token: its characters and the number that it is -/
structure Tok (K : Type) where
  text : String
  value : Option K

/-- a line: its tokens; are there blanks after the last one -/
structure Line (K : Type) where
  toks : List (Tok K)
  trail : Bool

/-- the state of an `istringstream`: what is left, `eofbit`, `failbit` -/
structure Stream (K : Type) where
  rest : List (Tok K)
  trail : Bool
  eof : Bool
  fail : Bool

/-- arguments of the constructors of `OptimizationParameter` called at L735 and L737 -/
inductive Parsed (K : Type) where
  | raw (name : String) (values : List (Option K)) (dflt : Option K) (ty : Ty)
  | range (name : String) (lo hi step : Option K) (dflt : Option K) (ty : Ty)

/-- `GetDefaultValue` -/
def Parsed.getDefault {K : Type} : Parsed K → Option K
  | .raw _ _ d _ => d
  | .range _ _ _ _ d _ => d

/-- a parsed line, or `std::out_of_range` from `at` at L737 -/
inductive Outcome (K : Type) where
  | ok (p : Parsed K)
  | throws

variable {K : Type}

/-- `std::istringstream line_stream(line)`, L705 -/
def open_ (l : Line K) : Stream K := ⟨l.toks, l.trail, false, false⟩

/-- the token was read: was the end of the line met while looking for its end -/
def advance (s : Stream K) (r : List (Tok K)) : Stream K := { s with rest := r, eof := r.isEmpty && !s.trail }

/-- `>>` to a string: `none` leaves it -/
def readStr (s : Stream K) : Option String × Stream K :=
  if s.eof || s.fail then (none, { s with fail := true })
  else match s.rest with
    | [] => (none, { s with eof := true, fail := true })
    | t :: r => (some t.text, advance s r)

/-- `>>` to a double: `none` leaves it -/
def readNum [Zero K] (s : Stream K) : Option K × Stream K :=
  if s.eof || s.fail then (none, { s with fail := true })
  else match s.rest with
    | [] => (none, { s with eof := true, fail := true })
    | t :: r => match t.value with
      | some v => (some v, advance s r)
      | none => (some 0, { s with fail := true })

/-- the loop of L715-719 for at most `fuel` iterations: `none` when it has not ended -/
def loop [Zero K] : Nat → Stream K → List (Option K) → Option (List (Option K))
  | fuel, s, acc =>
    if s.eof then some acc
    else match fuel with
      | 0 => none
      | fuel + 1 => let r := readNum s; loop fuel r.2 (acc ++ [r.1])

/-- `std::string::find(pat, 0) != npos` -/
def find (pat : List Char) : List Char → Bool
  | [] => pat.isEmpty
  | c :: r => pat.isPrefixOf (c :: r) || find pat r

/-- the end of `ParseOptimizationParameter`, L721-738 -/
def finish (type name : String) (values : List (Option K)) (dflt : Option K) : Outcome K :=
  let isRaw := if find "range".toList type.toList then false else true
  let ty := if find "exponent".toList type.toList then Ty.exponent else Ty.dflt
  if isRaw then .ok (.raw name values dflt ty)
  else match values[0]?, values[1]?, values[2]? with
    | some a, some b, some c => .ok (.range name a b c dflt ty)
    | _, _, _ => .throws

/-- `ParseOptimizationParameter`, L704-739 -/
def parse [Zero K] (fuel : Nat) (l : Line K) : Option (Outcome K) :=
  let r1 := readStr (open_ l)
  let r2 := readStr r1.2
  let r3 := readNum r2.2
  (loop fuel r3.2 []).map fun values => finish (r1.1.getD "") (r2.1.getD "") values r3.1

/-- `FromStream`, L751-765: the parameters after, and was there an exception -/
def fromStream [Zero K] (fuel : Nat) : List (Line K) → List (Parsed K) → Option (List (Parsed K) × Bool)
  | [], g => some (g, false)
  | l :: r, g => match parse fuel l with
    | none => none
    | some .throws => some (g, true)
    | some (.ok p) => fromStream fuel r (g ++ [p])

/-- `FromFile`, L741-749: `none` is a file that cannot be opened. `open` then sets `failbit`, and `bad()` is about `badbit` alone; `getline` fails at once.
The last component is the message of L747. -/
def fromFile [Zero K] (fuel : Nat) (file : Option (List (Line K))) (g : List (Parsed K)) : Option (List (Parsed K) × Bool × Bool) :=
  let badbit := false
  if !badbit then
    match file with
    | none => (fromStream fuel [] g).map fun x => (x.1, x.2, false)
    | some lines => (fromStream fuel lines g).map fun x => (x.1, x.2, false)
  else some (g, false, true)

/-- `GetGlobalOptimizationParameters`, L767-773: the entries -/
def globalEntries (g : List (Parsed K)) : List (Parsed K × Option K) := g.map fun p => (p, p.getDefault)

/-! ## Specification -/

/-- the type of values that the first word asks for -/
def tyOf (type : String) : Ty := open Classical in if "exponent".toList <:+: type.toList then .exponent else .dflt

/-- what a line of a type, a name, a default value and values means -/
def Means (type name : String) (d : K) (vs : List K) (o : Outcome K) : Prop :=
  (¬ "range".toList <:+: type.toList → o = .ok (.raw name (vs.map some) (some d) (tyOf type))) ∧
  ("range".toList <:+: type.toList →
    (∀ lo hi step r, vs = lo :: hi :: step :: r → o = .ok (.range name (some lo) (some hi) (some step) (some d) (tyOf type))) ∧
    (vs.length < 3 → o = .throws))

/-- a well formed line: the words, the numbers, and no blanks at the end -/
def line (type name : String) (d : Tok K) (vs : List (Tok K)) : Line K := ⟨⟨type, none⟩ :: ⟨name, none⟩ :: d :: vs, false⟩

/-! ## Lemmas -/

theorem find_iff (pat : List Char) : ∀ l : List Char, find pat l = true ↔ pat <:+: l
  | [] => by simp [find, List.isEmpty_iff]
  | c :: r => by
    rw [find, Bool.or_eq_true, find_iff pat r, List.isPrefixOf_iff_prefix, List.infix_cons_iff]

theorem ty_eq (type : String) : (if find "exponent".toList type.toList then Ty.exponent else Ty.dflt) = tyOf type := by
  unfold tyOf
  by_cases h : "exponent".toList <:+: type.toList
  · rw [if_pos ((find_iff _ _).2 h), if_pos h]
  · rw [if_neg (fun e => h ((find_iff _ _).1 e)), if_neg h]

variable [Zero K]

/-- numbers up to the end of the line -/
theorem loop_numbers (trail : Bool) : ∀ (vs : List (Tok K)) (ws : List K) (acc : List (Option K)) (fuel : Nat),
    vs.map (·.value) = ws.map some → vs.length + 1 ≤ fuel →
    loop fuel ⟨vs, trail, vs.isEmpty && !trail, false⟩ acc = some (acc ++ ws.map some ++ if trail then [none] else [])
  | [], ws, acc, fuel, h, hf => by
    have : ws = [] := by simpa using h.symm
    subst this
    cases trail with
    | false => unfold loop; simp
    | true =>
      obtain ⟨k, rfl⟩ : ∃ k, fuel = k + 1 := ⟨fuel - 1, by simp at hf; omega⟩
      unfold loop
      simp [readNum]
      unfold loop
      simp
  | t :: r, ws, acc, fuel, h, hf => by
    obtain ⟨k, rfl⟩ : ∃ k, fuel = k + 1 := ⟨fuel - 1, by simp at hf; omega⟩
    cases ws with
    | nil => simp at h
    | cons w ws =>
      simp only [List.map_cons, List.cons.injEq] at h
      unfold loop
      simp only [List.isEmpty_cons, Bool.false_and, Bool.false_eq_true, if_false, readNum, Bool.or_self, h.1, advance]
      rw [loop_numbers trail r ws _ k h.2 (by simpa using hf)]
      simp

/-- a failed stream that is not at its end stays so -/
theorem loop_failed : ∀ (fuel : Nat) (s : Stream K) (acc : List (Option K)), s.eof = false → s.fail = true → loop fuel s acc = none
  | 0, s, acc, h, _ => by unfold loop; simp [h]
  | fuel + 1, s, acc, h, hf => by
    unfold loop
    simp only [h, Bool.false_eq_true, if_false, readNum, hf, Bool.or_true, if_true]
    exact loop_failed fuel _ _ (by simpa using h) rfl

theorem loop_word (trail : Bool) : ∀ (vs : List (Tok K)) (acc : List (Option K)) (fuel : Nat), (∃ t ∈ vs, t.value = none) →
    loop fuel ⟨vs, trail, vs.isEmpty && !trail, false⟩ acc = none
  | [], _, _, h => by simp at h
  | t :: r, acc, 0, _ => by unfold loop; simp
  | t :: r, acc, fuel + 1, h => by
    unfold loop
    cases hv : t.value with
    | none =>
      simp only [List.isEmpty_cons, Bool.false_and, Bool.false_eq_true, if_false, readNum, Bool.or_self, hv]
      exact loop_failed fuel _ _ rfl rfl
    | some v =>
      simp only [List.isEmpty_cons, Bool.false_and, Bool.false_eq_true, if_false, readNum, Bool.or_self, hv, advance]
      refine loop_word trail r _ fuel ?_
      obtain ⟨t', h1, h2⟩ := h
      rcases List.mem_cons.1 h1 with e | e
      · rw [e, hv] at h2; cases h2
      · exact ⟨t', e, h2⟩

/-- the three first reads -/
theorem parse_three (fuel : Nat) (type name d : Tok K) (vs : List (Tok K)) (trail : Bool) :
    parse fuel ⟨type :: name :: d :: vs, trail⟩ =
      match d.value with
      | some dv => (loop fuel ⟨vs, trail, vs.isEmpty && !trail, false⟩ []).map fun values => finish type.text name.text values (some dv)
      | none => none := by
  cases hd : d.value with
  | none =>
    have : loop fuel (⟨d :: vs, trail, false, true⟩ : Stream K) [] = none := loop_failed fuel _ _ rfl rfl
    simp [parse, open_, readStr, readNum, advance, hd, this]
  | some dv =>
    simp [parse, open_, readStr, readNum, advance, hd]

omit [Zero K] in
theorem finish_spec (type name : String) (d : K) (vs : List K) : Means type name d vs (finish type name (vs.map some) (some d)) := by
  unfold finish
  rw [ty_eq]
  by_cases h : "range".toList <:+: type.toList
  · have hf := (find_iff _ _).2 h
    simp only [hf, if_true, Bool.false_eq_true, if_false]
    refine ⟨fun e => absurd h e, fun _ => ⟨?_, ?_⟩⟩
    · intro lo hi step r e
      subst e
      rfl
    · intro e
      match vs, e with
      | [], _ => rfl
      | [_], _ => rfl
      | [_, _], _ => rfl
  · have hf : find "range".toList type.toList = false := by
      cases hc : find "range".toList type.toList with
      | false => rfl
      | true => exact absurd ((find_iff _ _).1 hc) h
    exact ⟨fun _ => by simp only [hf, Bool.false_eq_true, if_false, if_true], fun e => absurd e h⟩

/-! ## The property -/

/-- **C147** (partial): a line of two words and numbers with no blank after the last of them is read as it is written, for every count of values. Missing:
lines that end with a blank, have fewer tokens or have a word among numbers, see the theorems below. -/
theorem C147_line_partial (type name : String) (d : Tok K) (vs : List (Tok K)) (dv : K) (ws : List K)
    (hd : d.value = some dv) (hv : vs.map (·.value) = ws.map some) :
    ∃ o, Means type name dv ws o ∧ ∀ fuel, vs.length + 1 ≤ fuel → parse fuel (line type name d vs) = some o := by
  refine ⟨_, finish_spec type name dv ws, fun fuel hf => ?_⟩
  have hl := loop_numbers false vs ws [] fuel hv hf
  unfold line
  rw [parse_three]
  simp only [hd, hl, List.nil_append, Bool.false_eq_true, if_false, List.append_nil, Option.map_some]

/-- **C147**: the read of a line with three tokens or more ends if and only if everything after the two words is a number. -/
theorem C147_ends (type name d : Tok K) (vs : List (Tok K)) (trail : Bool) :
    (∃ fuel, parse fuel ⟨type :: name :: d :: vs, trail⟩ ≠ none) ↔ ∀ t ∈ d :: vs, t.value ≠ none := by
  constructor
  · rintro ⟨fuel, h⟩ t ht hn
    apply h
    rw [parse_three]
    rcases List.mem_cons.1 ht with e | e
    · rw [← e, hn]
    · cases d.value with
      | none => rfl
      | some dv => simp only [loop_word trail vs [] fuel ⟨t, e, hn⟩, Option.map_none]
  · intro h
    obtain ⟨dv, hd⟩ := Option.ne_none_iff_exists'.1 (h d (by simp))
    have : ∀ vs : List (Tok K), (∀ t ∈ vs, t.value ≠ none) → ∃ ws : List K, vs.map (·.value) = ws.map some := by
      intro vs
      induction vs with
      | nil => exact fun _ => ⟨[], rfl⟩
      | cons t r ih =>
        intro h
        obtain ⟨v, hv⟩ := Option.ne_none_iff_exists'.1 (h t (by simp))
        obtain ⟨ws, hw⟩ := ih fun t ht => h t (by simp [ht])
        exact ⟨v :: ws, by simp [hv, hw]⟩
    obtain ⟨ws, hw⟩ := this vs fun t ht => h t (by simp [ht])
    refine ⟨vs.length + 1, ?_⟩
    rw [parse_three]
    simp only [hd, loop_numbers trail vs ws [] (vs.length + 1) hw (Nat.le_refl _), Option.map_some]
    simp

/-- **C147**: the parameters of well formed lines are added in the order of lines to those that were there, and each has its default value as current one. -/
theorem C147_stream_partial (fuel : Nat) : ∀ (ls : List (Line K)) (ps g : List (Parsed K)),
    ls.map (parse fuel) = ps.map (fun p => some (.ok p)) →
    fromStream fuel ls g = some (g ++ ps, false) ∧
      globalEntries (g ++ ps) = globalEntries g ++ ps.map (fun p => (p, match p with | .raw _ _ d _ => d | .range _ _ _ _ d _ => d))
  | [], ps, g, h => by
    have : ps = [] := by simpa using h.symm
    subst this
    simp [fromStream]
  | l :: r, ps, g, h => by
    cases ps with
    | nil => simp at h
    | cons p ps =>
      simp only [List.map_cons, List.cons.injEq] at h
      refine ⟨?_, ?_⟩
      · rw [fromStream, h.1]
        simp only
        rw [(C147_stream_partial fuel r ps (g ++ [p]) h.2).1, List.append_assoc, List.singleton_append]
      · simp only [globalEntries, List.map_append]
        congr 1

/-- A blank after the last value, such as the carriage return of a file from another system, adds one more value, which was never assigned. -/
theorem C147_trailing_blank_fails (type name : String) (d : Tok K) (vs : List (Tok K)) (dv : K) (ws : List K)
    (hd : d.value = some dv) (hv : vs.map (·.value) = ws.map some) (hr : ¬ "range".toList <:+: type.toList) (fuel : Nat) (hf : vs.length + 1 ≤ fuel) :
    parse fuel ⟨(line type name d vs).toks, true⟩ = some (.ok (.raw name (ws.map some ++ [none]) (some dv) (tyOf type))) := by
  have hf' : find "range".toList type.toList = false := by
    cases hc : find "range".toList type.toList with
    | false => rfl
    | true => exact absurd ((find_iff _ _).1 hc) hr
  unfold line
  rw [parse_three]
  simp only [hd, loop_numbers true vs ws [] fuel hv hf, finish, ty_eq, hf', List.nil_append, Bool.false_eq_true, if_false, if_true, Option.map_some]

/-- A word after the default value, such as a comment, makes the read endless. -/
theorem C147_word_fails (type name : String) (d : Tok K) (vs : List (Tok K)) (w : String) (fuel : Nat) :
    parse fuel (line type name d (vs ++ [⟨w, none⟩])) = none := by
  unfold line
  rw [parse_three]
  cases d.value with
  | none => rfl
  | some dv => simp only [loop_word false (vs ++ [⟨w, none⟩]) [] fuel ⟨⟨w, none⟩, by simp, rfl⟩, Option.map_none]

/-- An empty line gives a parameter with an empty name, no values and a default value that was never assigned. -/
theorem C147_empty_line_fails (fuel : Nat) (trail : Bool) :
    parse fuel (⟨[], trail⟩ : Line K) = some (.ok (.raw "" [] none .dflt)) := by
  have h : loop fuel (⟨[], trail, true, true⟩ : Stream K) [] = some [] := by unfold loop; simp
  simp [parse, open_, readStr, readNum, h, finish, find]

/-- The message about a file that cannot be opened is never printed: there is no difference from an empty file. -/
theorem C147_missing_file_fails (fuel : Nat) (g : List (Parsed K)) :
    fromFile fuel none g = some (g, false, false) ∧ fromFile fuel (some []) g = fromFile fuel none g := ⟨rfl, rfl⟩

/-- A range with an exponent: hypotheses of `C147_line_partial` hold, and the result is as written. -/
example : ∃ fuel, parse fuel (line "exponent_range" "tau" ⟨"-3", some (-3)⟩ [⟨"-4", some (-4)⟩, ⟨"0", some 0⟩, ⟨"1", some 1⟩])
    = some (.ok (.range "tau" (some (-4)) (some 0) (some (1 : ℤ)) (some (-3)) .exponent)) := by
  refine ⟨4, ?_⟩
  rw [line, parse_three]
  rfl

end Verif.Optim.Config
