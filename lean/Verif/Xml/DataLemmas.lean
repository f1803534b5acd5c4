import Verif.Xml.DataSpec
import Verif.Xml.ExprSize

/-!
# Lemmas for data sections
-/

namespace Verif.Xml

/-! ## Words -/

/-- One character that does not end the contents. -/
theorem wordLoop_cons (st : WSt) (ret : Str) (c : Char) (t : Str) (hc : c ≠ ']') : wordLoop st ret 0 (c :: t) =
      match st with
      | .wait =>
        if isSpace c then wordLoop .wait ret 0 t
        else if c = '{' then wordLoop .vector (ret ++ [c]) 0 t
        else if c = '*' then wordLoop .mult (ret ++ [c]) 0 t
        else if c = '"' then wordLoop .quotes (ret ++ [c]) 0 t
        else wordLoop .read (ret ++ [c]) 0 t
      | .read =>
        if isSpace c then some (ret, false, t)
        else if c = '*' then wordLoop .mult (ret ++ [c]) 0 t
        else wordLoop .read (ret ++ [c]) 0 t
      | .vector =>
        if c = '}' then wordLoop .read (ret ++ [c]) 0 t
        else if isSpace c then wordLoop .vector ret 0 t
        else wordLoop .vector (ret ++ [c]) 0 t
      | .mult =>
        if isSpace c then if lastIs ret '*' then wordLoop .mult ret 0 t else some (ret, false, t)
        else if c = '(' ∧ lastIs ret '*' = true then wordLoop .scopes (ret ++ [c]) 0 t
        else wordLoop .mult (ret ++ [c]) 0 t
      | .scopes =>
        if c = ')' then some (ret ++ [c], false, t)
        else if isSpace c then wordLoop .scopes ret 0 t
        else wordLoop .scopes (ret ++ [c]) 0 t
      | .quotes =>
        if c = '"' then
          if lastIs ret '\\' then wordLoop .quotes (ret.dropLast ++ [c]) 0 t else wordLoop .read (ret ++ [c]) 0 t
        else wordLoop .quotes (ret ++ [c]) 0 t := by
  have hb : (decide (c = ']') && decide (st ≠ .quotes)) = false := by simp [hc]
  have h2 : ¬ (c = '>' ∧ (0 : Nat) = 2) := by omega
  conv_lhs => unfold wordLoop
  simp only [hb]
  rw [if_neg (by rintro ⟨-, -, h, -⟩; omega)]
  simp only [if_neg h2, Bool.false_eq_true, if_false]
  cases st <;> rfl

theorem space_bracket {c : Char} (h : isSpace c = true) : c ≠ ']' := by rintro rfl; revert h; decide

theorem wait_spaces {sp : Str} (h : Spaces sp) (t : Str) : wordLoop .wait [] 0 (sp ++ t) = wordLoop .wait [] 0 t := by
  induction sp with
  | nil => rfl
  | cons c sp ih =>
    rw [List.cons_append, wordLoop_cons _ _ _ _ (space_bracket (h c (by simp)))]
    simp only [h c (by simp), if_true]
    exact ih fun d hd => h d (by simp [hd])

/-- Reading a text leads from the beginning of a word to a state. -/
def Leads (t : Str) (st : WSt) (w : Str) : Prop := ∀ l, wordLoop .wait [] 0 (t ++ l) = wordLoop st w 0 l

theorem read_plain {w : Str} (h : ∀ c ∈ w, isSpace c = false ∧ c ∉ ['*', ']']) : ∀ (ret l : Str),
    wordLoop .read ret 0 (w ++ l) = wordLoop .read (ret ++ w) 0 l := by
  induction w with
  | nil => intro ret l; simp
  | cons c w ih =>
    intro ret l
    obtain ⟨h1, h2⟩ := h c (by simp)
    simp only [List.mem_cons, List.not_mem_nil, or_false, not_or] at h2
    rw [List.cons_append, wordLoop_cons _ _ _ _ h2.2]
    simp only [h1, Bool.false_eq_true, if_false]
    rw [if_neg h2.1, ih (fun d hd => h d (by simp [hd]))]
    simp

theorem leads_plain {w : Str} (h : Plain w) : Leads w .read w := by
  intro l
  obtain ⟨h0, h⟩ := h
  cases w with
  | nil => exact absurd rfl h0
  | cons c w =>
    obtain ⟨h1, h2⟩ := h c (by simp)
    simp only [List.mem_cons, List.not_mem_nil, or_false, not_or] at h2
    rw [List.cons_append, wordLoop_cons _ _ _ _ h2.2.2.2.1]
    simp only [h1, Bool.false_eq_true, if_false]
    rw [if_neg h2.1, if_neg h2.2.2.1, if_neg h2.2.2.2.2.1, read_plain]
    · rfl
    · intro d hd
      obtain ⟨g1, g2⟩ := h d (by simp [hd])
      simp only [List.mem_cons, List.not_mem_nil, or_false, not_or] at g2 ⊢
      exact ⟨g1, g2.2.2.1, g2.2.2.2.1⟩

theorem vector_body {b : Str} (h : ∀ c ∈ b, c ∉ ['}', ']']) : ∀ (ret l : Str),
    wordLoop .vector ret 0 (b ++ l) = wordLoop .vector (ret ++ b.filter (fun c => !isSpace c)) 0 l := by
  induction b with
  | nil => intro ret l; simp
  | cons c b ih =>
    intro ret l
    have h2 := h c (by simp)
    simp only [List.mem_cons, List.not_mem_nil, or_false, not_or] at h2
    rw [List.cons_append, wordLoop_cons _ _ _ _ h2.2]
    simp only [if_neg h2.1]
    by_cases hs : isSpace c = true
    · simp only [hs, if_true]
      rw [ih (fun d hd => h d (by simp [hd]))]
      simp [hs]
    · rw [if_neg hs, ih (fun d hd => h d (by simp [hd]))]
      simp [hs]

theorem leads_vector {b : Str} (h : ∀ c ∈ b, c ∉ ['}', ']']) :
    Leads ('{' :: (b ++ ['}'])) .read ('{' :: (b.filter (fun c => !isSpace c) ++ ['}'])) := by
  intro l
  rw [List.cons_append, wordLoop_cons _ _ _ _ (by decide)]
  simp only [show isSpace '{' = false by decide, Bool.false_eq_true, if_false, if_true, List.nil_append]
  rw [List.append_assoc, vector_body h]
  change wordLoop .vector _ 0 ('}' :: l) = _
  rw [wordLoop_cons _ _ _ _ (by decide)]
  simp

theorem mult_body {m : Str} (h : ∀ c ∈ m, isSpace c = false ∧ c ∉ ['(', ']', '*']) : ∀ (ret l : Str),
    wordLoop .mult ret 0 (m ++ l) = wordLoop .mult (ret ++ m) 0 l := by
  induction m with
  | nil => intro ret l; simp
  | cons c m ih =>
    intro ret l
    obtain ⟨h1, h2⟩ := h c (by simp)
    simp only [List.mem_cons, List.not_mem_nil, or_false, not_or] at h2
    rw [List.cons_append, wordLoop_cons _ _ _ _ h2.2.1]
    simp only [h1, Bool.false_eq_true, if_false]
    rw [if_neg (by rintro ⟨h, -⟩; exact h2.1 h), ih (fun d hd => h d (by simp [hd]))]
    simp

theorem value_leads {w t : Str} (h : Value w t) : Leads t .read w := by
  cases h with
  | plain h => exact leads_plain h
  | vector h => exact leads_vector h

theorem token_word {w t : Str} (h : Token w t) {c : Char} (hc : isSpace c = true) (l : Str) :
    wordLoop .wait [] 0 (t ++ c :: l) = some (w, false, l) := by
  cases h with
  | value h =>
    rw [value_leads h, wordLoop_cons _ _ _ _ (space_bracket hc)]
    simp only [hc, if_true]
  | @times w t m h hm h' =>
    rw [List.append_assoc, value_leads h, List.cons_append, wordLoop_cons _ _ _ _ (by decide)]
    simp only [show isSpace '*' = false by decide, Bool.false_eq_true, if_false, if_true]
    rw [mult_body h', wordLoop_cons _ _ _ _ (space_bracket hc)]
    simp only [hc, if_true]
    have : lastIs (w ++ ['*'] ++ m) '*' = false := by
      obtain ⟨m', d, rfl⟩ := List.eq_nil_or_concat m |>.resolve_left hm
      unfold lastIs
      have hd := (h' d (by simp)).2
      simp only [List.mem_cons, List.not_mem_nil, or_false, not_or] at hd
      rw [List.concat_eq_append, ← List.append_assoc, List.getLast?_append]
      simp [hd.2.2]
    rw [this]
    simp

theorem word_end (l : Str) : wordLoop .wait [] 0 (']' :: ']' :: '>' :: l) = some ([], true, '>' :: l) := by
  rfl

theorem listing_contents {ws : List Str} {t : Str} (h : Listing ws t) (rest : Str) : ∀ f, t.length < f →
    contents f (t ++ rest) = some (ws, [], '>' :: rest) := by
  induction h with
  | @done sp h =>
    intro f hf
    cases f with
    | zero => omega
    | succ f =>
      unfold contents
      rw [List.append_assoc, wait_spaces h]
      rfl
  | @word sp w t l c ws h1 h2 h3 _ ih =>
    intro f hf
    cases f with
    | zero => omega
    | succ f =>
      unfold contents
      rw [List.append_assoc, List.append_assoc, wait_spaces h1, List.cons_append, token_word h2 h3]
      simp only [List.length_append, List.length_cons] at hf
      simp only [ih f (by omega)]

/-! ## Parsing -/

theorem splitC_none {c : Char} {s : Str} (h : c ∉ s) : splitC c s = [s] := by
  induction s with
  | nil => rfl
  | cons x s ih =>
    simp only [List.mem_cons, not_or] at h
    simp only [splitC, ih h.2]
    rw [if_neg (fun e => h.1 e.symm)]

theorem splitC_append {c : Char} {s : Str} (h : c ∉ s) (t : Str) : splitC c (s ++ c :: t) = s :: splitC c t := by
  induction s with
  | nil => simp [splitC]
  | cons x s ih =>
    simp only [List.mem_cons, not_or] at h
    simp only [List.cons_append, splitC, ih h.2]
    rw [if_neg (fun e => h.1 e.symm)]

variable {V : Type} {K : Kind V}

theorem optItem_good {v : V} (h : Good K v) : optItem K (K.put v) = some [v] := by
  have : (K.put v).all isSpace = false := by
    obtain ⟨h0, h1⟩ := h.plain
    rw [List.all_eq_false]
    obtain ⟨c, t, e⟩ := List.exists_cons_of_ne_nil h0
    exact ⟨c, by simp [e], by simp [(h1 c (by simp [e])).1]⟩
  simp [optItem, this, h.item]

theorem plain_mem {w : Str} (h : Plain w) {c : Char} (hc : c ∈ ['{', '}', '*', ']', '"', ',']) : c ∉ w :=
  fun hm => (h.2 c hm).2 hc

theorem takeWhile_brace {w : Str} (h : '}' ∉ w) (l : Str) : (w ++ '}' :: l).takeWhile (· ≠ '}') = w := by
  induction w with
  | nil => simp
  | cons c w ih =>
    simp only [List.mem_cons, not_or] at h
    have hc : c ≠ '}' := fun e => h.1 e.symm
    simpa [List.takeWhile_cons, hc] using ih h.2

theorem items_join : ∀ (r : List V), (∀ v ∈ r, Good K v) → items K (splitC ',' (joinC (r.map K.put) ++ ['}'])) = some r := by
  intro r
  induction r with
  | nil => intro _; rfl
  | cons v r ih =>
    intro h
    have hv := h v (by simp)
    have hc : ',' ∉ K.put v := plain_mem hv.plain (by decide)
    have hb : '}' ∉ K.put v := plain_mem hv.plain (by decide)
    cases r with
    | nil =>
      have : splitC ',' (joinC ([v].map K.put) ++ ['}']) = [K.put v ++ ['}']] := by
        apply splitC_none
        simp only [List.map_cons, List.map_nil, joinC, List.mem_append, List.mem_singleton, not_or]
        exact ⟨hc, by decide⟩
      rw [this]
      simp only [items]
      rw [if_pos (by simp), takeWhile_brace hb, optItem_good hv]
    | cons u r =>
      have e : joinC ((v :: u :: r).map K.put) ++ ['}'] = K.put v ++ ',' :: (joinC ((u :: r).map K.put) ++ ['}']) := by
        simp [joinC]
      rw [e, splitC_append hc]
      have hi := ih (fun w hw => h w (by simp [hw]))
      generalize splitC ',' (joinC ((u :: r).map K.put) ++ ['}']) = ps at hi ⊢
      cases ps with
      | nil => simp [items] at hi
      | cons p ps =>
        simp only [items, optItem_good hv]
        rw [hi]
        rfl

theorem recWord_multi (r : List V) (h : r.length ≠ 1) : recWord K r = '{' :: (joinC (r.map K.put) ++ ['}']) := by
  unfold recWord
  split
  · simp at h
  · rfl

theorem parseVec_word (r : List V) (h : ∀ v ∈ r, Good K v) : parseVec K (recWord K r) = some r := by
  by_cases hl : r.length = 1
  · obtain ⟨v, rfl⟩ := List.length_eq_one_iff.1 hl
    have hv := h v (by simp)
    have : recWord K [v] = K.put v := rfl
    unfold parseVec
    rw [this, if_neg, hv.one]
    intro hh
    exact plain_mem hv.plain (c := '{') (by decide) (List.mem_of_mem_head? hh)
  · rw [recWord_multi r hl]
    unfold parseVec
    rw [if_pos (by simp), List.tail_cons, items_join r h]

theorem join_mem {c : Char} (hc : c ≠ ',') : ∀ (l : List Str), (∀ w ∈ l, c ∉ w) → c ∉ joinC l := by
  intro l
  induction l with
  | nil => intro _; simp [joinC]
  | cons w l ih =>
    intro h
    cases l with
    | nil => simpa [joinC] using h w (by simp)
    | cons u l =>
      simp only [joinC, List.mem_append, List.mem_cons, not_or]
      exact ⟨h w (by simp), hc, ih fun x hx => h x (by simp [hx])⟩

theorem recWord_mem {c : Char} (hc : c ∈ ['*', ']', '"']) (r : List V) (h : ∀ v ∈ r, Good K v) : c ∉ recWord K r := by
  have hc' : c ∈ ['{', '}', '*', ']', '"', ','] := by
    simp only [List.mem_cons, List.not_mem_nil, or_false] at hc ⊢; tauto
  have h1 : c ≠ '{' ∧ c ≠ '}' ∧ c ≠ ',' := by
    simp only [List.mem_cons, List.not_mem_nil, or_false] at hc
    rcases hc with rfl | rfl | rfl <;> decide
  by_cases hl : r.length = 1
  · obtain ⟨v, rfl⟩ := List.length_eq_one_iff.1 hl
    have : recWord K [v] = K.put v := rfl
    rw [this]
    exact plain_mem (h v (by simp)).plain hc'
  · rw [recWord_multi r hl]
    simp only [List.mem_cons, List.mem_append, List.not_mem_nil, or_false, not_or]
    refine ⟨h1.1, join_mem h1.2.2 _ ?_, h1.2.1⟩
    intro w hw
    obtain ⟨v, hv, rfl⟩ := List.mem_map.1 hw
    exact plain_mem (h v hv).plain hc'

theorem takeWhile_star {w : Str} (h : '*' ∉ w) : w.takeWhile (· ≠ '*') = w ∧ w.dropWhile (· ≠ '*') = [] := by
  induction w with
  | nil => simp
  | cons c w ih =>
    simp only [List.mem_cons, not_or] at h
    have hc : c ≠ '*' := fun e => h.1 e.symm
    simpa [List.takeWhile_cons, List.dropWhile_cons, hc] using ih h.2

theorem parseWord_word (num : Str → ℚ) (n : Nat) (r : List V) (h : ∀ v ∈ r, Good K v) :
    parseWord K num n (recWord K r) = some (r, 1) := by
  obtain ⟨e1, e2⟩ := takeWhile_star (recWord_mem (c := '*') (by decide) r h)
  unfold parseWord splitMul
  rw [e1, e2, parseVec_word r h]
  rfl

/-! ## Assignments -/

theorem upd_upd {A : Type} (f : Nat → A) (k : Nat) (a b : A) : upd (upd f k a) k b = upd f k b := by
  funext j; unfold upd; split <;> rfl

theorem upd_self {A : Type} (f : Nat → A) (k : Nat) (a : A) : upd f k a k = a := by simp [upd]

theorem upd_ne {A : Type} (f : Nat → A) {k j : Nat} (h : j ≠ k) (a : A) : upd f k a j = f j := by simp [upd, h]

theorem upd_same {A : Type} (f : Nat → A) {k : Nat} {a : A} (h : f k = a) : upd f k a = f := by
  funext j; unfold upd; split
  · rename_i e; rw [e, h]
  · rfl

theorem set_take {r : List V} {i : Nat} {v : V} (h : i < r.length) : (r.set i v).take (i + 1) = r.take i ++ [v] := by
  rw [List.take_add_one, List.take_set_of_le (by omega)]
  simp [h]

/-- A record of fixed size of a dense tag, and what follows. -/
theorem assign_dense (s n : Nat) (rest : List V) : ∀ (vs : List V) (i i0 cur : Nat) (d : DSt V) (r : List V), vs ≠ [] →
    d.data cur = some r → r.length = s → i0 + vs.length = s → i % s = i0 →
    assign false (some s) n (vs ++ rest) i cur d =
      assign false (some s) n rest (i + vs.length) (if d.it + 1 < n then d.it + 1 else cur)
        ⟨upd d.data cur (some (r.take i0 ++ vs)), d.it + 1⟩ := by
  intro vs
  induction vs with
  | nil => intro _ _ _ _ _ h; exact absurd rfl h
  | cons v vs ih =>
    intro i i0 cur d r _ hd hr hl hi
    simp only [List.length_cons] at hl
    simp only [List.cons_append, assign, hd, hr, hi]
    rw [if_neg (by omega)]
    cases vs with
    | nil =>
      simp only [List.length_nil, Nat.zero_add] at hl
      have h1 : (i + 1) % s = 0 := by
        rw [Nat.add_mod, hi]
        by_cases h1 : s = 1
        · subst h1; omega
        · rw [Nat.mod_eq_of_lt (show 1 < s by omega), hl]; exact Nat.mod_self s
      rw [if_pos ⟨trivial, h1⟩]
      have h2 : r.set i0 v = r.take i0 ++ [v] := by
        have := set_take (r := r) (i := i0) (v := v) (by omega)
        rw [← this, List.take_of_length_le (by simp; omega)]
      simp [h2]
    | cons u vs =>
      simp only [List.length_cons] at hl
      have h1 : (i + 1) % s = i0 + 1 := by
        rw [Nat.add_mod, hi, Nat.mod_eq_of_lt (show 1 < s by omega)]; exact Nat.mod_eq_of_lt (by omega)
      rw [if_neg (by rintro ⟨-, h⟩; omega)]
      rw [ih (i + 1) (i0 + 1) cur _ (r.set i0 v) (by simp) (upd_self _ _ _) (by simpa using hr) (by simp; omega) h1]
      simp only [upd_upd]
      rw [set_take (by omega)]
      have e : i + 1 + (u :: vs).length = i + (v :: u :: vs).length := by simp; omega
      rw [e]
      simp

/-- A record of fixed size of a sparse tag or of variable size. -/
theorem assign_rest (sparse : Bool) (size : Option Nat) (n : Nat) : ∀ (vs : List V) (i cur : Nat) (d : DSt V) (r : List V),
    (sparse = false → size = none) → d.data cur = some r → i + vs.length = r.length →
    assign sparse size n vs i cur d = some ⟨upd d.data cur (some (r.take i ++ vs)), d.it⟩ := by
  intro vs
  induction vs with
  | nil =>
    intro i cur d r _ hd hl
    simp only [assign, List.append_nil]
    rw [List.take_of_length_le (by simp at hl; omega), upd_same _ hd]
  | cons v vs ih =>
    intro i cur d r hs hd hl
    simp only [List.length_cons] at hl
    have hi : i % r.length = i := Nat.mod_eq_of_lt (by omega)
    have key := ih (i + 1) cur ⟨upd d.data cur (some (r.set i v)), d.it⟩ (r.set i v) hs (upd_self _ _ _) (by simp; omega)
    simp only [upd_upd] at key
    rw [set_take (by omega)] at key
    simp only [assign, hd, hi]
    rw [if_neg (by omega)]
    cases size with
    | none => simp only [key]; simp
    | some s =>
      have : ¬ (sparse = false ∧ (i + 1) % s = 0) := by
        rintro ⟨h, -⟩; simpa using hs h
      simp only [if_neg this, key]; simp

/-- A word of a record that is written into the mesh. -/
theorem loadWord_rec (num : Str → ℚ) (sparse : Bool) (size : Option Nat) (n : Nat) (r : List V) (h : ∀ v ∈ r, Good K v)
    (hr : RecSize size r) (d : DSt V) (hit : d.it < n)
    (hd : ∀ s, size = some s → sparse = false → ∃ r0, d.data d.it = some r0 ∧ r0.length = s)
    (hd' : sparse = true → d.data d.it = none) :
    loadWord K num sparse size n (recWord K r) d = some ⟨upd d.data d.it (some r), if sparse then d.it else d.it + 1⟩ := by
  unfold loadWord
  rw [if_neg (by omega), parseWord_word num n r h]
  simp only [Int.toNat_one, List.replicate_one, List.flatten_singleton]
  rw [if_neg (by decide)]
  cases size with
  | none =>
    have hl : (resize K r.length (access K none (d.data d.it))).length = r.length := by
      simp [resize]; omega
    simp only
    rw [assign_rest sparse none n r 0 d.it _ _ (fun _ => rfl) (upd_self _ _ _) (by rw [hl]; omega)]
    simp [upd_upd]
  | some s =>
    obtain ⟨h1, h2⟩ := hr s rfl
    simp only
    rw [if_neg (by rintro ⟨-, h⟩; exact h h1.symm)]
    cases sparse with
    | true =>
      rw [hd' rfl]
      rw [assign_rest true (some s) n r 0 d.it _ _ (by simp) (upd_self _ _ _) (by simp [access, h1])]
      simp [upd_upd]
    | false =>
      obtain ⟨r0, g1, g2⟩ := hd s rfl rfl
      rw [g1]
      have := assign_dense s n [] r 0 0 d.it ⟨upd d.data d.it (some r0), d.it⟩ r0 (by rintro rfl; simp at h1; omega)
        (upd_self _ _ _) g2 (by omega) (Nat.zero_mod s)
      rw [List.append_nil] at this
      change assign false (some s) n r 0 d.it ⟨upd d.data d.it (some r0), d.it⟩ = _
      rw [this]
      simp [assign, upd_upd]

end Verif.Xml
