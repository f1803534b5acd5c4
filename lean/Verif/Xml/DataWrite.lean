import Verif.Xml.DataLemmas
import Verif.Xml.ExprSize

/-!
# Lemmas on what is written into data sections
-/

namespace Verif.Xml

variable {V : Type} {K : Kind V}

theorem spaces_app {a b : Str} (ha : Spaces a) (hb : Spaces b) : Spaces (a ++ b) := by
  intro c hc
  rcases List.mem_append.1 hc with h | h
  · exact ha c h
  · exact hb c h

theorem spaces_newLine : Spaces newLine := by
  intro c hc
  simp only [newLine, List.mem_cons, List.not_mem_nil, or_false] at hc
  rcases hc with rfl | rfl | rfl | rfl <;> decide

theorem listing_spaces {ws : List Str} {t sp : Str} (h : Listing ws t) (hs : Spaces sp) : Listing ws (sp ++ t) := by
  cases h with
  | done h =>
    rw [← List.append_assoc]
    exact .done (spaces_app hs h)
  | word h1 h2 h3 h4 =>
    rw [← List.append_assoc, ← List.append_assoc]
    exact .word (spaces_app hs h1) h2 h3 h4

theorem listing_word {ws : List Str} {w t l : Str} {c : Char} (h : Token w t) (hc : isSpace c = true) (hl : Listing ws l) :
    Listing (w :: ws) (t ++ c :: l) := by
  have := Listing.word (sp := []) (by intro c hc; simp at hc) h hc hl
  simpa using this

theorem join_space : ∀ (l : List Str), (∀ w ∈ l, ∀ c ∈ w, isSpace c = false) → ∀ c ∈ joinC l, isSpace c = false := by
  intro l
  induction l with
  | nil => intro _ c hc; simp [joinC] at hc
  | cons w l ih =>
    intro h c hc
    cases l with
    | nil => exact h w (by simp) c (by simpa [joinC] using hc)
    | cons u l =>
      simp only [joinC, List.mem_append, List.mem_cons] at hc
      rcases hc with hc | rfl | hc
      · exact h w (by simp) c hc
      · decide
      · exact ih (fun x hx => h x (by simp [hx])) c hc

theorem recWord_value (r : List V) (h : ∀ v ∈ r, Good K v) : Value (recWord K r) (recWord K r) := by
  by_cases hl : r.length = 1
  · obtain ⟨v, rfl⟩ := List.length_eq_one_iff.1 hl
    have : recWord K [v] = K.put v := rfl
    rw [this]
    exact .plain (h v (by simp)).plain
  · rw [recWord_multi r hl]
    have h1 : (joinC (r.map K.put)).filter (fun c => !isSpace c) = joinC (r.map K.put) := by
      rw [List.filter_eq_self]
      intro c hc
      rw [join_space (r.map K.put) ?_ c hc]; · rfl
      intro w hw c hc
      obtain ⟨v, hv, rfl⟩ := List.mem_map.1 hw
      exact ((h v hv).plain.2 c hc).1
    have h2 : ∀ c ∈ joinC (r.map K.put), c ∉ ['}', ']'] := by
      intro c hc hm
      have hm' : c ∈ ['{', '}', '*', ']', '"', ','] := by
        simp only [List.mem_cons, List.not_mem_nil, or_false] at hm ⊢; tauto
      refine join_mem (c := c) ?_ (r.map K.put) ?_ hc
      · rintro rfl; revert hm; decide
      · intro w hw
        obtain ⟨v, hv, rfl⟩ := List.mem_map.1 hw
        exact plain_mem (h v hv).plain hm'
    have := Value.vector h2
    rw [h1] at this
    exact this

theorem recWord_token (r : List V) (h : ∀ v ∈ r, Good K v) : Token (recWord K r) (recWord K r) := .value (recWord_value r h)

theorem digit_char : ∀ d < 10, isDigit (Char.ofNat (48 + d)) = true ∧ (Char.ofNat (48 + d)).toNat - 48 = d ∧
    isSpace (Char.ofNat (48 + d)) = false ∧ Char.ofNat (48 + d) ∉ ['{', '}', '*', ']', '"', ',', '\'', '-', '+', ':', ';'] := by
  decide

theorem decimal_digits (k : Nat) : decimal k ≠ [] ∧ ∀ c ∈ decimal k, ∃ d < 10, c = Char.ofNat (48 + d) := by
  unfold decimal
  split
  · refine ⟨by simp, fun c hc => ⟨0, by decide, by simpa using hc⟩⟩
  · rename_i h
    constructor
    · simp [Nat.digits_ne_nil_iff_ne_zero.2 h]
    · intro c hc
      simp only [List.mem_map, List.mem_reverse] at hc
      obtain ⟨d, hd, rfl⟩ := hc
      exact ⟨d, Nat.digits_lt_base (by decide) hd, rfl⟩

theorem decimal_plain (k : Nat) : Plain (decimal k) := by
  refine ⟨(decimal_digits k).1, fun c hc => ?_⟩
  obtain ⟨d, hd, rfl⟩ := (decimal_digits k).2 c hc
  obtain ⟨-, -, h3, h4⟩ := digit_char d hd
  refine ⟨h3, fun h => h4 ?_⟩
  simp only [List.mem_cons, List.not_mem_nil, or_false] at h ⊢
  tauto

theorem fold_digits : ∀ (l : List Nat), (∀ d ∈ l, d < 10) →
    ((l.reverse.map fun d => Char.ofNat (48 + d)).foldl (fun a c => 10 * a + (c.toNat - 48)) 0) = Nat.ofDigits 10 l := by
  intro l
  induction l with
  | nil => intro _; rfl
  | cons d l ih =>
    intro h
    rw [List.reverse_cons, List.map_append, List.foldl_append, ih fun x hx => h x (by simp [hx])]
    simp only [List.map_cons, List.map_nil, List.foldl_cons, List.foldl_nil, Nat.ofDigits_cons]
    rw [(digit_char d (h d (by simp))).2.1]
    omega

theorem takeWhile_all {p : Char → Bool} {s : Str} (h : ∀ c ∈ s, p c = true) : s.takeWhile p = s := by
  induction s with
  | nil => rfl
  | cons c s ih =>
    rw [List.takeWhile_cons, if_pos (h c (by simp)), ih fun d hd => h d (by simp [hd])]

theorem digitsVal_decimal (k : Nat) : digitsVal (decimal k) = k := by
  unfold digitsVal
  rw [takeWhile_all (fun c hc => by obtain ⟨d, hd, rfl⟩ := (decimal_digits k).2 c hc; exact (digit_char d hd).1)]
  unfold decimal
  split
  · rename_i h; subst h; rfl
  · rw [fold_digits _ fun d hd => Nat.digits_lt_base (by decide) hd, Nat.ofDigits_digits]

theorem decimal_cons (k : Nat) : ∃ c t, decimal k = c :: t ∧ isSpace c = false ∧
    c ∉ ['{', '}', '*', ']', '"', ',', '\'', '-', '+', ':', ';'] := by
  obtain ⟨h0, h1⟩ := decimal_digits k
  obtain ⟨c, t, e⟩ := List.exists_cons_of_ne_nil h0
  obtain ⟨d, hd, rfl⟩ := h1 c (by simp [e])
  exact ⟨_, t, e, (digit_char d hd).2.2.1, (digit_char d hd).2.2.2⟩

theorem atoi_decimal (k : Nat) : atoi (decimal k) = k := by
  obtain ⟨c, t, e, h1, h2⟩ := decimal_cons k
  have hd : (decimal k).dropWhile isSpace = decimal k := by rw [e, List.dropWhile_cons, h1]; rfl
  unfold atoi
  rw [hd]
  split
  · rename_i e2; rw [e] at e2; injection e2 with e2 _; subst e2; simp at h2
  · rename_i e2; rw [e] at e2; injection e2 with e2 _; subst e2; simp at h2
  · rw [digitsVal_decimal]

/-- The words of the records. -/
def words (K : Kind V) (sparse : Bool) (data : Nat → Option (List V)) : List Nat → List Str
  | [] => []
  | k :: ks => match data k with
    | none => words K sparse data ks
    | some r => if sparse then (if r = [] then words K sparse data ks else decimal k :: recWord K r :: words K sparse data ks)
      else recWord K r :: words K sparse data ks

theorem writeLoop_listing (sparse : Bool) (data : Nat → Option (List V)) {ws : List Str} {l : Str} (hl : Listing ws l) :
    ∀ (ks : List Nat) (e : Nat), (∀ k ∈ ks, ∀ r, data k = some r → ∀ v ∈ r, Good K v) →
    Listing (words K sparse data ks ++ ws) (writeLoop K sparse data ks e ++ l) := by
  intro ks
  induction ks with
  | nil => intro e _; exact hl
  | cons k ks ih =>
    intro e h
    have hk := h k (by simp)
    replace ih := fun e => ih e (fun j hj => h j (by simp [hj]))
    unfold words writeLoop
    cases hd : data k with
    | none => exact ih e
    | some r =>
      have hr := hk r hd
      by_cases hr0 : r = []
      · subst hr0
        simp only [if_true]
        cases sparse with
        | true => exact ih e
        | false =>
          simp only [Bool.false_eq_true, if_false]
          have hv := Value.vector (b := [' ']) (by decide)
          have := listing_spaces (sp := [' ']) (listing_word (c := ' ') (.value hv) (by decide) (ih e))
            (by intro c hc; simp at hc; subst hc; decide)
          have e2 : (List.filter (fun c => !isSpace c) [' '] : Str) = [] := by decide
          rw [e2] at this
          simpa [recWord, joinC] using this
      · have e1 : recWord K r = putRec K r := by unfold recWord putRec; cases r <;> rfl
        have ht := recWord_token r hr
        rw [e1] at ht
        simp only [if_neg hr0, e1]
        have tail : ∀ (b : Prop) [Decidable b] (e1 e2 : Nat), Listing (putRec K r :: (words K sparse data ks ++ ws))
            (putRec K r ++ ((if b then newLine ++ writeLoop K sparse data ks e1 else ' ' :: writeLoop K sparse data ks e2) ++ l)) := by
          intro b _ e1 e2
          split
          · exact listing_word (c := '\n') ht (by decide) (listing_spaces (sp := ['\t', '\t', '\t']) (ih e1)
              (by intro c hc; simp at hc; subst hc; decide))
          · exact listing_word (c := ' ') ht (by decide) (ih e2)
        cases sparse with
        | true =>
          simp only [if_true, List.append_assoc, List.cons_append]
          exact listing_word (c := ' ') (.value (.plain (decimal_plain k))) (by decide) (tail _ _ _)
        | false =>
          simp only [Bool.false_eq_true, if_false, List.nil_append, List.append_assoc, List.cons_append]
          exact tail _ _ _

theorem writeData_listing (sparse : Bool) (n : Nat) (data : Nat → Option (List V))
    (h : ∀ k < n, ∀ r, data k = some r → ∀ v ∈ r, Good K v) :
    Listing (words K sparse data (List.range n)) (writeData K sparse n data) := by
  unfold writeData
  have := writeLoop_listing (K := K) sparse data (Listing.done spaces_newLine) (List.range n) 0
    (fun k hk => h k (List.mem_range.1 hk))
  rw [List.append_nil] at this
  rw [List.append_assoc, List.append_assoc]
  exact listing_spaces this spaces_newLine

/-! ## Reading what is written -/

theorem loadWords_pair (num : Str → ℚ) (size : Option Nat) (n : Nat) (last : Str) (w v : Str) (ws : List Str) (d : DSt V) :
    loadWords K num true size n last (w :: v :: ws) d =
      if w.head? = some '"' ∨ w.head? = some '\'' ∨ atoi w < 0 then none else
      match loadWord K num true size n v ⟨d.data, (atoi w).toNat⟩ with
        | none => none
        | some d => loadWords K num true size n last ws d := rfl

theorem loadWords_single (num : Str → ℚ) (size : Option Nat) (n : Nat) (last : Str) (w : Str) (ws : List Str) (d : DSt V) :
    loadWords K num false size n last (w :: ws) d =
      match loadWord K num false size n w d with
        | none => none
        | some d => loadWords K num false size n last ws d := by
  cases ws <;> rfl

theorem loadWords_dense (num : Str → ℚ) (size : Option Nat) (n : Nat) (last : Str) (data : Nat → Option (List V)) :
    ∀ (m j : Nat) (d : DSt V), j + m = n → d.it = j →
    (∀ k, j ≤ k → k < n → ∃ r, data k = some r ∧ RecSize size r ∧ ∀ v ∈ r, Good K v) →
    (∀ k s, j ≤ k → k < n → size = some s → ∃ r0, d.data k = some r0 ∧ r0.length = s) →
    ∃ d', loadWords K num false size n last (words K false data (List.range' j m)) d = some d' ∧
      ∀ k, d'.data k = if j ≤ k ∧ k < n then data k else d.data k := by
  intro m
  induction m with
  | zero =>
    intro j d hj _ _ _
    refine ⟨d, rfl, fun k => ?_⟩
    rw [if_neg (by omega)]
  | succ m ih =>
    intro j d hj hit hd h0
    obtain ⟨r, hr, hs, hg⟩ := hd j (by omega) (by omega)
    rw [List.range'_succ, words, hr]
    simp only [Bool.false_eq_true, if_false]
    rw [loadWords_single]
    rw [loadWord_rec num false size n r hg hs d (by omega) (fun s h1 _ => by rw [hit]; exact h0 j s (by omega) (by omega) h1)
      (by simp)]
    simp only [Bool.false_eq_true, if_false, hit]
    obtain ⟨d', e1, e2⟩ := ih (j + 1) ⟨upd d.data j (some r), j + 1⟩ (by omega) rfl
      (fun k hk1 hk2 => hd k (by omega) hk2) (fun k s hk1 hk2 hsz => by
        simp only; rw [upd_ne _ (by omega)]; exact h0 k s (by omega) hk2 hsz)
    refine ⟨d', e1, fun k => ?_⟩
    rw [e2 k]
    by_cases hk : k = j
    · subst hk
      rw [if_neg (by omega), if_pos (by omega), hr]
      exact upd_self _ _ _
    · by_cases hk2 : j ≤ k ∧ k < n
      · rw [if_pos (by omega), if_pos hk2]
      · rw [if_neg (by omega), if_neg hk2]
        exact upd_ne _ hk _

theorem savedRec_of {r : List V} (h : r ≠ []) : savedRec (some r) = some r := by
  cases r with
  | nil => exact absurd rfl h
  | cons v r => rfl

theorem loadWords_sparse (num : Str → ℚ) (size : Option Nat) (n : Nat) (last : Str) (data : Nat → Option (List V)) :
    ∀ (m j : Nat) (d : DSt V), j + m = n →
    (∀ k r, j ≤ k → k < n → data k = some r → r ≠ [] → RecSize size r ∧ ∀ v ∈ r, Good K v) →
    (∀ k, j ≤ k → d.data k = none) →
    ∃ d', loadWords K num true size n last (words K true data (List.range' j m)) d = some d' ∧
      ∀ k, d'.data k = if j ≤ k ∧ k < n then savedRec (data k) else d.data k := by
  intro m
  induction m with
  | zero =>
    intro j d hj _ _
    refine ⟨d, rfl, fun k => ?_⟩
    rw [if_neg (by omega)]
  | succ m ih =>
    intro j d hj hd h0
    rw [List.range'_succ, words]
    have skip : data j = none ∨ data j = some [] →
        ∃ d', loadWords K num true size n last (words K true data (List.range' (j + 1) m)) d = some d' ∧
      ∀ k, d'.data k = if j ≤ k ∧ k < n then savedRec (data k) else d.data k := by
      intro hs
      obtain ⟨d', e1, e2⟩ := ih (j + 1) d (by omega) (fun k r hk1 hk2 => hd k r (by omega) hk2) (fun k hk => h0 k (by omega))
      refine ⟨d', e1, fun k => ?_⟩
      rw [e2 k]
      by_cases hk : k = j
      · subst hk
        rw [if_neg (by omega), if_pos (by omega), h0 k (by omega)]
        rcases hs with hs | hs <;> simp [hs, savedRec]
      · by_cases hk2 : j ≤ k
        · simp only [show (j + 1 ≤ k) = (j ≤ k) from propext ⟨by omega, by omega⟩]
        · rw [if_neg (by omega), if_neg (by omega)]
    cases hr : data j with
    | none => exact skip (.inl hr)
    | some r =>
      by_cases hr0 : r = []
      · subst hr0
        exact skip (.inr hr)
      · simp only [if_true, if_neg hr0]
        obtain ⟨hs, hg⟩ := hd j r (by omega) (by omega) hr hr0
        rw [loadWords_pair]
        have q1 : ¬ ((decimal j).head? = some '"' ∨ (decimal j).head? = some '\'' ∨ atoi (decimal j) < 0) := by
          rw [atoi_decimal]
          obtain ⟨c, t, e, -, h2⟩ := decimal_cons j
          rw [e]
          simp only [List.mem_cons, List.not_mem_nil, or_false, not_or] at h2
          simp [h2]
        rw [if_neg q1, atoi_decimal, Int.toNat_natCast]
        rw [loadWord_rec num true size n r hg hs ⟨d.data, j⟩ (by simp; omega) (by simp) (fun _ => h0 j (le_refl j))]
        simp only [if_true]
        obtain ⟨d', e1, e2⟩ := ih (j + 1) ⟨upd d.data j (some r), j⟩ (by omega)
          (fun k r hk1 hk2 => hd k r (by omega) hk2) (fun k hk1 => by
            simp only; rw [upd_ne _ (by omega)]; exact h0 k (by omega))
        refine ⟨d', e1, fun k => ?_⟩
        rw [e2 k]
        by_cases hk : k = j
        · subst hk
          rw [if_neg (by omega), if_pos ⟨le_refl k, by omega⟩, hr, savedRec_of hr0]
          exact upd_self _ _ _
        · by_cases hk2 : j ≤ k
          · simp only [show (j + 1 ≤ k) = (j ≤ k) from propext ⟨by omega, by omega⟩, upd_ne _ hk]
          · rw [if_neg (by omega), if_neg (by omega)]
            exact upd_ne _ hk _

end Verif.Xml
