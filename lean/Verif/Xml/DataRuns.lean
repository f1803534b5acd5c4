import Verif.Xml.DataWrite

/-!
# Lemmas on repetitions and codes of values
-/

namespace Verif.Xml

variable {V : Type} {K : Kind V}

/-! ## Repetitions -/

theorem assign_reps (s n : Nat) (r : List V) (hr : r.length = s) (hs : 0 < s) : ∀ (m i cur : Nat) (d : DSt V),
    i % s = 0 → d.it = cur → cur + m ≤ n → (∀ k, cur ≤ k → k < cur + m → ∃ r0, d.data k = some r0 ∧ r0.length = s) →
    ∃ d', assign false (some s) n ((List.replicate m r).flatten) i cur d = some d' ∧ d'.it = cur + m ∧
      ∀ k, d'.data k = if cur ≤ k ∧ k < cur + m then some r else d.data k := by
  intro m
  induction m with
  | zero =>
    intro i cur d _ hit _ _
    exact ⟨d, rfl, by omega, fun k => by rw [if_neg (by omega)]⟩
  | succ m ih =>
    intro i cur d hi hit hn hd
    obtain ⟨r0, e1, e2⟩ := hd cur (le_refl _) (by omega)
    rw [List.replicate_succ, List.flatten_cons, assign_dense s n _ r i 0 cur d r0 (by rintro rfl; simp at hr; omega) e1 e2
      (by omega) hi]
    have hdata : ∀ k, cur + 1 ≤ k → k < cur + 1 + m → ∃ r0, upd d.data cur (some r) k = some r0 ∧ r0.length = s := by
      intro k h1 h2
      rw [upd_ne _ (by omega)]
      exact hd k (by omega) (by omega)
    have hi' : (i + r.length) % s = 0 := by rw [hr, Nat.add_mod_right]; exact hi
    simp only [List.take_zero, List.nil_append, hit]
    by_cases hm : m = 0
    · subst hm
      refine ⟨_, rfl, by simp, fun k => ?_⟩
      by_cases hk : k = cur
      · subst hk; rw [if_pos (by omega)]; exact upd_self _ _ _
      · rw [if_neg (by omega)]; exact upd_ne _ hk _
    · rw [if_pos (by omega)]
      obtain ⟨d', g1, g2, g3⟩ := ih (i + r.length) (cur + 1) ⟨upd d.data cur (some r), cur + 1⟩ hi' rfl (by omega) hdata
      refine ⟨d', g1, by omega, fun k => ?_⟩
      rw [g3 k]
      by_cases hk : k = cur
      · subst hk; rw [if_neg (by omega), if_pos (by omega)]; exact upd_self _ _ _
      · by_cases hk2 : cur ≤ k ∧ k < cur + (m + 1)
        · rw [if_pos (by omega), if_pos hk2]
        · rw [if_neg (by omega), if_neg hk2]; exact upd_ne _ hk _

theorem split_star {w : Str} (h : '*' ∉ w) (m : Str) : splitMul (w ++ '*' :: m) = (w, m) := by
  unfold splitMul
  induction w with
  | nil => simp
  | cons c w ih =>
    simp only [List.mem_cons, not_or] at h
    have hc : c ≠ '*' := fun e => h.1 e.symm
    simpa [List.takeWhile_cons, List.dropWhile_cons, hc] using ih h.2

theorem loadWord_times (num : Str → ℚ) (s n : Nat) (r : List V) (h : ∀ v ∈ r, Good K v) (hr : r.length = s) (hs : 0 < s)
    (w : Str) (m : Nat) (hw : splitMul w = (recWord K r, (splitMul w).2)) (hm : convertMultiplier num (splitMul w).2 n = some (m : Int))
    (hm0 : 0 < m) (d : DSt V) (hit : d.it + m ≤ n)
    (hd : ∀ k, d.it ≤ k → k < d.it + m → ∃ r0, d.data k = some r0 ∧ r0.length = s) :
    ∃ d', loadWord K num false (some s) n w d = some d' ∧ d'.it = d.it + m ∧
      ∀ k, d'.data k = if d.it ≤ k ∧ k < d.it + m then some r else d.data k := by
  unfold loadWord
  rw [if_neg (by omega)]
  have hp : parseWord K num n w = some (r, (m : Int)) := by
    unfold parseWord
    rw [hm, hw, parseVec_word r h]
  rw [hp]
  simp only
  rw [if_neg (by omega), if_neg (by rintro ⟨h, -⟩; simp at h), Int.toNat_natCast]
  obtain ⟨r0, e1, e2⟩ := hd d.it (le_refl _) (by omega)
  have : access K (some s) (d.data d.it) = r0 := by rw [e1]; rfl
  rw [this, upd_same _ e1]
  exact assign_reps s n r hr hs m 0 d.it d (Nat.zero_mod s) rfl hit hd

theorem loadWords_runs (num : Str → ℚ) (s n : Nat) (hs : 0 < s) (last : Str) : ∀ (runs : List (Str × List V × Nat)) (d : DSt V),
    (∀ q ∈ runs, q.2.1.length = s ∧ (∀ v ∈ q.2.1, Good K v) ∧ 0 < q.2.2 ∧ splitMul q.1 = (recWord K q.2.1, (splitMul q.1).2) ∧
      convertMultiplier num (splitMul q.1).2 n = some (q.2.2 : Int)) →
    d.it + (runs.flatMap fun q => List.replicate q.2.2 q.2.1).length ≤ n →
    (∀ k, k < n → ∃ r0, d.data k = some r0 ∧ r0.length = s) →
    ∃ d', loadWords K num false (some s) n last (runs.map (·.1)) d = some d' ∧
      ∀ k, d'.data k = if d.it ≤ k ∧ k < d.it + (runs.flatMap fun q => List.replicate q.2.2 q.2.1).length then
        (runs.flatMap fun q => List.replicate q.2.2 q.2.1)[k - d.it]? else d.data k := by
  intro runs
  induction runs with
  | nil =>
    intro d _ _ _
    exact ⟨d, rfl, fun k => by rw [if_neg (by simp)]⟩
  | cons q runs ih =>
    intro d hq hn hd
    obtain ⟨h1, h2, h3, h4, h5⟩ := hq q (by simp)
    simp only [List.flatMap_cons, List.length_append, List.length_replicate] at hn ⊢
    obtain ⟨d1, g1, g2, g3⟩ := loadWord_times num s n q.2.1 h2 h1 hs q.1 q.2.2 h4 h5 h3 d (by omega)
      (fun k hk1 hk2 => hd k (by omega))
    rw [List.map_cons, loadWords_single, g1]
    have hd1 : ∀ k, k < n → ∃ r0, d1.data k = some r0 ∧ r0.length = s := by
      intro k hk
      rw [g3 k]
      split
      · exact ⟨_, rfl, h1⟩
      · exact hd k hk
    obtain ⟨d', f1, f2⟩ := ih d1 (fun x hx => hq x (by simp [hx])) (by omega) hd1
    refine ⟨d', f1, fun k => ?_⟩
    rw [f2 k, g2, g3 k]
    generalize hL : (runs.flatMap fun q => List.replicate q.2.2 q.2.1) = L at hn
    by_cases c1 : d.it ≤ k ∧ k < d.it + q.2.2
    · rw [if_neg (by omega), if_pos c1, if_pos (by omega), List.getElem?_append_left (by simp; omega),
        List.getElem?_replicate, if_pos (by omega)]
    · by_cases c2 : d.it + q.2.2 ≤ k ∧ k < d.it + q.2.2 + L.length
      · rw [if_pos c2, if_pos (by omega), List.getElem?_append_right (by simp; omega)]
        simp only [List.length_replicate]
        congr 1
        omega
      · rw [if_neg c2, if_neg c1, if_neg (by omega)]

/-! ## Codes -/

theorem good_int (i : Int) : Good intKind i := by
  have hz : ∀ n : Nat, Plain ('-' :: decimal n) := by
    intro n
    refine ⟨by simp, fun c hc => ?_⟩
    rcases List.mem_cons.1 hc with rfl | hc
    · decide
    · exact (decimal_plain n).2 c hc
  have h : Plain (showInt i) ∧ atoi (showInt i) = i := by
    cases i with
    | ofNat n => exact ⟨decimal_plain n, atoi_decimal n⟩
    | negSucc n =>
      refine ⟨hz _, ?_⟩
      change -(digitsVal (decimal (n + 1)) : Int) = _
      rw [digitsVal_decimal]
      rfl
  exact ⟨h.1, congrArg some h.2, congrArg (fun x => some [x]) h.2⟩

theorem plain_int (i : Int) : Plain (showInt i) := (good_int i).plain

theorem good_real {R : Type} {fmt : R → Str} {atof : Str → R} {zero x : R} (hp : Plain (fmt x)) (h : atof (fmt x) = x) :
    Good (realKind fmt atof zero) x :=
  ⟨hp, congrArg some h, congrArg (fun x => some [x]) h⟩

theorem good_bulk : ∀ b < 256, Good bulkKind b := by
  intro b hb
  have h : ∀ b < 256, (∀ c ∈ charToHex b, isSpace c = false ∧ c ∉ ['{', '}', '*', ']', '"', ',']) ∧
      bulkKind.item (charToHex b) = some b ∧ bulkKind.one (charToHex b) = some [b] := by decide +kernel
  obtain ⟨h1, h2, h3⟩ := h b hb
  exact ⟨⟨by simp [bulkKind, charToHex], h1⟩, h2, h3⟩

theorem typeName_facts : ∀ ty < 5, typeName ty ≠ [] ∧ ':' ∉ typeName ty ∧ atoe (typeName ty) = some ty ∧
    typeName ty ≠ ['N', 'o', 'n', 'e'] ∧
    (∀ c ∈ typeName ty, isSpace c = false ∧ c ∉ ['{', '}', '*', ']', '"', ',']) := by decide +kernel

theorem split_colon {w : Str} (h : ':' ∉ w) (m : Str) :
    (w ++ ':' :: m).takeWhile (· ≠ ':') = w ∧ ((w ++ ':' :: m).dropWhile (· ≠ ':')).drop 1 = m := by
  induction w with
  | nil => simp
  | cons c w ih =>
    simp only [List.mem_cons, not_or] at h
    have hc : c ≠ ':' := fun e => h.1 e.symm
    simpa [List.takeWhile_cons, List.dropWhile_cons, hc] using ih h.2

theorem atoh_put {ty : Nat} (hty : ty < 5) (k : Nat) : atoh (typeName ty ++ ':' :: decimal k) = (some ty, (k : Int)) := by
  obtain ⟨h0, h1, h2, h3, -⟩ := typeName_facts ty hty
  obtain ⟨e1, e2⟩ := split_colon h1 (decimal k)
  unfold atoh
  rw [if_neg, if_neg (by simp), e1, e2, h2, atoi_decimal]
  rintro (h | h)
  · have : ':' ∈ typeName ty ++ ':' :: decimal k := by simp
    rw [h] at this
    revert this; decide
  · rw [h] at e1
    exact h3 (e1.symm.trans (by decide))

theorem good_ref {num : Nat → Nat} {ty k : Nat} (hty : ty < 5) (hk : k < num ty) : Good (refKind num) (some (ty, k)) := by
  obtain ⟨h0, h1, h2, h3, h4⟩ := typeName_facts ty hty
  have hl : linkOf num (atoh (typeName ty ++ ':' :: decimal k)) = some (some (ty, k)) := by
    rw [atoh_put hty]
    unfold linkOf
    simp only [Option.getD_some]
    rw [if_pos ⟨hty, by omega, by omega⟩, Int.toNat_natCast]
  refine ⟨⟨by simp [refKind], fun c hc => ?_⟩, hl, ?_⟩
  · change c ∈ typeName ty ++ ':' :: decimal k at hc
    rcases List.mem_append.1 hc with hc | hc
    · exact h4 c hc
    · rcases List.mem_cons.1 hc with rfl | hc
      · decide
      · exact (decimal_plain k).2 c hc
  · change (linkOf num (atoh (typeName ty ++ ':' :: decimal k))).map _ = _
    rw [hl]; rfl

end Verif.Xml
