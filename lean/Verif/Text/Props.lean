import Verif.Text.Model
import Verif.Text.Spec
import Mathlib.Data.List.TakeWhile

/-!
# C39: base64; C40: splitting of strings
-/

namespace Verif.Text

theorem byte_hi6 : ∀ n : Fin 256, (n.val &&& 0xfc) >>> 2 = n.val / 4 := by decide +kernel
theorem byte_lo2 : ∀ n : Fin 256, (n.val &&& 0x03) <<< 4 = n.val % 4 * 16 := by decide +kernel
theorem byte_hi4 : ∀ n : Fin 256, (n.val &&& 0xf0) >>> 4 = n.val / 16 := by decide +kernel
theorem byte_lo4 : ∀ n : Fin 256, (n.val &&& 0x0f) <<< 2 = n.val % 16 * 4 := by decide +kernel
theorem byte_hi2 : ∀ n : Fin 256, (n.val &&& 0xc0) >>> 6 = n.val / 64 := by decide +kernel
theorem byte_lo6 : ∀ n : Fin 256, n.val &&& 0x3f = n.val % 64 := by decide +kernel
theorem dig_shift : ∀ n : Fin 64, n.val <<< 2 = n.val * 4 := by decide +kernel
theorem dig_30 : ∀ n : Fin 64, (n.val &&& 0x30) >>> 4 = n.val / 16 := by decide +kernel
theorem dig_f : ∀ n : Fin 64, (n.val &&& 0xf) <<< 4 = n.val % 16 * 16 := by decide +kernel
theorem dig_3c : ∀ n : Fin 64, (n.val &&& 0x3c) >>> 2 = n.val / 4 := by decide +kernel
theorem dig_3 : ∀ n : Fin 64, (n.val &&& 0x3) <<< 6 = n.val % 4 * 64 := by decide +kernel
theorem charAt_digit : ∀ n : Fin 64, charAt (UInt8.ofNat n.val) = some (digit n.val) := by decide +kernel
theorem digit_ok : ∀ n : Fin 64, digit n.val ≠ code '=' ∧ isBase64 (digit n.val) = true ∧ find (digit n.val) = UInt8.ofNat n.val := by
  decide +kernel

theorem charAt_lt (n : Nat) (h : n < 64) : charAt (UInt8.ofNat n) = some (digit n) := charAt_digit ⟨n, h⟩

theorem pack0 (a : Nat → UInt8) : charAt (pack a 0) = some (digit ((a 0).toNat / 4)) := by
  have h0 := (a 0).toNat_lt
  simp only [pack, if_true]
  rw [byte_hi6 ⟨_, h0⟩]
  exact charAt_lt _ (by omega)

theorem pack1 (a : Nat → UInt8) : charAt (pack a 1) = some (digit ((a 0).toNat % 4 * 16 + (a 1).toNat / 16)) := by
  have h0 := (a 0).toNat_lt
  have h1 := (a 1).toNat_lt
  simp only [pack, if_true, if_neg (show ¬ 1 = 0 by omega)]
  rw [byte_lo2 ⟨_, h0⟩, byte_hi4 ⟨_, h1⟩]
  exact charAt_lt _ (by simp only; omega)

theorem pack2 (a : Nat → UInt8) : charAt (pack a 2) = some (digit ((a 1).toNat % 16 * 4 + (a 2).toNat / 64)) := by
  have h1 := (a 1).toNat_lt
  have h2 := (a 2).toNat_lt
  simp only [pack, if_true, if_neg (show ¬ 2 = 0 by omega), if_neg (show ¬ 2 = 1 by omega)]
  rw [byte_lo4 ⟨_, h1⟩, byte_hi2 ⟨_, h2⟩]
  exact charAt_lt _ (by simp only; omega)

theorem pack3 (a : Nat → UInt8) : charAt (pack a 3) = some (digit ((a 2).toNat % 64)) := by
  have h2 := (a 2).toNat_lt
  simp only [pack, if_neg (show ¬ 3 = 0 by omega), if_neg (show ¬ 3 = 1 by omega), if_neg (show ¬ 3 = 2 by omega)]
  rw [byte_lo6 ⟨_, h2⟩]
  exact charAt_lt _ (by simp only; omega)

/-- The part of `encode` after the given state of `ret`. -/
def encFrom (a : Nat → UInt8) (buf ret : List UInt8) : Option (List UInt8) :=
  match encLoop buf 0 a ret with
  | none => none
  | some (i, a, ret) =>
    if i = 0 then some ret
    else
      match emit (pack (zeroFrom i 3 a)) (i + 1) ret with
      | none => none
      | some ret => some (ret ++ List.replicate (3 - i) (code '='))

theorem encFrom_eq (a : Nat → UInt8) (buf ret : List UInt8) : encFrom a buf ret = some (ret ++ base64 buf) := by
  fun_induction base64 buf generalizing a ret with
  | case1 => simp [encFrom, encLoop]
  | case2 x n =>
    simp only [encFrom, encLoop, emit]
    simp [List.range_succ, pack0, pack1, zeroFrom, put]
    have := x.toNat_lt
    refine ⟨?_, ?_, by decide⟩ <;> congr 1 <;> omega
  | case3 x y n =>
    simp only [encFrom, encLoop, emit]
    simp [List.range_succ, pack0, pack1, pack2, zeroFrom, put]
    have := x.toNat_lt
    have := y.toNat_lt
    refine ⟨?_, ?_, ?_, by decide⟩ <;> congr 1 <;> omega
  | case4 x y z r n ih =>
    have := x.toNat_lt
    have := y.toNat_lt
    have := z.toNat_lt
    have e : encFrom a (x :: y :: z :: r) ret =
        encFrom (put (put (put a 0 x) 1 y) 2 z) r (ret ++ [digit (n / 64 / 64 / 64), digit (n / 64 / 64 % 64), digit (n / 64 % 64), digit (n % 64)]) := by
      have h4 : emit (pack (put (put (put a 0 x) 1 y) 2 z)) 4 ret =
          some (ret ++ [digit (n / 64 / 64 / 64), digit (n / 64 / 64 % 64), digit (n / 64 % 64), digit (n % 64)]) := by
        simp [emit, List.range_succ, pack0, pack1, pack2, pack3, put]
        refine ⟨?_, ?_, ?_, ?_⟩ <;> congr 1 <;> omega
      simp [encFrom, encLoop, h4]
    rw [e, ih]
    simp

/-- **C39, encoding.**  For every byte sequence `base64_encode` returns its encoding of RFC 4648 (and never accesses the table out of range), whatever
the uninitialised local array contains. -/
theorem C39_encode (a : Nat → UInt8) (buf : List UInt8) : encode a buf = some (base64 buf) := by
  have h := encFrom_eq a buf []
  rw [List.nil_append] at h
  exact h

theorem digit_ok' (n : Nat) (h : n < 64) : digit n ≠ code '=' ∧ isBase64 (digit n) = true ∧ find (digit n) = UInt8.ofNat n := digit_ok ⟨n, h⟩

/-- The part of `decode` after the given state of `ret`. -/
def decFrom (a : Nat → UInt8) (s ret : List UInt8) : List UInt8 :=
  match decLoop s 0 a ret with
  | (i, a, ret) =>
    if i = 0 then ret
    else
      let a := zeroFrom i 4 a
      let a := fun j => if j < 4 then find (a j) else a j
      let r := unpack a
      ret ++ (List.range (i - 1)).map r

theorem decLoop_step (c : Nat) (hc : c < 64) (cs : List UInt8) (i : Nat) (hi : i + 1 ≠ 4) (a : Nat → UInt8) (ret : List UInt8) :
    decLoop (digit c :: cs) i a ret = decLoop cs (i + 1) (put a i (digit c)) ret := by
  have := digit_ok' c hc
  rw [decLoop, if_pos ⟨this.1, this.2.1⟩]
  simp only [if_neg hi]

theorem unpack0 (a : Nat → UInt8) (p q : Nat) (hp : p < 64) (hq : q < 64) (h0 : a 0 = UInt8.ofNat p) (h1 : a 1 = UInt8.ofNat q) (x : UInt8)
    (hx : x.toNat = p * 4 + q / 16) : unpack a 0 = x := by
  have hx' := x.toNat_lt
  apply UInt8.toNat_inj.1
  simp only [unpack, if_true, h0, h1, UInt8.toNat_ofNat']
  rw [Nat.mod_eq_of_lt (show p < 2 ^ 8 by omega), Nat.mod_eq_of_lt (show q < 2 ^ 8 by omega), dig_shift ⟨p, hp⟩, dig_30 ⟨q, hq⟩]
  simp only; omega

theorem unpack1 (a : Nat → UInt8) (p q : Nat) (hp : p < 64) (hq : q < 64) (h0 : a 1 = UInt8.ofNat p) (h1 : a 2 = UInt8.ofNat q) (x : UInt8)
    (hx : x.toNat = p % 16 * 16 + q / 4) : unpack a 1 = x := by
  have hx' := x.toNat_lt
  apply UInt8.toNat_inj.1
  simp only [unpack, if_neg (show ¬ 1 = 0 by omega), if_true, h0, h1, UInt8.toNat_ofNat']
  rw [Nat.mod_eq_of_lt (show p < 2 ^ 8 by omega), Nat.mod_eq_of_lt (show q < 2 ^ 8 by omega), dig_f ⟨p, hp⟩, dig_3c ⟨q, hq⟩]
  simp only; omega

theorem unpack2 (a : Nat → UInt8) (p q : Nat) (hp : p < 64) (hq : q < 64) (h0 : a 2 = UInt8.ofNat p) (h1 : a 3 = UInt8.ofNat q) (x : UInt8)
    (hx : x.toNat = p % 4 * 64 + q) : unpack a 2 = x := by
  have hx' := x.toNat_lt
  apply UInt8.toNat_inj.1
  simp only [unpack, if_neg (show ¬ 2 = 0 by omega), if_neg (show ¬ 2 = 1 by omega), h0, h1, UInt8.toNat_ofNat']
  rw [Nat.mod_eq_of_lt (show p < 2 ^ 8 by omega), Nat.mod_eq_of_lt (show q < 2 ^ 8 by omega), dig_3 ⟨p, hp⟩]
  simp only; omega

theorem decFrom_eq (a : Nat → UInt8) (buf ret : List UInt8) : decFrom a (base64 buf) ret = ret ++ buf := by
  have heq : (61 : UInt8) = code '=' := by decide
  fun_induction base64 buf generalizing a ret with
  | case1 => simp [decFrom, decLoop]
  | case2 x n =>
    have hx := x.toNat_lt
    unfold decFrom
    rw [decLoop_step _ (by omega) _ _ (by omega), decLoop_step _ (by omega) _ _ (by omega), decLoop, if_neg (by simp [heq])]
    simp
    refine unpack0 _ (n / 64) (n % 64) (by omega) (by omega) ?_ ?_ x (by omega)
    · simp [zeroFrom, put]; exact (digit_ok' _ (by omega)).2.2
    · simp [zeroFrom, put]; exact (digit_ok' _ (by omega)).2.2
  | case3 x y n =>
    have hx := x.toNat_lt
    have hy := y.toNat_lt
    unfold decFrom
    rw [decLoop_step _ (by omega) _ _ (by omega), decLoop_step _ (by omega) _ _ (by omega), decLoop_step _ (by omega) _ _ (by omega), decLoop,
      if_neg (by simp [heq])]
    simp [List.range_succ]
    constructor
    · refine unpack0 _ (n / 64 / 64) (n / 64 % 64) (by omega) (by omega) ?_ ?_ x (by omega)
      · simp [zeroFrom, put]; exact (digit_ok' _ (by omega)).2.2
      · simp [zeroFrom, put]; exact (digit_ok' _ (by omega)).2.2
    · refine unpack1 _ (n / 64 % 64) (n % 64) (by omega) (by omega) ?_ ?_ y (by omega)
      · simp [zeroFrom, put]; exact (digit_ok' _ (by omega)).2.2
      · simp [zeroFrom, put]; exact (digit_ok' _ (by omega)).2.2
  | case4 x y z r n ih =>
    have hx := x.toNat_lt
    have hy := y.toNat_lt
    have hz := z.toNat_lt
    have h3 := digit_ok' (n % 64) (by omega)
    unfold decFrom
    rw [decLoop_step _ (by omega) _ _ (by omega), decLoop_step _ (by omega) _ _ (by omega), decLoop_step _ (by omega) _ _ (by omega), decLoop,
      if_pos ⟨h3.1, h3.2.1⟩]
    simp only [Nat.reduceAdd, if_true]
    generalize hA : (fun j => if j < 4 then find (put (put (put (put a 0 (digit (n / 64 / 64 / 64))) 1 (digit (n / 64 / 64 % 64))) 2 (digit (n / 64 % 64))) 3 (digit (n % 64)) j)
      else put (put (put (put a 0 (digit (n / 64 / 64 / 64))) 1 (digit (n / 64 / 64 % 64))) 2 (digit (n / 64 % 64))) 3 (digit (n % 64)) j) = A
    have A0 : A 0 = UInt8.ofNat (n / 64 / 64 / 64) := by
      rw [← hA]; simp [put]; exact (digit_ok' _ (by omega)).2.2
    have A1 : A 1 = UInt8.ofNat (n / 64 / 64 % 64) := by
      rw [← hA]; simp [put]; exact (digit_ok' _ (by omega)).2.2
    have A2 : A 2 = UInt8.ofNat (n / 64 % 64) := by
      rw [← hA]; simp [put]; exact (digit_ok' _ (by omega)).2.2
    have A3 : A 3 = UInt8.ofNat (n % 64) := by
      rw [← hA]; simp [put]; exact (digit_ok' _ (by omega)).2.2
    rw [unpack0 A _ _ (by omega) (by omega) A0 A1 x (by omega), unpack1 A _ _ (by omega) (by omega) A1 A2 y (by omega),
      unpack2 A _ _ (by omega) (by omega) A2 A3 z (by omega)]
    have := ih A (ret ++ [x, y, z])
    unfold decFrom at this
    refine Eq.trans this (by simp)

theorem base64_length (buf : List UInt8) : (base64 buf).length = 4 * ((buf.length + 2) / 3) := by
  fun_induction base64 buf with
  | case1 => rfl
  | case2 => simp
  | case3 => simp
  | case4 x y z r n ih => simp only [List.length_cons, ih]; omega

/-- **C39.**  Decoding the encoding of any byte sequence gives back the sequence (as long as the encoding has less than `2^31` characters, the range of the
`int` used for its length), whatever the uninitialised local arrays contain. -/
theorem C39_roundtrip (a a' : Nat → UInt8) (buf : List UInt8) (h : 4 * ((buf.length + 2) / 3) < 2 ^ 31) :
    ∃ s, encode a buf = some s ∧ decode a' s = some buf := by
  refine ⟨_, C39_encode a buf, ?_⟩
  unfold decode
  rw [if_pos (by rw [base64_length]; exact h)]
  have := decFrom_eq a' buf []
  rw [List.nil_append] at this
  refine Eq.trans ?_ (congrArg some this)
  unfold decFrom
  generalize decLoop (base64 buf) 0 a' [] = q
  obtain ⟨i, b, r⟩ := q
  simp only
  split <;> rfl

/-- **C39, alphabet.**  The encoding of `n` bytes has `4 ⌈n/3⌉` characters: characters of the alphabet, then at most two `=`. -/
theorem C39_alphabet (a : Nat → UInt8) (buf : List UInt8) :
    ∃ (ds : List Nat) (pad : Nat), encode a buf = some (ds.map digit ++ List.replicate pad 61) ∧ (∀ d ∈ ds, d < 64) ∧ pad ≤ 2 ∧
      ds.length + pad = 4 * ((buf.length + 2) / 3) := by
  have key : ∃ (ds : List Nat) (pad : Nat), base64 buf = ds.map digit ++ List.replicate pad 61 ∧ (∀ d ∈ ds, d < 64) ∧ pad ≤ 2 := by
    fun_induction base64 buf with
    | case1 => exact ⟨[], 0, rfl, by simp, by omega⟩
    | case2 x n =>
      have := x.toNat_lt
      exact ⟨[n / 64, n % 64], 2, rfl, by intro d hd; simp at hd; omega, by omega⟩
    | case3 x y n =>
      have := x.toNat_lt
      have := y.toNat_lt
      exact ⟨[n / 64 / 64, n / 64 % 64, n % 64], 1, rfl, by intro d hd; simp at hd; omega, by omega⟩
    | case4 x y z r n ih =>
      have := x.toNat_lt
      have := y.toNat_lt
      have := z.toNat_lt
      obtain ⟨ds, pad, h1, h2, h3⟩ := ih
      refine ⟨n / 64 / 64 / 64 :: n / 64 / 64 % 64 :: n / 64 % 64 :: n % 64 :: ds, pad, by rw [h1]; rfl, ?_, h3⟩
      intro d hd
      simp only [List.mem_cons] at hd
      rcases hd with h | h | h | h | h
      · omega
      · omega
      · omega
      · omega
      · exact h2 d h
  obtain ⟨ds, pad, h1, h2, h3⟩ := key
  refine ⟨ds, pad, by rw [C39_encode, h1], h2, h3, ?_⟩
  rw [← base64_length, h1]; simp

/-- "Man" gives "TWFu", "Ma" gives "TWE=". -/
example (a : Nat → UInt8) : encode a [77, 97, 110] = some [84, 87, 70, 117] ∧ encode a [77, 97] = some [84, 87, 69, 61] := by
  rw [C39_encode, C39_encode]; decide

/-- The pieces of a string: what is left between delimiters, without empty pieces. -/
def pieces (isDelim : UInt8 → Bool) (s : List UInt8) : List (List UInt8) := (s.splitOnP isDelim).filter (fun t => !t.isEmpty)

theorem pieces_nil (d : UInt8 → Bool) : pieces d [] = [] := by simp [pieces]

theorem pieces_delim (d : UInt8 → Bool) (c : UInt8) (s : List UInt8) (h : d c = true) : pieces d (c :: s) = pieces d s := by
  simp [pieces, List.splitOnP_cons_eq_if_modifyHead, h]

theorem pieces_dropWhile (d : UInt8 → Bool) (s : List UInt8) : pieces d s = pieces d (s.dropWhile d) := by
  induction s with
  | nil => rfl
  | cons c s ih =>
    by_cases h : d c = true
    · rw [pieces_delim d c s h, ih, List.dropWhile_cons_of_pos h]
    · rw [List.dropWhile_cons_of_neg h]

theorem pieces_word (d : UInt8 → Bool) (u r : List UInt8) (hu : u ≠ []) (hd : ∀ c ∈ u, d c = false) (hr : ∀ c r', r = c :: r' → d c = true) :
    pieces d (u ++ r) = u :: pieces d r := by
  have hu' : u.isEmpty = false := by cases u with
    | nil => exact absurd rfl hu
    | cons => rfl
  cases r with
  | nil => simp [pieces, List.splitOnP_eq_singleton hd, hu']
  | cons c r =>
    have hc := hr c r rfl
    rw [pieces_delim d c r hc]
    simp [pieces, List.splitOnP_append_cons_of_forall_mem hd c hc, hu']

theorem findFrom_none (p : UInt8 → Bool) (s : List UInt8) (k : Nat) (h : findFrom p s (some k) = none) : ∀ c ∈ s.drop k, p c = false := by
  simp only [findFrom, Option.map_eq_none_iff, List.findIdx?_eq_none_iff] at h
  exact h

theorem findFrom_some (p : UInt8 → Bool) (s : List UInt8) (k e : Nat) (h : findFrom p s (some k) = some e) :
    k ≤ e ∧ e < s.length ∧ (∀ c ∈ (s.drop k).take (e - k), p c = false) ∧ ∃ c r, s.drop e = c :: r ∧ p c = true := by
  simp only [findFrom, Option.map_eq_some_iff] at h
  obtain ⟨i, hi, rfl⟩ := h
  rw [List.findIdx?_eq_some_iff_getElem] at hi
  obtain ⟨hlt, hp, hbef⟩ := hi
  have hlen : i + k < s.length := by rw [List.length_drop] at hlt; omega
  refine ⟨by omega, hlen, ?_, ?_⟩
  · intro c hc
    rw [Nat.add_sub_cancel, List.mem_take_iff_getElem] at hc
    obtain ⟨j, hj, rfl⟩ := hc
    have := hbef j (by omega)
    simpa using this
  · refine ⟨(s.drop k)[i], s.drop (i + k + 1), ?_, hp⟩
    rw [List.getElem_drop, List.drop_eq_getElem_cons hlen]
    simp [Nat.add_comm]

theorem splitLoop_eq (delims s : List UInt8) (f : Nat) (k : Nat) (l : List (List UInt8)) (hf : s.length + 2 ≤ f + k) (hk : k ≤ s.length) :
    splitLoop delims s f (findFrom (fun c => !delims.contains c) s (some k))
      (findFrom (fun c => delims.contains c) s (findFrom (fun c => !delims.contains c) s (some k))) l =
      some (l ++ pieces (fun c => delims.contains c) (s.drop k)) := by
  induction f generalizing k l with
  | zero => omega
  | succ f ih =>
    cases he : findFrom (fun c => !delims.contains c) s (some k) with
    | none =>
      have hall := findFrom_none _ s k he
      have hdrop : (s.drop k).dropWhile (fun c => delims.contains c) = [] := by
        rw [List.dropWhile_eq_nil_iff]
        intro c hc
        have := hall c hc
        simpa using this
      rw [pieces_dropWhile, hdrop, pieces_nil]
      simp [splitLoop, findFrom]
    | some e =>
      obtain ⟨hke, hes, hbef, c0, r0, hdr, hc0⟩ := findFrom_some _ s k e he
      have hsplit : s.drop k = (s.drop k).take (e - k) ++ s.drop e := by
        have := (List.take_append_drop (e - k) (s.drop k)).symm
        rw [List.drop_drop, show k + (e - k) = e by omega] at this
        exact this
      have hpk : pieces (fun c => delims.contains c) (s.drop k) = pieces (fun c => delims.contains c) (s.drop e) := by
        rw [hsplit]
        generalize (s.drop k).take (e - k) = u at hbef
        clear hsplit
        induction u with
        | nil => rfl
        | cons x u ihu =>
          rw [List.cons_append, pieces_delim _ x _ (by have := hbef x (by simp); simpa using this)]
          exact ihu (fun c hc => hbef c (List.mem_cons_of_mem _ hc))
      cases hp : findFrom (fun c => delims.contains c) s (some e) with
      | none =>
        have hall := findFrom_none _ s e hp
        rw [splitLoop, if_pos (Or.inr (by simp))]
        simp only [substr, findFrom]
        cases f with
        | zero => omega
        | succ f =>
          rw [splitLoop, if_neg (by simp), hpk]
          have := pieces_word (fun c => delims.contains c) (s.drop e) [] (by rw [hdr]; simp) hall (by intro c r' h; cases h)
          rw [List.append_nil, pieces_nil] at this
          rw [this]
      | some p =>
        obtain ⟨hep, hps, hbef2, c1, r1, hdr1, hc1⟩ := findFrom_some _ s e p hp
        have hne : e ≠ p := by
          rintro rfl
          rw [hdr] at hdr1
          injection hdr1 with h1 h2
          subst h1
          simp only [hc1] at hc0
          cases hc0
        rw [splitLoop, if_pos (Or.inr (by simp))]
        simp only [substr]
        rw [ih p _ (by omega) (by omega), hpk]
        have hsplit2 : s.drop e = (s.drop e).take (p - e) ++ s.drop p := by
          have := (List.take_append_drop (p - e) (s.drop e)).symm
          rw [List.drop_drop, show e + (p - e) = p by omega] at this
          exact this
        have hw := pieces_word (fun c => delims.contains c) ((s.drop e).take (p - e)) (s.drop p) (by
            rw [hdr]; obtain ⟨q, hq⟩ : ∃ q, p - e = q + 1 := ⟨p - e - 1, by omega⟩
            rw [hq]; simp) hbef2 (by
            intro c r' h
            rw [hdr1] at h
            injection h with h1 h2
            subst h1
            exact hc1)
        rw [← hsplit2] at hw
        rw [hw]
        simp

/-- **C40.**  For all strings and all sets of delimiters `split_string` ends without an exception and appends the maximal non-empty pieces of the string
without delimiters, in their order. -/
theorem C40_split (s delims : List UInt8) (l : List (List UInt8)) :
    splitString s l delims = some (l ++ (s.splitOnP (fun c => delims.contains c)).filter (fun t => !t.isEmpty)) := by
  have := splitLoop_eq delims s (s.length + 2) 0 l (by omega) (by omega)
  rw [List.drop_zero] at this
  exact this

/-- Splitting ";ab;;c" at ';'. -/
example : splitString [59, 97, 98, 59, 59, 99] [] [59] = some [[97, 98], [99]] := by decide

end Verif.Text
