import Mathlib.Data.List.Basic
import Mathlib.Algebra.Order.Group.Nat
import Mathlib.Tactic.NormNum

/-!
Packing of values to messages, `pack_data`, `pack_data_array`, `pack_data_vector`, their sizes and the
functions that unpack, parallel.cpp L121-274. Arithmetic of sizes is without overflow (`rec_bytes*N` is
taken to be below 2^64, and the size of a chunk to be within `INT_MAX`, as the source says it expects).
The size of the buffer given to `MPI_Unpack` may be larger than what is left of it; the library is taken
to read only the packed values.
-/

namespace Verif.PackData

/-- The library: an upper bound for the size of `n` packed values (`MPI_Pack_size`), the bytes of
packed values (`MPI_Pack`), and the values found in a buffer together with the number of bytes read
(`MPI_Unpack`, with the size of the buffer and the number of values; `none` is an error, after which
the program is aborted). -/
structure Lib (T : Type) where
  size : Nat → Nat
  pack : List T → List UInt8
  unpack : List UInt8 → Nat → Nat → Option (List T × Nat)

/-- `INT_MAX`. -/
def intMax : Nat := 2147483647

variable {T : Type}

/-- Reserve `pack_size` bytes, pack, cut to the bytes written, L164-172 and L126-132; `none` if the
values do not fit. -/
def packCall (M : Lib T) (buf : List UInt8) (l : List T) : Option (List UInt8) :=
  if (M.pack l).length ≤ M.size l.length then some (buf ++ M.pack l) else none

/-- `pack_data`, L121-133. -/
def packData (M : Lib T) (buf : List UInt8) (x : T) : Option (List UInt8) := packCall M buf [x]

/-- `chunk_size`, L154-160, L195-201, L243-249. -/
def chunkSize (M : Lib T) (n : Nat) : Nat := min (M.size 1 * n) intMax / M.size 1

/-- The loop L161-174; the list has the values from `offset`. `none` also if the loop does not end. -/
def packLoop (M : Lib T) (cs : Nat) : Nat → List T → List UInt8 → Option (List UInt8)
  | _, [], buf => some buf
  | 0, _ :: _, _ => none
  | f + 1, l, buf =>
    match packCall M buf (l.take (min cs l.length)) with
    | none => none
    | some buf => packLoop M cs f (l.drop (min cs l.length)) buf

/-- `pack_data_array`, L148-176. -/
def packArray (M : Lib T) (buf : List UInt8) (l : List T) : Option (List UInt8) :=
  if l.length = 0 then some buf else packLoop M (chunkSize M l.length) l.length l buf

/-- `pack_data_vector`, L179-186; `S` packs `size_t`, of 64 bits. -/
def packVector (S : Lib UInt64) (M : Lib T) (buf : List UInt8) (l : List T) : Option (List UInt8) :=
  match packData S buf (UInt64.ofNat l.length) with
  | none => none
  | some buf => if l = [] then some buf else packArray M buf l

/-- The loop of `pack_data_array_size`, L202-210, with the number of values that remain. -/
def sizeLoop (M : Lib T) (cs : Nat) : Nat → Nat → Option Nat
  | _, 0 => some 0
  | 0, _ + 1 => none
  | f + 1, n => (sizeLoop M cs f (n - min cs n)).map fun r => M.size (min cs n) + r

/-- `pack_data_vector_size`, L215-221, with `pack_data_size`, L135-145, and `pack_data_array_size`, L188-213. -/
def vectorSize (S : Lib UInt64) (M : Lib T) (n : Nat) : Option Nat :=
  if n = 0 then some (S.size 1) else (sizeLoop M (chunkSize M n) n n).map fun r => S.size 1 + r

/-- `unpack_data`, L224-234: the value and the new position. -/
def unpackData (M : Lib T) (buf : List UInt8) (pos : Nat) : Option (T × Nat) :=
  match M.unpack (buf.drop pos) (M.size 1) 1 with
  | some ([x], shift) => some (x, pos + shift)
  | _ => none

/-- The loop L250-261, with the number of values that remain. -/
def unpackLoop (M : Lib T) (cs : Nat) (buf : List UInt8) : Nat → Nat → Nat → Option (List T × Nat)
  | _, 0, pos => some ([], pos)
  | 0, _ + 1, _ => none
  | f + 1, n, pos =>
    match M.unpack (buf.drop pos) (M.size (min cs n)) (min cs n) with
    | none => none
    | some (l, shift) => (unpackLoop M cs buf f (n - min cs n) (pos + shift)).map fun r => (l ++ r.1, r.2)

/-- `unpack_data_array`, L237-263. -/
def unpackArray (M : Lib T) (buf : List UInt8) (pos n : Nat) : Option (List T × Nat) :=
  if n = 0 then some ([], pos) else unpackLoop M (chunkSize M n) buf n n pos

/-- `unpack_data_vector`, L265-274. -/
def unpackVector (S : Lib UInt64) (M : Lib T) (buf : List UInt8) (pos : Nat) : Option (List T × Nat) :=
  match unpackData S buf pos with
  | none => none
  | some (n, pos) => if n.toNat = 0 then some ([], pos) else unpackArray M buf pos n.toNat

/-! ## Specification -/

/-- What the standard says of the library: packed values fit in the announced size, and are found
again at the beginning of any buffer that starts with them. One value takes at least a byte and no
more than `INT_MAX` bytes. -/
structure Conforms (M : Lib T) : Prop where
  fits : ∀ l, (M.pack l).length ≤ M.size l.length
  back : ∀ l rest, M.unpack (M.pack l ++ rest) (M.size l.length) l.length = some (l, (M.pack l).length)
  some_byte : 1 ≤ M.size 1
  not_large : M.size 1 ≤ intMax

/-- Pack vectors one after another. -/
def packAll (S : Lib UInt64) (M : Lib T) : List UInt8 → List (List T) → Option (List UInt8)
  | buf, [] => some buf
  | buf, l :: r => (packVector S M buf l).bind fun buf => packAll S M buf r

/-- Unpack the given number of vectors. -/
def unpackAll (S : Lib UInt64) (M : Lib T) (buf : List UInt8) : Nat → Nat → Option (List (List T) × Nat)
  | 0, pos => some ([], pos)
  | n + 1, pos => (unpackVector S M buf pos).bind fun v => (unpackAll S M buf n v.2).map fun r => (v.1 :: r.1, r.2)

/-! ## Lemmas -/

theorem chunk_pos (M : Lib T) (c : Conforms M) (n : Nat) (h : 1 ≤ n) : 1 ≤ chunkSize M n := by
  unfold chunkSize
  rw [Nat.le_div_iff_mul_le (by have := c.some_byte; omega), Nat.one_mul]
  refine le_min ?_ c.not_large
  calc M.size 1 = M.size 1 * 1 := by omega
    _ ≤ M.size 1 * n := Nat.mul_le_mul_left _ h

theorem loop_back (M : Lib T) (c : Conforms M) (cs : Nat) (hcs : 1 ≤ cs) : ∀ (f : Nat) (l : List T) (buf : List UInt8), l.length ≤ f →
    ∃ bytes, packLoop M cs f l buf = some (buf ++ bytes) ∧
      (∀ rest, unpackLoop M cs (buf ++ bytes ++ rest) f l.length buf.length = some (l, (buf ++ bytes).length)) ∧
      ∃ n, sizeLoop M cs f l.length = some n ∧ bytes.length ≤ n := by
  intro f
  induction f with
  | zero =>
    intro l buf h
    obtain rfl := List.length_eq_zero_iff.1 (Nat.le_zero.1 h)
    exact ⟨[], by simp [packLoop], fun rest => by simp [unpackLoop], 0, by simp [sizeLoop], by simp⟩
  | succ f ih =>
    intro l buf h
    cases l with
    | nil => exact ⟨[], by simp [packLoop], fun rest => by simp [unpackLoop], 0, by simp [sizeLoop], by simp⟩
    | cons a r =>
      have hlen : (a :: r).length = r.length + 1 := rfl
      have ht : ((a :: r).take (min cs (a :: r).length)).length = min cs (a :: r).length := by rw [List.length_take]; omega
      obtain ⟨bytes, e1, e2, n, e3, e4⟩ := ih ((a :: r).drop (min cs (a :: r).length)) (buf ++ M.pack ((a :: r).take (min cs (a :: r).length)))
        (by rw [List.length_drop]; omega)
      have hfit := c.fits ((a :: r).take (min cs (a :: r).length))
      rw [List.length_drop] at e2 e3
      refine ⟨M.pack ((a :: r).take (min cs (a :: r).length)) ++ bytes, ?_, fun rest => ?_, M.size (min cs (a :: r).length) + n, ?_, ?_⟩
      · rw [← List.append_assoc, ← e1]
        simp only [packLoop, packCall]
        rw [if_pos hfit]
      · have hb := c.back ((a :: r).take (min cs (a :: r).length)) (bytes ++ rest)
        rw [ht] at hb
        have hd : (buf ++ (M.pack ((a :: r).take (min cs (a :: r).length)) ++ bytes) ++ rest).drop buf.length =
            M.pack ((a :: r).take (min cs (a :: r).length)) ++ (bytes ++ rest) := by
          rw [List.append_assoc, List.drop_left, List.append_assoc]
        have e2' := e2 rest
        rw [List.length_append, List.append_assoc buf] at e2'
        rw [hlen] at *
        simp only [unpackLoop]
        rw [hd, hb]
        simp only
        rw [e2']
        simp only [Option.map_some, List.take_append_drop, List.length_append]
      · rw [hlen] at *
        simp only [sizeLoop]
        rw [e3]
        rfl
      · rw [List.length_append]
        rw [ht] at hfit
        omega

theorem array_back (M : Lib T) (c : Conforms M) (l : List T) (h : l ≠ []) (buf : List UInt8) :
    ∃ bytes, packArray M buf l = some (buf ++ bytes) ∧ (∀ rest, unpackArray M (buf ++ bytes ++ rest) buf.length l.length = some (l, (buf ++ bytes).length)) ∧
      ∃ n, sizeLoop M (chunkSize M l.length) l.length l.length = some n ∧ bytes.length ≤ n := by
  have hl : 1 ≤ l.length := List.length_pos_of_ne_nil h
  obtain ⟨bytes, e1, e2, e3⟩ := loop_back M c (chunkSize M l.length) (chunk_pos M c l.length hl) l.length l buf (le_refl _)
  refine ⟨bytes, ?_, fun rest => ?_, e3⟩
  · unfold packArray
    rw [if_neg (by omega), e1]
  · unfold unpackArray
    rw [if_neg (by omega), e2]

theorem vector_back (S : Lib UInt64) (M : Lib T) (cs : Conforms S) (c : Conforms M) (l : List T) (hsz : l.length < 2 ^ 64)
    (buf : List UInt8) :
    ∃ bytes, packVector S M buf l = some (buf ++ bytes) ∧ (∀ rest, unpackVector S M (buf ++ bytes ++ rest) buf.length = some (l, (buf ++ bytes).length)) ∧
      ∃ n, vectorSize S M l.length = some n ∧ bytes.length ≤ n := by
  have hn : (UInt64.ofNat l.length).toNat = l.length := by
    rw [UInt64.toNat_ofNat']
    exact Nat.mod_eq_of_lt hsz
  have hp : packData S buf (UInt64.ofNat l.length) = some (buf ++ S.pack [UInt64.ofNat l.length]) := by
    unfold packData packCall
    rw [if_pos (cs.fits _)]
  have hu : ∀ rest, unpackData S (buf ++ S.pack [UInt64.ofNat l.length] ++ rest) buf.length = some (UInt64.ofNat l.length, (buf ++ S.pack [UInt64.ofNat l.length]).length) := by
    intro rest
    unfold unpackData
    have := cs.back [UInt64.ofNat l.length] rest
    rw [List.length_singleton] at this
    rw [List.append_assoc, List.drop_left, this]
    simp
  by_cases h : l = []
  · subst h
    refine ⟨S.pack [UInt64.ofNat 0], ?_, fun rest => ?_, S.size 1, ?_, cs.fits [UInt64.ofNat 0]⟩
    · unfold packVector
      rw [hp]
      rfl
    · unfold unpackVector
      have := hu rest
      rw [List.length_nil] at this
      rw [this]
      rfl
    · rfl
  · have hl : l.length ≠ 0 := fun e => h (List.length_eq_zero_iff.1 e)
    obtain ⟨bytes, e1, e2, n, e3, e4⟩ := array_back M c l h (buf ++ S.pack [UInt64.ofNat l.length])
    refine ⟨S.pack [UInt64.ofNat l.length] ++ bytes, ?_, fun rest => ?_, S.size 1 + n, ?_, ?_⟩
    · unfold packVector
      rw [hp]
      simp only
      rw [if_neg h, e1, List.append_assoc]
    · unfold unpackVector
      have h1 := hu (bytes ++ rest)
      have h2 := e2 rest
      rw [← List.append_assoc] at h1
      rw [← List.append_assoc buf, h1]
      simp only
      rw [hn, if_neg hl, h2]
    · unfold vectorSize
      rw [if_neg hl, e3]
      rfl
    · rw [List.length_append]
      have := cs.fits [UInt64.ofNat l.length]
      rw [List.length_singleton] at this
      omega

/-! ## Properties -/

/-- C165: vectors packed one after another to a message are unpacked with the same values in the same
order, for any number and lengths of vectors, and the message is read up to the end of what was packed,
whatever comes before and after. -/
theorem C165_message (S : Lib UInt64) (M : Lib T) (cs : Conforms S) (c : Conforms M) : ∀ (ls : List (List T)) (buf : List UInt8),
    (∀ l ∈ ls, l.length < 2 ^ 64) → ∃ bytes, packAll S M buf ls = some (buf ++ bytes) ∧
      ∀ rest, unpackAll S M (buf ++ bytes ++ rest) ls.length buf.length = some (ls, (buf ++ bytes).length)
  | [], buf, _ => ⟨[], by simp [packAll], fun rest => by simp [unpackAll]⟩
  | l :: r, buf, hsz => by
    obtain ⟨b1, e1, e2, _⟩ := vector_back S M cs c l (hsz l (by simp)) buf
    obtain ⟨b2, f1, f2⟩ := C165_message S M cs c r (buf ++ b1) fun k hk => hsz k (List.mem_cons_of_mem _ hk)
    refine ⟨b1 ++ b2, ?_, fun rest => ?_⟩
    · simp only [packAll, e1, Option.bind_some, f1, List.append_assoc]
    · have h1 := e2 (b2 ++ rest)
      have h2 := f2 rest
      rw [← List.append_assoc] at h1
      simp only [List.length_cons, unpackAll]
      rw [← List.append_assoc buf, h1]
      simp only [Option.bind_some]
      rw [h2]
      rfl

/-- C165: the size that is announced for a vector is not less than the bytes it adds to the message. -/
theorem C165_size (S : Lib UInt64) (M : Lib T) (cs : Conforms S) (c : Conforms M) (l : List T) (hsz : l.length < 2 ^ 64) (buf : List UInt8) :
    ∃ buf' n, packVector S M buf l = some buf' ∧ vectorSize S M l.length = some n ∧ buf'.length ≤ buf.length + n := by
  obtain ⟨b, e1, _, n, e3, e4⟩ := vector_back S M cs c l hsz buf
  exact ⟨_, n, e1, e3, by rw [List.length_append]; omega⟩

/-- A library that packs bytes as they are, with four spare bytes in the announced size. -/
def bytesLib : Lib UInt8 := { size := fun n => n + 4, pack := fun l => l, unpack := fun b _ n => if n ≤ b.length then some (b.take n, n) else none }

/-- The hypotheses are met. -/
theorem bytes_conform : Conforms bytesLib :=
  ⟨fun l => by simp [bytesLib], fun l rest => by simp [bytesLib], by decide, by decide⟩

/-- The eight bytes of a number, the least first. -/
def enc (x : UInt64) : List UInt8 :=
  [0, 1, 2, 3, 4, 5, 6, 7].map fun i => UInt8.ofNat (x.toNat / 256 ^ i % 256)

/-- The number with the given bytes. -/
def dec (b : List UInt8) : UInt64 := UInt64.ofNat (b.foldr (fun d n => d.toNat + 256 * n) 0)

theorem dec_enc (x : UInt64) : dec (enc x) = x := by
  have hx : x.toNat < 18446744073709551616 := x.toNat_lt
  apply UInt64.toNat_inj.1
  simp only [dec, enc, List.map_cons, List.map_nil, List.foldr_cons, List.foldr_nil, UInt64.toNat_ofNat', UInt8.toNat_ofNat']
  norm_num
  omega

/-- Read the given number of numbers. -/
def decAll : Nat → List UInt8 → Option (List UInt64)
  | 0, _ => some []
  | n + 1, b => if b.length < 8 then none else (decAll n (b.drop 8)).map fun r => dec (b.take 8) :: r

/-- A library that packs numbers to eight bytes. -/
def sizeLib : Lib UInt64 :=
  { size := fun n => 8 * n
    pack := fun l => l.flatMap enc
    unpack := fun b _ n => (decAll n b).map fun l => (l, 8 * n) }

theorem pack_length (l : List UInt64) : (l.flatMap enc).length = 8 * l.length := by
  induction l with
  | nil => rfl
  | cons a r ih =>
    rw [List.flatMap_cons, List.length_append, ih, List.length_cons]
    have : (enc a).length = 8 := rfl
    omega

theorem decAll_pack (l : List UInt64) (rest : List UInt8) : decAll l.length (l.flatMap enc ++ rest) = some l := by
  induction l with
  | nil => rfl
  | cons a r ih =>
    have h8 : (enc a).length = 8 := rfl
    rw [List.flatMap_cons, List.append_assoc, List.length_cons, decAll, if_neg (by rw [List.length_append]; omega),
      List.drop_left' h8, List.take_left' h8, ih, dec_enc]
    rfl

/-- The hypotheses are met. -/
theorem size_conform : Conforms sizeLib :=
  ⟨fun l => (pack_length l).le, fun l rest => by simp only [sizeLib, decAll_pack, pack_length, Option.map_some], by decide, by decide⟩

/-- A message with three vectors, one of them empty. -/
example : ∃ bytes, packAll sizeLib bytesLib [9] [[1, 2, 3], [], [4]] = some ([9] ++ bytes) ∧
    ∀ rest, unpackAll sizeLib bytesLib ([9] ++ bytes ++ rest) 3 1 = some ([[1, 2, 3], [], [4]], ([9] ++ bytes).length) :=
  C165_message sizeLib bytesLib size_conform bytes_conform [[1, 2, 3], [], [4]] [9] (by simp)

/-- If a value takes more than `INT_MAX` bytes, no value is packed in a step and packing does not end: the hypothesis `not_large` is needed. -/
example : chunkSize ({ bytesLib with size := fun n => n * (intMax + 1) } : Lib UInt8) 3 = 0 := by decide +kernel

end Verif.PackData
