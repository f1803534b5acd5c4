import Verif.Record.Model
import Mathlib.Data.List.Basic
import Mathlib.Algebra.BigOperators.Group.List.Basic

/-!
# C35: variables stored to flat arrays are read back unchanged
-/

namespace Verif.Record

variable {K : Type}

/-- What is stored for a variable. -/
def image (x : Var K) : Buf K := (x.entries.length, x.value) :: x.entries

theorem image_length (x : Var K) : (image x).length = recordSize x := by simp [image, recordSize]; omega

theorem recordLoop_spec (pre mid post : Buf K) (es : List (Nat × K)) (hm : mid.length = es.length) :
    recordLoop (pre ++ mid ++ post) pre.length es = some (pre ++ es ++ post, pre.length + es.length) := by
  induction es generalizing pre mid with
  | nil => rw [List.length_eq_zero_iff.1 hm]; simp [recordLoop]
  | cons e es ih =>
    cases mid with
    | nil => simp at hm
    | cons m mid =>
      rw [recordLoop, write, if_pos (by simp)]
      have : (pre ++ m :: mid ++ post).set pre.length e = (pre ++ [e]) ++ mid ++ post := by
        simp [List.set_append]
      simp only [this]
      have h := ih (pre ++ [e]) mid (by simpa using hm)
      simp only [List.length_append, List.length_cons, List.length_nil, zero_add] at h
      rw [h]
      simp; omega

theorem record_spec (pre mid post : Buf K) (x : Var K) (hm : mid.length = recordSize x) :
    record (pre ++ mid ++ post) pre.length x = some (pre ++ image x ++ post, recordSize x) := by
  cases mid with
  | nil => simp [recordSize] at hm; omega
  | cons m mid =>
    rw [record, write, if_pos (by simp)]
    have : (pre ++ m :: mid ++ post).set pre.length (x.entries.length, x.value) =
        (pre ++ [(x.entries.length, x.value)]) ++ mid ++ post := by simp [List.set_append]
    simp only [this]
    have h := recordLoop_spec (pre ++ [(x.entries.length, x.value)]) mid post x.entries
      (by simp [recordSize] at hm; omega)
    simp only [List.length_append, List.length_cons, List.length_nil, zero_add] at h
    rw [h]
    simp only [Option.some.injEq, Prod.mk.injEq]
    refine ⟨by simp [image], by simp [recordSize]; omega⟩

theorem retrieveLoop_spec (pre es post : Buf K) :
    retrieveLoop (pre ++ es ++ post) pre.length es.length = some es := by
  induction es generalizing pre with
  | nil => rfl
  | cons e es ih =>
    rw [List.length_cons, retrieveLoop]
    have h : (pre ++ e :: es ++ post)[pre.length]? = some e := by simp
    rw [h]
    have := ih (pre ++ [e])
    simp only [List.append_assoc, List.cons_append, List.nil_append, List.length_append, List.length_cons,
      List.length_nil, zero_add] at this ⊢
    rw [this]

theorem retrieve_spec (pre post : Buf K) (x : Var K) :
    retrieve (pre ++ image x ++ post) pre.length = some (x, recordSize x) := by
  rw [retrieve]
  have h : (pre ++ image x ++ post)[pre.length]? = some (x.entries.length, x.value) := by simp [image]
  rw [h]
  have := retrieveLoop_spec (pre ++ [(x.entries.length, x.value)]) x.entries post
  simp only [List.append_assoc, List.cons_append, List.nil_append, List.length_append, List.length_cons,
    List.length_nil, zero_add] at this
  simp only [image, List.append_assoc, List.cons_append, this]
  rfl

theorem split_at (b : Buf K) (p n : Nat) (h : p + n ≤ b.length) :
    ∃ pre mid post, b = pre ++ mid ++ post ∧ pre.length = p ∧ mid.length = n := by
  refine ⟨b.take p, (b.drop p).take n, (b.drop p).drop n, by simp, by simp; omega, by simp; omega⟩

/-- **C35, one variable.**  In any buffer with room for `RecordSize` elements from the position `p` on, `Record` writes exactly
these elements and nothing else, and `Retrieve` (and `RetrieveSize`) from the same position gives back
the variable and the same number of elements. -/
theorem C35_record_retrieve (b : Buf K) (p : Nat) (x : Var K) (h : p + recordSize x ≤ b.length) :
    ∃ b', record b p x = some (b', recordSize x) ∧ retrieve b' p = some (x, recordSize x) ∧
      retrieveSize b' p = some (recordSize x) ∧ b'.length = b.length ∧
      ∀ q, q < p ∨ p + recordSize x ≤ q → b'[q]? = b[q]? := by
  obtain ⟨pre, mid, post, rfl, rfl, hm⟩ := split_at b p _ h
  refine ⟨pre ++ image x ++ post, record_spec pre mid post x hm, retrieve_spec pre post x, ?_, ?_, ?_⟩
  · rw [retrieveSize]
    have : (pre ++ image x ++ post)[pre.length]? = some (x.entries.length, x.value) := by simp [image]
    rw [this]; rfl
  · simp [image_length, hm]
  · intro q hq
    rcases hq with hq | hq
    · rw [List.append_assoc, List.append_assoc, List.getElem?_append_left hq, List.getElem?_append_left hq]
    · have h1 : (pre ++ image x).length ≤ q := by simp [image_length]; omega
      have h2 : (pre ++ mid).length ≤ q := by simp [hm]; omega
      rw [List.getElem?_append_right h1, List.getElem?_append_right h2]
      simp [image_length, hm]

theorem getData_spec (vars : List (Var K)) (pre mid post : Buf K) (a : List (Var K)) (ys : List (Var K)) (c : List (Var K))
    (hv : vars = a ++ ys ++ c) (hm : mid.length = dataCapacity ys) :
    getData vars a.length (pre ++ mid ++ post) pre.length ys.length =
      some (pre ++ (ys.map image).flatten ++ post, pre.length + dataCapacity ys) := by
  induction ys generalizing pre mid a with
  | nil =>
    simp only [dataCapacity, List.map_nil, List.sum_nil] at hm
    rw [List.length_eq_zero_iff.1 hm]; simp [getData, dataCapacity]
  | cons y ys ih =>
    rw [List.length_cons, getData]
    have hy : vars[a.length]? = some y := by rw [hv]; simp
    rw [hy]
    have hcap : dataCapacity (y :: ys) = recordSize y + dataCapacity ys := by simp [dataCapacity]
    rw [hcap] at hm
    have hsplit : pre ++ mid ++ post = pre ++ mid.take (recordSize y) ++ (mid.drop (recordSize y) ++ post) := by
      rw [List.append_assoc pre, List.append_assoc pre, ← List.append_assoc (mid.take _), List.take_append_drop]
    simp only [hsplit]
    rw [record_spec pre (mid.take (recordSize y)) _ y (by simp; omega)]
    simp only
    have := ih (pre ++ image y) (mid.drop (recordSize y)) (a ++ [y]) (by rw [hv]; simp) (by simp; omega)
    simp only [List.length_append, image_length, List.length_cons, List.length_nil, zero_add, List.append_assoc] at this ⊢
    rw [this]
    simp [hcap]; omega

theorem setData_spec (vars : List (Var K)) (pre post : Buf K) (a old ys : List (Var K)) (c : List (Var K))
    (hv : vars = a ++ old ++ c) (hlen : old.length = ys.length) :
    setData vars a.length (pre ++ (ys.map image).flatten ++ post) pre.length ys.length =
      some (a ++ ys ++ c, pre.length + dataCapacity ys) := by
  induction ys generalizing pre a old vars with
  | nil => rw [hv, List.length_eq_zero_iff.1 hlen]; simp [setData, dataCapacity]
  | cons y ys ih =>
    cases old with
    | nil => simp at hlen
    | cons o old =>
      rw [List.length_cons, setData]
      have hsplit : pre ++ ((y :: ys).map image).flatten ++ post = pre ++ image y ++ ((ys.map image).flatten ++ post) := by simp
      rw [hsplit, retrieve_spec]
      simp only
      rw [if_pos (by rw [hv]; simp)]
      have hset : vars.set a.length y = (a ++ [y]) ++ old ++ c := by rw [hv]; simp [List.set_append]
      have := ih ((a ++ [y]) ++ old ++ c) (pre ++ image y) (a ++ [y]) old rfl (by simpa using hlen)
      simp only [List.length_append, image_length, List.length_cons, List.length_nil, zero_add, List.append_assoc] at this ⊢
      rw [hset]
      simp only [List.append_assoc]
      rw [this]
      simp [dataCapacity]; omega

theorem bufCapacity_spec (pre post : Buf K) (ys : List (Var K)) :
    bufCapacity (pre ++ (ys.map image).flatten ++ post) pre.length ys.length = some (pre.length + dataCapacity ys) := by
  induction ys generalizing pre with
  | nil => simp [bufCapacity, dataCapacity]
  | cons y ys ih =>
    rw [List.length_cons, bufCapacity, retrieveSize]
    have h : (pre ++ ((y :: ys).map image).flatten ++ post)[pre.length]? = some (y.entries.length, y.value) := by simp [image]
    rw [h]
    simp only
    have := ih (pre ++ image y)
    simp only [List.length_append, image_length, List.map_cons, List.flatten_cons, List.append_assoc] at this ⊢
    have e : 1 + y.entries.length = recordSize y := rfl
    rw [e, this]
    simp [dataCapacity]; omega

/-- **C35, data of a tag.**  `GetData` of `size` variables from `shift` on, into a buffer with at least `GetDataCapacity` elements from
the position `p` on, followed by `SetData` from the same buffer into any array of variables (of the same or
another element) at the same or another shift, copies these variables and leaves all other variables as they
were.  The size computed from the buffer alone is the size computed from the variables. -/
theorem C35_getData_setData (a ys c a' old c' : List (Var K)) (b : Buf K) (p : Nat)
    (hb : p + dataCapacity ys ≤ b.length) (hlen : old.length = ys.length) :
    ∃ b', getData (a ++ ys ++ c) a.length b p ys.length = some (b', p + dataCapacity ys) ∧
      bufCapacity b' p ys.length = some (p + dataCapacity ys) ∧
      setData (a' ++ old ++ c') a'.length b' p ys.length = some (a' ++ ys ++ c', p + dataCapacity ys) := by
  obtain ⟨pre, mid, post, rfl, rfl, hm⟩ := split_at b p _ hb
  exact ⟨_, getData_spec _ pre mid post a ys c rfl hm, bufCapacity_spec pre post ys,
    setData_spec _ pre post a' old ys c' rfl hlen⟩

/-- Non-vacuity: a variable with two derivatives, stored in the middle of a larger buffer. -/
example : 3 + recordSize (⟨7, [(4, 1), (2, 5)]⟩ : Var Int) ≤ ([(0, 0), (1, 0), (2, 0), (3, 0), (4, 0), (5, 0), (6, 0)] : Buf Int).length ∧
    (record ([(0, 0), (1, 0), (2, 0), (3, 0), (4, 0), (5, 0), (6, 0)] : Buf Int) 3 ⟨7, [(4, 1), (2, 5)]⟩).map (·.1) =
      some [(0, 0), (1, 0), (2, 0), (2, 7), (4, 1), (2, 5), (6, 0)] := by decide

end Verif.Record
