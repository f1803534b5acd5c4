import Mathlib.Logic.Function.Basic
import Mathlib.Tactic.ByContra
/-
The container `interval`, an array with a first index that is not zero, under `Sparse::Vector`, `Sparse::Matrix` and
`Sparse::LockService`: model and property C126.

`interval` (`Source/Headers/container.hpp`, lines 839-1012).

Simplifications.  A pointer is a block of the heap together with an offset, or NULL together with an offset: `parray` does not
point to the block but `beg_index` elements before it.  Pointers outside of a block are formed as in the code (which the C++
standard leaves undefined), but only using one is an error of the model.  `new` always finds memory.  Constructors of values and
copies of values do not fail.
-/

namespace Verif.Locks

/-- Number of values of `INMOST_DATA_ENUM_TYPE`, an unsigned type of 32 bits. -/
@[irreducible] def W : Nat := 2 ^ 32

/-- `ValType *`: block of the heap, if any, and offset. -/
structure Ptr where
  blk : Option Nat
  off : Int
deriving DecidableEq

/-- `interval` (container.hpp, lines 846-847). -/
structure Iv where
  ptr : Ptr
  beg : Nat
  fin : Nat
deriving DecidableEq

/-- Heap and variables of type `interval`. -/
structure Sys (A : Type) where
  mem : Nat → Option (List A)
  next : Nat
  var : Nat → Option Iv

/-- Calls of the user. -/
inductive Op (A : Type) where
  | make (v beg fin : Nat) (c : A)
  | copy (v w : Nat)
  | assign (v w : Nat)
  | swap (v w : Nat)
  | clear (v : Nat)
  | setBeg (v b : Nat)
  | setEnd (v e : Nat) (c : A)
  | put (v i : Nat) (x : A)
  | get (v i : Nat)
  | destroy (v : Nat)

section
variable {A : Type}

/-- The elements `[a, a+n)` seen from a pointer; reading outside of a living block is an error. -/
def readRange (mem : Nat → Option (List A)) (p : Ptr) (a n : Nat) : Option (List A) :=
  if n = 0 then some []
  else
    match p.blk with
    | none => none
    | some k =>
      match mem k with
      | none => none
      | some l =>
        if 0 ≤ p.off + a ∧ p.off + a + n ≤ l.length then some ((l.drop (p.off + a).toNat).take n) else none

/-- Write one element; writing outside of a living block is an error. -/
def writeAt (mem : Nat → Option (List A)) (p : Ptr) (i : Nat) (x : A) : Option (Nat → Option (List A)) :=
  match p.blk with
  | none => none
  | some k =>
    match mem k with
    | none => none
    | some l =>
      if 0 ≤ p.off + i ∧ p.off + i < l.length then
        some (Function.update mem k (some (l.set (p.off + i).toNat x)))
      else none

/-- `delete []`: the pointer must be the beginning of a living block. -/
def free (mem : Nat → Option (List A)) (p : Ptr) : Option (Nat → Option (List A)) :=
  match p.blk with
  | none => none
  | some k => if mem k = none ∨ p.off ≠ 0 then none else some (Function.update mem k none)

/-- `clear` (container.hpp, lines 849-854, 1011). -/
def clearIv (mem : Nat → Option (List A)) (iv : Iv) : Option ((Nat → Option (List A)) × Iv) :=
  if iv.beg ≠ iv.fin then
    match free mem ⟨iv.ptr.blk, iv.ptr.off + iv.beg⟩ with
    | none => none
    | some mem' => some (mem', ⟨⟨none, 0⟩, iv.beg, iv.beg⟩)
  else some (mem, ⟨⟨none, 0⟩, iv.beg, iv.beg⟩)

/-- A new array with given elements for an interval that begins with `b` (lines 889-896, 906-913, 930-937): the pointer is moved
back by `b`. -/
def newIv (s : Sys A) (v b : Nat) (l : List A) : Sys A :=
  ⟨Function.update s.mem s.next (some l), s.next + 1,
    Function.update s.var v (some ⟨⟨some s.next, -b⟩, b, b + l.length⟩)⟩

/-- An interval without elements (lines 898, 915). -/
def emptyIv (s : Sys A) (v b : Nat) : Sys A := { s with var := Function.update s.var v (some ⟨⟨none, 0⟩, b, b⟩) }

/-- `shift_interval` (lines 997-1003); indices are computed modulo 2^32. -/
def shiftIv (iv : Iv) (shift : Nat) : Iv :=
  let beg' := (iv.beg + shift) % W
  ⟨⟨iv.ptr.blk, iv.ptr.off + iv.beg - beg'⟩, beg', (iv.fin + shift) % W⟩

/-- One call; an error is `none`.  The second component is the value returned by `at`, `operator []`. -/
def call (s : Sys A) : Op A → Option (Sys A × Option A)
  -- lines 871-899; `new ValType[end-beg]` with `end < beg` asks for about 2^32 elements: error
  | .make v beg fin c =>
    match s.var v with
    | some _ => none
    | none =>
      if fin < beg then none
      else if beg ≠ fin then some (newIv s v beg (List.replicate (fin - beg) c), none)
      else some (emptyIv s v beg, none)
  -- lines 900-916
  | .copy v w =>
    match s.var v, s.var w with
    | none, some iw =>
      if iw.beg ≠ iw.fin then
        match readRange s.mem iw.ptr iw.beg (iw.fin - iw.beg) with
        | none => none
        | some l => some (newIv s v iw.beg l, none)
      else some (emptyIv s v iw.beg, none)
    | _, _ => none
  -- lines 921-941
  | .assign v w =>
    match s.var v, s.var w with
    | some iv, some iw =>
      if v = w then some (s, none)
      else
        match clearIv s.mem iv with
        | none => none
        | some (mem', _) =>
          if iw.beg ≠ iw.fin then
            match readRange mem' iw.ptr iw.beg (iw.fin - iw.beg) with
            | none => none
            | some l => some (newIv { s with mem := mem' } v iw.beg l, none)
          else some (emptyIv { s with mem := mem' } v iw.beg, none)
    | _, _ => none
  -- lines 855-870
  | .swap v w =>
    match s.var v, s.var w with
    | some iv, some iw =>
      some ({ s with var := Function.update (Function.update s.var v (some iw)) w (some iv) }, none)
    | _, _ => none
  -- lines 849-854
  | .clear v =>
    match s.var v with
    | none => none
    | some iv =>
      match clearIv s.mem iv with
      | none => none
      | some (mem', iv') => some ({ s with mem := mem', var := Function.update s.var v (some iv') }, none)
  -- lines 966-970
  | .setBeg v b =>
    match s.var v with
    | none => none
    | some iv =>
      some ({ s with var := Function.update s.var v (some (shiftIv iv ((b + W - iv.beg) % W))) }, none)
  -- lines 971-995
  | .setEnd v e c =>
    match s.var v with
    | none => none
    | some iv =>
      if e = iv.fin then some (s, none)
      else if iv.beg ≠ e then
        if e < iv.beg then none
        else
          let mend := min e iv.fin
          -- lines 976-981
          let k := s.next
          -- lines 984-989
          match (if iv.beg ≠ iv.fin then readRange s.mem iv.ptr iv.beg (mend - iv.beg) else some []) with
          | none => none
          | some old =>
            -- line 990: the elements between are the copied ones, if the interval was not empty
            let mem1 := Function.update s.mem k (some (old ++ List.replicate (e - mend) c))
            match clearIv mem1 iv with
            | none => none
            | some (mem2, iv') =>
              some (⟨mem2, s.next + 1, Function.update s.var v (some ⟨⟨some k, -iv.beg⟩, iv'.beg, e⟩)⟩, none)
      else
        match clearIv s.mem iv with
        | none => none
        | some (mem', iv') =>
          some ({ s with mem := mem', var := Function.update s.var v (some ⟨iv'.ptr, iv'.beg, e⟩) }, none)
  -- lines 942-947, 954-959
  | .put v i x =>
    match s.var v with
    | none => none
    | some iv =>
      if iv.beg ≤ i ∧ i < iv.fin then
        match writeAt s.mem iv.ptr i x with
        | none => none
        | some mem' => some ({ s with mem := mem' }, none)
      else none
  -- lines 948-953, 960-965
  | .get v i =>
    match s.var v with
    | none => none
    | some iv =>
      if iv.beg ≤ i ∧ i < iv.fin then
        match readRange s.mem iv.ptr i 1 with
        | some (x :: _) => some (s, some x)
        | _ => none
      else none
  -- lines 917-920
  | .destroy v =>
    match s.var v with
    | none => none
    | some iv =>
      match clearIv s.mem iv with
      | none => none
      | some (mem', _) => some ({ s with mem := mem', var := Function.update s.var v none }, none)

/-- A sequence of calls and the values returned. -/
def calls (s : Sys A) : List (Op A) → Option (Sys A × List A)
  | [] => some (s, [])
  | o :: os =>
    match call s o with
    | none => none
    | some (s', r) =>
      match calls s' os with
      | none => none
      | some (s'', rs) => some (s'', r.toList ++ rs)

/-- No variables, nothing on the heap. -/
def Sys.init : Sys A := ⟨fun _ => none, 0, fun _ => none⟩

/-! ### Specification: a variable is a first index and a list -/

/-- Variables as seen by the user. -/
abbrev Abs (A : Type) := Nat → Option (Nat × List A)

/-- What a call does and what it returns; `none` if the user may not call it: a variable that does not exist, one that already
exists, an index outside of the interval, an end before the beginning or beyond the numbers of 32 bits. -/
def want (σ : Abs A) : Op A → Option (Abs A × Option A)
  | .make v beg fin c =>
    if σ v = none ∧ beg ≤ fin ∧ fin < W then
      some (Function.update σ v (some (beg, List.replicate (fin - beg) c)), none)
    else none
  | .copy v w =>
    match σ w with
    | some q => if σ v = none then some (Function.update σ v (some q), none) else none
    | none => none
  | .assign v w =>
    match σ v, σ w with
    | some _, some q => some (Function.update σ v (some q), none)
    | _, _ => none
  | .swap v w =>
    match σ v, σ w with
    | some p, some q => some (Function.update (Function.update σ v (some q)) w (some p), none)
    | _, _ => none
  | .clear v =>
    match σ v with
    | some (b, _) => some (Function.update σ v (some (b, [])), none)
    | none => none
  | .setBeg v b =>
    match σ v with
    | some (_, l) => if b + l.length < W then some (Function.update σ v (some (b, l)), none) else none
    | none => none
  | .setEnd v e c =>
    match σ v with
    | some (b, l) =>
      if b ≤ e ∧ e < W then
        some (Function.update σ v (some (b, l.take (e - b) ++ List.replicate (e - b - l.length) c)), none)
      else none
    | none => none
  | .put v i x =>
    match σ v with
    | some (b, l) =>
      if b ≤ i ∧ i < b + l.length then some (Function.update σ v (some (b, l.set (i - b) x)), none) else none
    | none => none
  | .get v i =>
    match σ v with
    | some (b, l) => if b ≤ i ∧ i < b + l.length then some (σ, l[i - b]?) else none
    | none => none
  | .destroy v =>
    match σ v with
    | some _ => some (Function.update σ v none, none)
    | none => none

/-- A sequence of calls on the lists. -/
def wants (σ : Abs A) : List (Op A) → Option (Abs A × List A)
  | [] => some (σ, [])
  | o :: os =>
    match want σ o with
    | none => none
    | some (σ', r) =>
      match wants σ' os with
      | none => none
      | some (σ'', rs) => some (σ'', r.toList ++ rs)

/-! ### Proofs -/

/-- One variable of the code against one of the specification. -/
def RelV (mem : Nat → Option (List A)) : Option Iv → Option (Nat × List A) → Prop
  | none, none => True
  | some iv, some (b, l) => iv.beg = b ∧ iv.fin = b + l.length ∧ b + l.length < W ∧
      (l ≠ [] → ∃ k, iv.ptr = ⟨some k, -(b : Int)⟩ ∧ mem k = some l)
  | _, _ => False

/-- A variable owns a block. -/
def Owns (var : Nat → Option Iv) (v k : Nat) : Prop :=
  ∃ iv, var v = some iv ∧ iv.beg ≠ iv.fin ∧ iv.ptr.blk = some k

structure Rel (s : Sys A) (σ : Abs A) : Prop where
  var : ∀ v, RelV s.mem (s.var v) (σ v)
  uniq : ∀ v w k, Owns s.var v k → Owns s.var w k → v = w
  old : ∀ k, s.mem k ≠ none → k < s.next ∧ ∃ v, Owns s.var v k

/-- What is known about an existing variable. -/
theorem Rel.get {s : Sys A} {σ : Abs A} (h : Rel s σ) {v b : Nat} {l : List A} (e : σ v = some (b, l)) :
    ∃ iv, s.var v = some iv ∧ iv.beg = b ∧ iv.fin = b + l.length ∧ b + l.length < W ∧
      (l ≠ [] → ∃ k, iv.ptr = ⟨some k, -(b : Int)⟩ ∧ s.mem k = some l) := by
  have := h.var v
  rw [e] at this
  cases hv : s.var v with
  | none => rw [hv] at this; exact this.elim
  | some iv => rw [hv] at this; exact ⟨iv, rfl, this⟩

theorem Rel.getNone {s : Sys A} {σ : Abs A} (h : Rel s σ) {v : Nat} (e : σ v = none) : s.var v = none := by
  have := h.var v
  rw [e] at this
  cases hv : s.var v with
  | none => rfl
  | some iv => rw [hv] at this; exact this.elim

/-- The block of an owner is alive. -/
theorem Rel.alive {s : Sys A} {σ : Abs A} (h : Rel s σ) {v k : Nat} (ho : Owns s.var v k) :
    ∃ b l, σ v = some (b, l) ∧ s.mem k = some l := by
  obtain ⟨iv, e, hne, hk⟩ := ho
  have := h.var v
  rw [e] at this
  cases hσ : σ v with
  | none => rw [hσ] at this; exact this.elim
  | some q =>
    obtain ⟨b, l⟩ := q
    rw [hσ] at this
    obtain ⟨h1, h2, h3, h4⟩ := this
    have hl : l ≠ [] := by
      intro e'; rw [e'] at h2; simp at h2; omega
    obtain ⟨k', e1, e2⟩ := h4 hl
    rw [e1] at hk
    simp only [Option.some.injEq] at hk
    exact ⟨b, l, rfl, hk ▸ e2⟩

theorem owns_update {var : Nat → Option Iv} {v w k : Nat} {iv : Option Iv} (hne : w ≠ v) :
    Owns (Function.update var v iv) w k ↔ Owns var w k := by
  unfold Owns
  rw [Function.update_of_ne hne]

/-- Giving back the block of a variable, if it has one, and making the variable an empty interval or nothing. -/
theorem clear_rel {s : Sys A} {σ : Abs A} (h : Rel s σ) {v b : Nat} {l : List A} {iv : Iv} (e : σ v = some (b, l))
    (hv : s.var v = some iv) :
    ∃ mem', clearIv s.mem iv = some (mem', ⟨⟨none, 0⟩, b, b⟩) ∧
      (∀ k, mem' k = if l ≠ [] ∧ iv.ptr.blk = some k then none else s.mem k) ∧
      Rel ⟨mem', s.next, Function.update s.var v (some ⟨⟨none, 0⟩, b, b⟩)⟩ (Function.update σ v (some (b, []))) ∧
      Rel ⟨mem', s.next, Function.update s.var v none⟩ (Function.update σ v none) := by
  obtain ⟨iv', hv', h1, h2, h3, h4⟩ := h.get e
  rw [hv] at hv'
  have ee := Option.some.inj hv'
  rw [← ee] at h1 h2 h4
  have key : ∃ mem', clearIv s.mem iv = some (mem', ⟨⟨none, 0⟩, b, b⟩) ∧
      ∀ k, mem' k = if l ≠ [] ∧ iv.ptr.blk = some k then none else s.mem k := by
    by_cases hl : l = []
    · refine ⟨s.mem, ?_, ?_⟩
      · have : iv.beg = iv.fin := by rw [h1, h2, hl]; simp
        unfold clearIv
        rw [if_neg (by simp [this]), h1]
      · intro k; simp [hl]
    · obtain ⟨k, hp, hm⟩ := h4 hl
      have hlen : l.length ≠ 0 := by simpa using hl
      refine ⟨Function.update s.mem k none, ?_, ?_⟩
      · unfold clearIv
        rw [if_pos (by omega)]
        have hz : -(b : Int) + b = 0 := by omega
        simp [free, hp, hm, h1, hz]
      · intro k'
        simp only [Function.update_apply, hp, Option.some.injEq]
        by_cases ek : k' = k
        · simp [ek, hl]
        · simp [ek, Ne.symm ek]
  obtain ⟨mem', hc, hm'⟩ := key
  refine ⟨mem', hc, hm', ?_⟩
  -- blocks of the other variables stay
  have hoth : ∀ w, w ≠ v → ∀ k, Owns s.var w k → mem' k = s.mem k := by
    intro w hw k ho
    rw [hm' k, if_neg]
    rintro ⟨hl, hk⟩
    refine hw (h.uniq w v k ho ⟨iv, hv, ?_, hk⟩)
    have hlen : l.length ≠ 0 := by simpa using hl
    omega
  have hrelv : ∀ w, w ≠ v → RelV mem' (s.var w) (σ w) := by
    intro w hw
    have hr := h.var w
    cases hsw : s.var w with
    | none => rw [hsw] at hr; cases hσw : σ w with
      | none => trivial
      | some q => rw [hσw] at hr; exact hr.elim
    | some iw =>
      rw [hsw] at hr
      cases hσw : σ w with
      | none => rw [hσw] at hr; exact hr.elim
      | some q =>
        obtain ⟨bw, lw⟩ := q
        rw [hσw] at hr
        obtain ⟨g1, g2, g3, g4⟩ := hr
        refine ⟨g1, g2, g3, fun hl => ?_⟩
        obtain ⟨k, e1, e2⟩ := g4 hl
        refine ⟨k, e1, ?_⟩
        rw [hoth w hw k ⟨iw, hsw, ?_, by rw [e1]⟩]
        · exact e2
        · have hlen : lw.length ≠ 0 := by simpa using hl
          omega
  have hold : ∀ (iv0 : Option Iv), (∀ k, ¬ Owns (Function.update s.var v iv0) v k) → ∀ k, mem' k ≠ none →
      k < s.next ∧ ∃ w, Owns (Function.update s.var v iv0) w k := by
    intro iv0 _ k hk
    have hk0 : s.mem k ≠ none := by
      intro e0
      apply hk
      rw [hm' k, e0]
      simp
    obtain ⟨hlt, w, ho⟩ := h.old k hk0
    refine ⟨hlt, w, ?_⟩
    have hw : w ≠ v := by
      intro ew
      apply hk
      rw [hm' k, if_pos]
      obtain ⟨iv1, e1, e2, e3⟩ := ho
      rw [ew, hv] at e1
      rw [← Option.some.inj e1] at e2 e3
      refine ⟨?_, e3⟩
      intro el; apply e2; rw [h1, h2, el]; simp
    exact (owns_update hw).2 ho
  have huniq : ∀ (iv0 : Option Iv), (∀ k, ¬ Owns (Function.update s.var v iv0) v k) → ∀ w u k,
      Owns (Function.update s.var v iv0) w k → Owns (Function.update s.var v iv0) u k → w = u := by
    intro iv0 hno w u k hw hu
    have h1 : w ≠ v := by rintro rfl; exact hno k hw
    have h2 : u ≠ v := by rintro rfl; exact hno k hu
    exact h.uniq w u k ((owns_update h1).1 hw) ((owns_update h2).1 hu)
  have hno1 : ∀ k, ¬ Owns (Function.update s.var v (some ⟨⟨none, 0⟩, b, b⟩)) v k := by
    rintro k ⟨iv1, e1, e2, _⟩
    simp only [Function.update_self, Option.some.injEq] at e1
    rw [← e1] at e2; exact e2 rfl
  have hno2 : ∀ k, ¬ Owns (Function.update s.var v none) v k := by
    rintro k ⟨iv1, e1, _⟩
    simp at e1
  refine ⟨⟨?_, huniq _ hno1, hold _ hno1⟩, ⟨?_, huniq _ hno2, hold _ hno2⟩⟩
  · intro w
    by_cases hw : w = v
    · rw [hw]
      simp only [Function.update_self]
      exact ⟨rfl, rfl, by simp; omega, fun hl => absurd rfl hl⟩
    · simp only [Function.update_of_ne hw]; exact hrelv w hw
  · intro w
    by_cases hw : w = v
    · rw [hw]; simp only [Function.update_self]; trivial
    · simp only [Function.update_of_ne hw]; exact hrelv w hw

/-- A variable that owns nothing. -/
def Idle (σ : Abs A) (v : Nat) : Prop := σ v = none ∨ ∃ b, σ v = some (b, [])

theorem Idle.noOwn {s : Sys A} {σ : Abs A} (h : Rel s σ) {v : Nat} (hi : Idle σ v) (k : Nat) : ¬ Owns s.var v k := by
  rintro ⟨iv, e, hne, _⟩
  rcases hi with hi | ⟨b, hi⟩
  · rw [h.getNone hi] at e; exact absurd e (by simp)
  · obtain ⟨iv', e', h1, h2, _⟩ := h.get hi
    rw [e] at e'
    rw [← Option.some.inj e'] at h1 h2
    apply hne; rw [h1, h2]; simp

theorem relv_new {mem : Nat → Option (List A)} {n : Nat} (hn : mem n = none) (x : Option (List A)) {iv : Option Iv}
    {q : Option (Nat × List A)} (h : RelV mem iv q) : RelV (Function.update mem n x) iv q := by
  cases iv with
  | none => cases q with
    | none => trivial
    | some q => exact h.elim
  | some iv => cases q with
    | none => exact h.elim
    | some q =>
      obtain ⟨b, l⟩ := q
      obtain ⟨h1, h2, h3, h4⟩ := h
      refine ⟨h1, h2, h3, fun hl => ?_⟩
      obtain ⟨k, e1, e2⟩ := h4 hl
      refine ⟨k, e1, ?_⟩
      rw [Function.update_of_ne]
      · exact e2
      · rintro rfl; rw [hn] at e2; exact absurd e2 (by simp)

theorem Rel.fresh {s : Sys A} {σ : Abs A} (h : Rel s σ) : s.mem s.next = none := by
  by_contra e
  exact absurd (h.old _ e).1 (by omega)

/-- A new array for a variable that owns nothing. -/
theorem new_rel {s : Sys A} {σ : Abs A} (h : Rel s σ) {v b : Nat} {l : List A} (hi : Idle σ v) (hl : l ≠ [])
    (hw : b + l.length < W) : Rel (newIv s v b l) (Function.update σ v (some (b, l))) := by
  have hno := fun k => hi.noOwn h k
  have hf := h.fresh
  have hown : ∀ w k, Owns (newIv s v b l).var w k → (w = v ∧ k = s.next) ∨ (w ≠ v ∧ Owns s.var w k) := by
    intro w k ho
    by_cases e : w = v
    · left
      refine ⟨e, ?_⟩
      obtain ⟨iv, e1, _, e3⟩ := ho
      rw [e] at e1
      simp only [newIv, Function.update_self, Option.some.injEq] at e1
      rw [← e1] at e3
      simpa using e3.symm
    · exact Or.inr ⟨e, (owns_update e).1 ho⟩
  have hnx : ∀ w, ¬ Owns s.var w s.next := by
    intro w ho
    obtain ⟨_, _, _, e⟩ := h.alive ho
    rw [hf] at e; exact absurd e (by simp)
  refine ⟨?_, ?_, ?_⟩
  · intro w
    by_cases e : w = v
    · rw [e]
      simp only [newIv, Function.update_self]
      exact ⟨rfl, rfl, hw, fun _ => ⟨s.next, rfl, by simp⟩⟩
    · simp only [newIv, Function.update_of_ne e]
      exact relv_new hf _ (h.var w)
  · intro w u k ho1 ho2
    rcases hown w k ho1 with ⟨e1, e2⟩ | ⟨e1, e2⟩ <;> rcases hown u k ho2 with ⟨g1, g2⟩ | ⟨g1, g2⟩
    · rw [e1, g1]
    · rw [e2] at g2; exact absurd g2 (hnx u)
    · rw [g2] at e2; exact absurd e2 (hnx w)
    · exact h.uniq w u k e2 g2
  · intro k hk
    simp only [newIv] at hk ⊢
    by_cases e : k = s.next
    · refine ⟨by omega, v, ⟨⟨some s.next, -b⟩, b, b + l.length⟩, by simp, ?_, by simp [e]⟩
      have hlen : l.length ≠ 0 := by simpa using hl
      simp only; omega
    · rw [Function.update_of_ne e] at hk
      obtain ⟨h1, w, ho⟩ := h.old k hk
      refine ⟨by omega, w, ?_⟩
      have : w ≠ v := by rintro rfl; exact hno k ho
      exact (owns_update this).2 ho

/-- An empty interval for a variable that owns nothing. -/
theorem empty_rel {s : Sys A} {σ : Abs A} (h : Rel s σ) {v b : Nat} (hi : Idle σ v) (hb : b < W) :
    Rel (emptyIv s v b) (Function.update σ v (some (b, []))) := by
  have hno := fun k => hi.noOwn h k
  have hno1 : ∀ k, ¬ Owns (emptyIv s v b).var v k := by
    rintro k ⟨iv1, e1, e2, _⟩
    simp only [emptyIv, Function.update_self, Option.some.injEq] at e1
    rw [← e1] at e2; exact e2 rfl
  refine ⟨?_, ?_, ?_⟩
  · intro w
    by_cases e : w = v
    · rw [e]
      simp only [emptyIv, Function.update_self]
      exact ⟨rfl, rfl, by simpa using hb, fun hl => absurd rfl hl⟩
    · simp only [emptyIv, Function.update_of_ne e]
      exact h.var w
  · intro w u k hw hu
    have h1 : w ≠ v := by rintro rfl; exact hno1 k hw
    have h2 : u ≠ v := by rintro rfl; exact hno1 k hu
    exact h.uniq w u k ((owns_update h1).1 hw) ((owns_update h2).1 hu)
  · intro k hk
    obtain ⟨h1, w, ho⟩ := h.old k hk
    refine ⟨h1, w, ?_⟩
    have : w ≠ v := by rintro rfl; exact hno k ho
    exact (owns_update this).2 ho

/-- Reading an existing interval. -/
theorem read_rel {mem : Nat → Option (List A)} {iv : Iv} {b : Nat} {l : List A} {k : Nat} (hp : iv.ptr = ⟨some k, -(b : Int)⟩)
    (hm : mem k = some l) {i n : Nat} (hi : b ≤ i) (hn : i + n ≤ b + l.length) :
    readRange mem iv.ptr i n = some ((l.drop (i - b)).take n) := by
  unfold readRange
  by_cases h0 : n = 0
  · simp [h0]
  · rw [if_neg h0]
    simp only [hp, hm]
    rw [if_pos (by omega)]
    have : (-(b : Int) + i).toNat = i - b := by omega
    rw [this]

/-- Changing indices or elements of one variable that keeps its block. -/
theorem keep_rel {s : Sys A} {σ : Abs A} (h : Rel s σ) {v b b' : Nat} {l l' : List A} {iv iv' : Iv}
    {mem' : Nat → Option (List A)} (e : σ v = some (b, l))
    (hv : s.var v = some iv) (hlen : l'.length = l.length) (hb : iv'.beg = b') (hf : iv'.fin = b' + l'.length)
    (hw : b' + l'.length < W) (hblk : iv'.ptr.blk = iv.ptr.blk) (hoff : l' ≠ [] → iv'.ptr.off = -(b' : Int))
    (hmem : ∀ k, mem' k = if l ≠ [] ∧ iv.ptr.blk = some k then some l' else s.mem k) :
    Rel ⟨mem', s.next, Function.update s.var v (some iv')⟩ (Function.update σ v (some (b', l'))) := by
  obtain ⟨iv1, hv1, h1, h2, h3, h4⟩ := h.get e
  rw [hv] at hv1
  rw [← Option.some.inj hv1] at h1 h2 h4
  have hown : ∀ w k, Owns (Function.update s.var v (some iv')) w k ↔ Owns s.var w k := by
    intro w k
    by_cases hwv : w = v
    · unfold Owns
      rw [hwv, Function.update_self, hv]
      have hne : iv'.beg ≠ iv'.fin ↔ iv.beg ≠ iv.fin := by rw [hb, hf, h1, h2, hlen]; omega
      constructor
      · rintro ⟨x, ex, ey, ez⟩
        rw [← Option.some.inj ex] at ey ez
        exact ⟨iv, rfl, hne.1 ey, by rw [← hblk]; exact ez⟩
      · rintro ⟨x, ex, ey, ez⟩
        rw [← Option.some.inj ex] at ey ez
        exact ⟨iv', rfl, hne.2 ey, by rw [hblk]; exact ez⟩
    · exact owns_update hwv
  refine ⟨?_, ?_, ?_⟩
  · intro w
    by_cases hwv : w = v
    · rw [hwv]
      simp only [Function.update_self]
      refine ⟨hb, hf, hw, fun hl' => ?_⟩
      have hl : l ≠ [] := by
        intro e0; rw [e0] at hlen; apply hl'; simpa using hlen
      obtain ⟨k, e1, e2⟩ := h4 hl
      have hk : iv.ptr.blk = some k := by rw [e1]
      refine ⟨k, ?_, ?_⟩
      · have := hoff hl'
        cases hp : iv'.ptr with
        | mk bb oo =>
          rw [hp] at hblk this
          simp only at hblk this
          rw [hblk, hk, this]
      · rw [hmem k, if_pos ⟨hl, hk⟩]
    · simp only [Function.update_of_ne hwv]
      have hr := h.var w
      cases hsw : s.var w with
      | none =>
        rw [hsw] at hr
        cases hσw : σ w with
        | none => trivial
        | some q => rw [hσw] at hr; exact hr.elim
      | some iw =>
        rw [hsw] at hr
        cases hσw : σ w with
        | none => rw [hσw] at hr; exact hr.elim
        | some q =>
          obtain ⟨bw, lw⟩ := q
          rw [hσw] at hr
          obtain ⟨g1, g2, g3, g4⟩ := hr
          refine ⟨g1, g2, g3, fun hl => ?_⟩
          obtain ⟨k, e1, e2⟩ := g4 hl
          refine ⟨k, e1, ?_⟩
          rw [hmem k, if_neg]
          · exact e2
          · rintro ⟨hl1, hk⟩
            have hlw : lw.length ≠ 0 := by simpa using hl
            have hll : l.length ≠ 0 := by simpa using hl1
            exact hwv (h.uniq w v k ⟨iw, hsw, by omega, by rw [e1]⟩ ⟨iv, hv, by omega, hk⟩)
  · intro w u k hw hu
    exact h.uniq w u k ((hown w k).1 hw) ((hown u k).1 hu)
  · intro k hk
    have hk0 : s.mem k ≠ none := by
      intro e0
      simp only [hmem k, e0] at hk
      by_cases hc : l ≠ [] ∧ iv.ptr.blk = some k
      · obtain ⟨k', e1, e2⟩ := h4 hc.1
        rw [e1] at hc
        rw [← Option.some.inj hc.2, e2] at e0
        exact absurd e0 (by simp)
      · rw [if_neg hc] at hk; exact hk rfl
    obtain ⟨h1, w, ho⟩ := h.old k hk0
    exact ⟨h1, w, (hown w k).2 ho⟩

theorem swap_rel {s : Sys A} {σ : Abs A} (h : Rel s σ) {v w : Nat} {p q : Nat × List A} {iv iw : Iv} (ev : σ v = some p)
    (ew : σ w = some q) (hv : s.var v = some iv) (hw : s.var w = some iw) :
    Rel { s with var := Function.update (Function.update s.var v (some iw)) w (some iv) }
      (Function.update (Function.update σ v (some q)) w (some p)) := by
  -- the variable read at a place of the new state
  have hs : ∀ u, (Function.update (Function.update s.var v (some iw)) w (some iv)) u =
      s.var (if u = w then v else if u = v then w else u) := by
    intro u
    simp only [Function.update_apply]
    by_cases e1 : u = w
    · simp [e1, hv]
    · by_cases e2 : u = v
      · simp only [e2] at e1 ⊢; simp [e1, hw]
      · simp [e1, e2]
  have hσ : ∀ u, (Function.update (Function.update σ v (some q)) w (some p)) u =
      σ (if u = w then v else if u = v then w else u) := by
    intro u
    simp only [Function.update_apply]
    by_cases e1 : u = w
    · simp [e1, ev]
    · by_cases e2 : u = v
      · simp only [e2] at e1 ⊢; simp [e1, ew]
      · simp [e1, e2]
  have hinv : ∀ u, (if (if u = w then v else if u = v then w else u) = w then v else
      if (if u = w then v else if u = v then w else u) = v then w else
      (if u = w then v else if u = v then w else u)) = u := by
    intro u
    by_cases e1 : u = w
    · by_cases e3 : v = w
      · simp [e1, e3]
      · simp [e1, e3]
    · by_cases e2 : u = v
      · have : v ≠ w := by rw [← e2]; exact e1
        simp [e2, this]
      · simp [e1, e2]
  have hown : ∀ u k, Owns (Function.update (Function.update s.var v (some iw)) w (some iv)) u k ↔
      Owns s.var (if u = w then v else if u = v then w else u) k := by
    intro u k
    unfold Owns
    rw [hs u]
  refine ⟨?_, ?_, ?_⟩
  · intro u
    simp only
    rw [hs u, hσ u]
    exact h.var _
  · intro a b k ha hb
    have := h.uniq _ _ k ((hown a k).1 ha) ((hown b k).1 hb)
    rw [← hinv a, ← hinv b, this]
  · intro k hk
    obtain ⟨h1, u, ho⟩ := h.old k hk
    refine ⟨h1, (if u = w then v else if u = v then w else u), ?_⟩
    rw [hown, hinv u]
    exact ho

/-- One call. -/
theorem call_rel {s : Sys A} {σ σ' : Abs A} (h : Rel s σ) {o : Op A} {r : Option A} (hw : want σ o = some (σ', r)) :
    ∃ s', call s o = some (s', r) ∧ Rel s' σ' := by
  cases o with
  | make v beg fin c =>
    simp only [want] at hw
    split at hw
    · rename_i hc
      obtain ⟨hσ, hle, hlt⟩ := hc
      simp only [Option.some.injEq, Prod.mk.injEq] at hw
      obtain ⟨e1, e2⟩ := hw
      rw [← e1, ← e2]
      simp only [call, h.getNone hσ]
      rw [if_neg (by omega)]
      by_cases hbf : beg = fin
      · rw [if_neg (by simp [hbf])]
        refine ⟨_, rfl, ?_⟩
        have : List.replicate (fin - beg) c = [] := by simp [hbf]
        rw [this]
        exact empty_rel h (Or.inl hσ) (by omega)
      · rw [if_pos hbf]
        refine ⟨_, rfl, new_rel h (Or.inl hσ) ?_ ?_⟩
        · intro e0
          have := congrArg List.length e0
          simp at this
          omega
        · simp; omega
    · exact absurd hw (by simp)
  | copy v w =>
    simp only [want] at hw
    cases hσw : σ w with
    | none => simp only [hσw] at hw; exact absurd hw (by simp)
    | some q =>
      obtain ⟨b, l⟩ := q
      simp only [hσw] at hw
      split at hw
      · rename_i hσv
        simp only [Option.some.injEq, Prod.mk.injEq] at hw
        obtain ⟨e1, e2⟩ := hw
        rw [← e1, ← e2]
        obtain ⟨iw, hiw, g1, g2, g3, g4⟩ := h.get hσw
        simp only [call, h.getNone hσv, hiw]
        by_cases hl : l = []
        · rw [if_neg (by rw [g1, g2, hl]; simp)]
          refine ⟨_, rfl, ?_⟩
          rw [hl, g1]
          exact empty_rel h (Or.inl hσv) (by omega)
        · have hlen : l.length ≠ 0 := by simpa using hl
          rw [if_pos (by omega)]
          obtain ⟨k, p1, p2⟩ := g4 hl
          have := read_rel (iv := iw) p1 p2 (i := iw.beg) (n := iw.fin - iw.beg) (by omega) (by omega)
          rw [show (l.drop (iw.beg - b)).take (iw.fin - iw.beg) = l by
            rw [show iw.beg - b = 0 by omega, List.drop_zero, List.take_of_length_le (by omega)]] at this
          simp only [this]
          refine ⟨_, rfl, ?_⟩
          rw [g1]
          exact new_rel h (Or.inl hσv) hl g3
      · exact absurd hw (by simp)
  | assign v w =>
    simp only [want] at hw
    cases hσv : σ v with
    | none => simp only [hσv] at hw; exact absurd hw (by simp)
    | some p =>
      cases hσw : σ w with
      | none => simp only [hσv, hσw] at hw; exact absurd hw (by simp)
      | some q =>
        obtain ⟨bv, lv⟩ := p
        obtain ⟨b, l⟩ := q
        simp only [hσv, hσw, Option.some.injEq, Prod.mk.injEq] at hw
        obtain ⟨e1, e2⟩ := hw
        rw [← e1, ← e2]
        obtain ⟨iv, hiv, _⟩ := h.get hσv
        obtain ⟨iw, hiw, g1, g2, g3, g4⟩ := h.get hσw
        simp only [call, hiv, hiw]
        by_cases hvw : v = w
        · rw [if_pos hvw]
          refine ⟨_, rfl, ?_⟩
          rw [hvw, ← hσw, Function.update_eq_self]
          exact h
        · rw [if_neg hvw]
          obtain ⟨mem', c1, c2, c3, c4⟩ := clear_rel h hσv hiv
          simp only [c1]
          have hidle : Idle (Function.update σ v none) v := Or.inl (by simp)
          have hup : ∀ x, Function.update (Function.update σ v none) v x = Function.update σ v x := by
            intro x; rw [Function.update_idem]
          have hup2 : ∀ x, Function.update (Function.update s.var v none) v x = Function.update s.var v x := by
            intro x; rw [Function.update_idem]
          by_cases hl : l = []
          · rw [if_neg (by rw [g1, g2, hl]; simp)]
            refine ⟨_, rfl, ?_⟩
            have := empty_rel c4 hidle (show b < W by omega)
            rw [hup] at this
            simp only [emptyIv, hup2] at this
            rw [hl, g1]
            exact this
          · have hlen : l.length ≠ 0 := by simpa using hl
            rw [if_pos (by omega)]
            -- the source still exists
            obtain ⟨iw', hiw', _, _, _, g4'⟩ := c4.get (v := w) (b := b) (l := l) (by
              rw [Function.update_of_ne (Ne.symm hvw)]; exact hσw)
            simp only [Function.update_of_ne (Ne.symm hvw)] at hiw'
            rw [hiw] at hiw'
            rw [← Option.some.inj hiw'] at g4'
            obtain ⟨k, p1, p2⟩ := g4' hl
            have := read_rel (iv := iw) p1 p2 (i := iw.beg) (n := iw.fin - iw.beg) (by omega) (by omega)
            rw [show (l.drop (iw.beg - b)).take (iw.fin - iw.beg) = l by
              rw [show iw.beg - b = 0 by omega, List.drop_zero, List.take_of_length_le (by omega)]] at this
            simp only at this
            simp only [this]
            refine ⟨_, rfl, ?_⟩
            have := new_rel c4 hidle hl g3
            rw [hup] at this
            simp only [newIv, hup2] at this
            rw [g1]
            exact this
  | swap v w =>
    simp only [want] at hw
    cases hσv : σ v with
    | none => simp only [hσv] at hw; exact absurd hw (by simp)
    | some p =>
      cases hσw : σ w with
      | none => simp only [hσv, hσw] at hw; exact absurd hw (by simp)
      | some q =>
        simp only [hσv, hσw, Option.some.injEq, Prod.mk.injEq] at hw
        obtain ⟨e1, e2⟩ := hw
        rw [← e1, ← e2]
        obtain ⟨iv, hiv, _⟩ := h.get (v := v) (b := p.1) (l := p.2) hσv
        obtain ⟨iw, hiw, _⟩ := h.get (v := w) (b := q.1) (l := q.2) hσw
        simp only [call, hiv, hiw]
        exact ⟨_, rfl, swap_rel h hσv hσw hiv hiw⟩
  | clear v =>
    simp only [want] at hw
    cases hσv : σ v with
    | none => simp only [hσv] at hw; exact absurd hw (by simp)
    | some p =>
      obtain ⟨b, l⟩ := p
      simp only [hσv, Option.some.injEq, Prod.mk.injEq] at hw
      obtain ⟨e1, e2⟩ := hw
      rw [← e1, ← e2]
      obtain ⟨iv, hiv, _⟩ := h.get hσv
      obtain ⟨mem', c1, c2, c3, c4⟩ := clear_rel h hσv hiv
      simp only [call, hiv, c1]
      exact ⟨_, rfl, c3⟩
  | setBeg v b' =>
    simp only [want] at hw
    cases hσv : σ v with
    | none => simp only [hσv] at hw; exact absurd hw (by simp)
    | some p =>
      obtain ⟨b, l⟩ := p
      simp only [hσv] at hw
      split at hw
      · rename_i hlt
        simp only [Option.some.injEq, Prod.mk.injEq] at hw
        obtain ⟨e1, e2⟩ := hw
        rw [← e1, ← e2]
        obtain ⟨iv, hiv, g1, g2, g3, g4⟩ := h.get hσv
        simp only [call, hiv]
        have hW : W = 4294967296 := by unfold W; rfl
        have hs : (iv.beg + (b' + W - iv.beg) % W) % W = b' := by rw [hW] at hlt g3 ⊢; omega
        have hs2 : (iv.fin + (b' + W - iv.beg) % W) % W = b' + l.length := by rw [hW] at hlt g3 ⊢; omega
        refine ⟨_, rfl, keep_rel h hσv hiv rfl ?_ ?_ hlt ?_ ?_ ?_⟩
        · simp only [shiftIv, hs]
        · simp only [shiftIv, hs2]
        · rfl
        · intro hl
          obtain ⟨k, p1, p2⟩ := g4 hl
          simp only [shiftIv, hs, p1]
          clear hs hs2 hW hlt g3
          omega
        · intro k
          by_cases hc : l ≠ [] ∧ iv.ptr.blk = some k
          · rw [if_pos hc]
            obtain ⟨k', p1, p2⟩ := g4 hc.1
            rw [p1] at hc
            rw [← Option.some.inj hc.2, p2]
          · rw [if_neg hc]
      · exact absurd hw (by simp)
  | setEnd v e c =>
    simp only [want] at hw
    cases hσv : σ v with
    | none => simp only [hσv] at hw; exact absurd hw (by simp)
    | some p =>
      obtain ⟨b, l⟩ := p
      simp only [hσv] at hw
      split at hw
      · rename_i hlt
        simp only [Option.some.injEq, Prod.mk.injEq] at hw
        obtain ⟨e1, e2⟩ := hw
        rw [← e1, ← e2]
        obtain ⟨iv, hiv, g1, g2, g3, g4⟩ := h.get hσv
        simp only [call, hiv]
        by_cases h1 : e = iv.fin
        · rw [if_pos h1]
          refine ⟨_, rfl, ?_⟩
          rw [List.take_of_length_le (by omega), show e - b - l.length = 0 by omega]
          simp only [List.replicate_zero, List.append_nil]
          rw [← hσv, Function.update_eq_self]
          exact h
        · rw [if_neg h1]
          by_cases h2 : iv.beg = e
          · rw [if_neg (by simp [h2])]
            obtain ⟨mem', c1, c2, c3, c4⟩ := clear_rel h hσv hiv
            simp only [c1]
            refine ⟨_, rfl, ?_⟩
            rw [show e - b = 0 by omega]
            simp only [List.take_zero, Nat.zero_sub, List.replicate_zero, List.append_nil]
            rw [show e = b by omega]
            exact c3
          · rw [if_pos h2, if_neg (by omega)]
            have hread : (if iv.beg ≠ iv.fin then readRange s.mem iv.ptr iv.beg (min e iv.fin - iv.beg) else some []) =
                some (l.take (e - b)) := by
              by_cases hl : l = []
              · rw [if_neg (by rw [g1, g2, hl]; simp), hl]; simp
              · have hlen : l.length ≠ 0 := by simpa using hl
                rw [if_pos (by omega)]
                obtain ⟨k, p1, p2⟩ := g4 hl
                rw [read_rel (iv := iv) p1 p2 (i := iv.beg) (n := min e iv.fin - iv.beg) (by omega) (by omega)]
                rw [show iv.beg - b = 0 by omega, List.drop_zero]
                congr 1
                by_cases hle : e ≤ iv.fin
                · rw [Nat.min_eq_left hle, g1]
                · rw [Nat.min_eq_right (by omega), List.take_of_length_le (by omega), List.take_of_length_le (by omega)]
            have hrep : e - min e iv.fin = e - b - l.length := by omega
            simp only [hread, hrep]
            -- clearing before or after the allocation is the same
            obtain ⟨mem', c1, c2, c3, c4⟩ := clear_rel h hσv hiv
            have hf := h.fresh
            generalize hnew : l.take (e - b) ++ List.replicate (e - b - l.length) c = new
            have hnl : new.length = e - b := by
              rw [← hnew]; simp; omega
            have hc1 : clearIv (Function.update s.mem s.next (some new)) iv =
                some (Function.update mem' s.next (some new), ⟨⟨none, 0⟩, b, b⟩) := by
              by_cases hl : l = []
              · unfold clearIv
                rw [if_neg (by rw [g1, g2, hl]; simp), g1]
                have : mem' = s.mem := by
                  funext k; rw [c2 k]; simp [hl]
                rw [this]
              · obtain ⟨k, p1, p2⟩ := g4 hl
                have hlen : l.length ≠ 0 := by simpa using hl
                have hk : k ≠ s.next := by rintro rfl; rw [hf] at p2; exact absurd p2 (by simp)
                have hz : -(b : Int) + b = 0 := by omega
                have hm' : mem' = Function.update s.mem k none := by
                  funext k'
                  rw [c2 k', p1, Function.update_apply]
                  by_cases ek : k' = k
                  · simp [ek, hl]
                  · simp [ek, Ne.symm ek]
                unfold clearIv
                rw [if_pos (by omega), hm']
                simp [free, p1, g1, hz, Function.update_of_ne hk, p2]
                rw [Function.update_comm hk]
            simp only [hc1]
            refine ⟨_, rfl, ?_⟩
            have hidle : Idle (Function.update σ v none) v := Or.inl (by simp)
            have hne : new ≠ [] := by
              intro e0; rw [e0] at hnl; simp at hnl; omega
            have := new_rel c4 hidle hne (show b + new.length < W by omega)
            simp only [newIv, Function.update_idem] at this
            rw [show e = b + new.length by omega, g1]
            exact this
      · exact absurd hw (by simp)
  | put v i x =>
    simp only [want] at hw
    cases hσv : σ v with
    | none => simp only [hσv] at hw; exact absurd hw (by simp)
    | some p =>
      obtain ⟨b, l⟩ := p
      simp only [hσv] at hw
      split at hw
      · rename_i hlt
        simp only [Option.some.injEq, Prod.mk.injEq] at hw
        obtain ⟨e1, e2⟩ := hw
        rw [← e1, ← e2]
        obtain ⟨iv, hiv, g1, g2, g3, g4⟩ := h.get hσv
        simp only [call, hiv]
        rw [if_pos (by omega)]
        have hl : l ≠ [] := by rintro rfl; simp at hlt; omega
        obtain ⟨k, p1, p2⟩ := g4 hl
        have hwr : writeAt s.mem iv.ptr i x = some (Function.update s.mem k (some (l.set (i - b) x))) := by
          unfold writeAt
          simp only [p1, p2]
          rw [if_pos (by omega)]
          have : (-(b : Int) + i).toNat = i - b := by omega
          rw [this]
        simp only [hwr]
        refine ⟨_, rfl, ?_⟩
        have := keep_rel h hσv hiv (b' := b) (l' := l.set (i - b) x) (iv' := iv)
          (mem' := Function.update s.mem k (some (l.set (i - b) x))) (by simp) g1 (by simpa using g2) (by simpa using g3)
          rfl (fun _ => by rw [p1]) (by
            intro k'
            rw [Function.update_apply, p1]
            by_cases ek : k' = k
            · simp [ek, hl]
            · simp [ek, Ne.symm ek])
        rw [← hiv, Function.update_eq_self] at this
        exact this
      · exact absurd hw (by simp)
  | get v i =>
    simp only [want] at hw
    cases hσv : σ v with
    | none => simp only [hσv] at hw; exact absurd hw (by simp)
    | some p =>
      obtain ⟨b, l⟩ := p
      simp only [hσv] at hw
      split at hw
      · rename_i hlt
        simp only [Option.some.injEq, Prod.mk.injEq] at hw
        obtain ⟨e1, e2⟩ := hw
        rw [← e1, ← e2]
        obtain ⟨iv, hiv, g1, g2, g3, g4⟩ := h.get hσv
        simp only [call, hiv]
        rw [if_pos (by omega)]
        have hl : l ≠ [] := by rintro rfl; simp at hlt; omega
        obtain ⟨k, p1, p2⟩ := g4 hl
        rw [read_rel (iv := iv) p1 p2 hlt.1 (show i + 1 ≤ b + l.length by omega)]
        have hi : i - b < l.length := by omega
        rw [List.drop_eq_getElem_cons hi, List.getElem?_eq_getElem hi]
        exact ⟨s, rfl, h⟩
      · exact absurd hw (by simp)
  | destroy v =>
    simp only [want] at hw
    cases hσv : σ v with
    | none => simp only [hσv] at hw; exact absurd hw (by simp)
    | some p =>
      obtain ⟨b, l⟩ := p
      simp only [hσv, Option.some.injEq, Prod.mk.injEq] at hw
      obtain ⟨e1, e2⟩ := hw
      rw [← e1, ← e2]
      obtain ⟨iv, hiv, _⟩ := h.get hσv
      obtain ⟨mem', c1, c2, c3, c4⟩ := clear_rel h hσv hiv
      simp only [call, hiv, c1]
      exact ⟨_, rfl, c4⟩

theorem calls_rel : ∀ (os : List (Op A)) {s : Sys A} {σ σ' : Abs A} {rs : List A}, Rel s σ →
    wants σ os = some (σ', rs) → ∃ s', calls s os = some (s', rs) ∧ Rel s' σ' := by
  intro os
  induction os with
  | nil =>
    intro s σ σ' rs h hw
    simp only [wants, Option.some.injEq, Prod.mk.injEq] at hw
    obtain ⟨e1, e2⟩ := hw
    exact ⟨s, by rw [← e2]; rfl, e1 ▸ h⟩
  | cons o os ih =>
    intro s σ σ' rs h hw
    simp only [wants] at hw
    cases ho : want σ o with
    | none => simp only [ho] at hw; exact absurd hw (by simp)
    | some q =>
      obtain ⟨σ1, r⟩ := q
      simp only [ho] at hw
      cases hos : wants σ1 os with
      | none => simp only [hos] at hw; exact absurd hw (by simp)
      | some q =>
        obtain ⟨σ2, rs'⟩ := q
        simp only [hos, Option.some.injEq, Prod.mk.injEq] at hw
        obtain ⟨e1, e2⟩ := hw
        obtain ⟨s1, c1, h1⟩ := call_rel h ho
        obtain ⟨s2, c2, h2⟩ := ih h1 hos
        refine ⟨s2, ?_, e1 ▸ h2⟩
        simp only [calls, c1, c2, e2]

theorem init_rel : Rel (Sys.init : Sys A) (fun _ => none) := by
  refine ⟨fun _ => trivial, ?_, ?_⟩
  · rintro v w k ⟨iv, e, _⟩; simp [Sys.init] at e
  · intro k hk; exact absurd rfl hk

/-! ### C126 -/

/-- C126.  Every sequence of allowed calls on intervals runs without an error (a use of memory that is not there, a second
`delete []`) and returns what the same calls on lists with a first index return; in the end each interval has the expected bounds. -/
theorem C126_refines (os : List (Op A)) (σ : Abs A) (rs : List A) (hw : wants (fun _ => none) os = some (σ, rs)) :
    ∃ s, calls Sys.init os = some (s, rs) ∧
      ∀ v, (s.var v).map (fun iv => (iv.beg, iv.fin)) = (σ v).map fun q => (q.1, q.1 + q.2.length) := by
  obtain ⟨s, h1, h2⟩ := calls_rel os init_rel hw
  refine ⟨s, h1, fun v => ?_⟩
  cases hσ : σ v with
  | none => rw [h2.getNone hσ]; rfl
  | some q =>
    obtain ⟨iv, hiv, g1, g2, _⟩ := h2.get (v := v) (b := q.1) (l := q.2) hσ
    rw [hiv]
    simp [g1, g2]

/-- C126, no leak: after every sequence of allowed calls, once no interval with elements exists any more, the heap is empty. -/
theorem C126_no_leak (os : List (Op A)) (σ : Abs A) (rs : List A) (hw : wants (fun _ => none) os = some (σ, rs))
    (he : ∀ v b l, σ v = some (b, l) → l = []) :
    ∃ s, calls Sys.init os = some (s, rs) ∧ ∀ k, s.mem k = none := by
  obtain ⟨s, h1, h2⟩ := calls_rel os init_rel hw
  refine ⟨s, h1, fun k => ?_⟩
  by_contra hk
  obtain ⟨_, v, ho⟩ := h2.old k hk
  obtain ⟨b, l, e1, _⟩ := h2.alive ho
  have hi : Idle σ v := Or.inr ⟨b, by rw [e1, he v b l e1]⟩
  exact hi.noOwn h2 k ho

end

/-- Some calls: a vector over [3, 6), moved to [10, 13), lengthened, copied, changed, shortened. -/
def demo : List (Op Nat) :=
  [.make 0 3 6 7, .put 0 4 8, .setBeg 0 10, .setEnd 0 14 1, .get 0 11, .get 0 13, .copy 1 0, .put 0 11 9, .get 1 11,
   .swap 0 1, .get 1 11, .setEnd 1 11 0, .assign 0 1, .clear 1, .setEnd 1 12 5, .get 1 11]

example : (wants (fun _ => none) demo).map Prod.snd = some [8, 1, 8, 9, 5] := by decide +kernel

example : ((wants (fun _ => none) (demo ++ [.destroy 0, .destroy 1])).map fun q => (q.1 0, q.1 1)) =
    some (none, none) := by decide +kernel

end Verif.Locks
