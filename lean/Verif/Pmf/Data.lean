import Verif.Pmf.Basic

/-!
# Reading back the records of tags
-/

namespace Verif.Pmf
open Verif.Topology Verif.Binary

/-- The variables of LoadPMF when data is read. -/
structure Links (m : Machine) (num : Nat → Nat) (st : Ld) : Prop where
  u : st.u = m.conv
  i : st.i = m.conv
  links : ∀ ty, ty < 5 → st.links ty = List.range (num ty)
  sizes : ∀ ty, ty < 5 → st.sizes ty = num ty
  num5 : num 5 = 1

variable {m : Machine} {lw : Nat} {num : Nat → Nat}

theorem wVal_some {dtype : Nat} {v : Val} (h : ValOk m lw num dtype v) : ∃ b, wVal m num dtype v = some b := by
  match v, h with
  | .real v, ⟨h, _⟩ => subst h; exact ⟨_, rfl⟩
  | .int v, ⟨h, _⟩ => subst h; exact ⟨_, rfl⟩
  | .bulk b, h => obtain rfl : dtype = 2 := h; exact ⟨_, rfl⟩
  | .ref none, h => obtain rfl : dtype = 3 := h; exact ⟨_, rfl⟩
  | .ref (some (ty, k)), ⟨h, h1, h2, _⟩ => subst h; exact ⟨_, if_pos ⟨h1, h2⟩⟩
  | .var v row, ⟨h, _⟩ => subst h; exact ⟨_, rfl⟩

theorem rVal_wVal (hm : Machines m lw) {st : Ld} (S : Links m num st) {dtype : Nat} {v : Val} {b : Bytes}
    (h : ValOk m lw num dtype v) (hw : wVal m num dtype v = some b) (r : Bytes) :
    rVal lw st dtype (b ++ r) = some (v, r) := by
  match v, h with
  | .real v, ⟨h, hv⟩ =>
    subst h
    simp only [wVal, Option.some.injEq] at hw
    subst hw
    simp only [rVal, S.i, rF_wF hv, Option.map_some]
  | .int v, ⟨h, hv⟩ =>
    subst h
    simp only [wVal, Option.some.injEq] at hw
    subst hw
    simp only [rVal, S.i, rI_wI hm hv, Option.map_some]
  | .bulk v, h =>
    obtain rfl : dtype = 2 := h
    simp only [wVal, Option.some.injEq] at hw
    subst hw
    rfl
  | .ref none, h =>
    obtain rfl : dtype = 3 := h
    simp only [wVal, Option.some.injEq] at hw
    subst hw
    rfl
  | .ref (some (ty, k)), ⟨h, h1, h2, h3⟩ =>
    subst h
    simp only [wVal, if_pos (show ty < 5 ∧ k < num ty from ⟨h1, h2⟩), Option.some.injEq] at hw
    subst hw
    have e := rHandle_wHandle hm (some (ty, k)) (by
      rintro ty' k' e
      simp only [Option.some.injEq, Prod.mk.injEq] at e
      obtain ⟨rfl, rfl⟩ := e
      exact ⟨by omega, h3⟩) r
    have h5 : ¬ ty = 5 := by omega
    simp only [rVal, S.u, e, if_neg h5, S.links ty h1, List.getElem?_range h2]
  | .var v row, ⟨h, h1, h2, h3⟩ =>
    subst h
    simp only [wVal, Option.some.injEq] at hw
    subst hw
    have e := rMany_flatMap (rEntry lw m.conv) (fun p : Nat × Nat => wF m p.1 ++ wI m p.2) id row r
      (by
        intro p hp r
        obtain ⟨h4, h5⟩ := h3 p hp
        simp only [rEntry, List.append_assoc, rF_wF h4, rI_wI hm h5, id])
    rw [List.map_id] at e
    simp only [rVal, S.i, List.append_assoc, rF_wF h1, rI_wI hm h2, e]

theorem wAll_cons {α : Type} {f : α → Option Bytes} {a : α} {l : List α} {bs : Bytes} (h : wAll f (a :: l) = some bs) :
    ∃ b bs', f a = some b ∧ wAll f l = some bs' ∧ bs = b ++ bs' := by
  simp only [wAll] at h
  split at h
  · next b bs' e1 e2 => cases h; exact ⟨b, bs', e1, e2, rfl⟩
  · cases h

theorem wAll_some {α : Type} {f : α → Option Bytes} : ∀ (l : List α), (∀ a ∈ l, ∃ b, f a = some b) → ∃ bs, wAll f l = some bs
  | [], _ => ⟨[], rfl⟩
  | a :: l, h => by
    obtain ⟨b, hb⟩ := h a (List.mem_cons_self ..)
    obtain ⟨bs, hbs⟩ := wAll_some l (fun x hx => h x (List.mem_cons_of_mem _ hx))
    exact ⟨b ++ bs, by simp only [wAll, hb, hbs]⟩

theorem rMany_wAll {α : Type} {p : Bytes → Option (α × Bytes)} {f : α → Option Bytes} : ∀ (l : List α) (bs r : Bytes),
    (∀ a ∈ l, ∀ b, f a = some b → ∀ r, p (b ++ r) = some (a, r)) → wAll f l = some bs →
      rMany p l.length (bs ++ r) = some (l, r)
  | [], bs, r, _, e => by cases e; rfl
  | a :: l, bs, r, h, e => by
    obtain ⟨b, bs', e1, e2, rfl⟩ := wAll_cons e
    simp only [List.length_cons, rMany, List.append_assoc, h a (List.mem_cons_self ..) b e1,
      rMany_wAll l bs' r (fun x hx => h x (List.mem_cons_of_mem _ hx)) e2]

theorem wRec_some {t : TagRec} {r : List Val} (H : RecOk m lw num t r) : ∃ b, wRec m num t r = some b := by
  obtain ⟨b, hb⟩ := wAll_some r (fun v hv => wVal_some (H.val v hv))
  unfold wRec
  rcases H.size with h | h
  · rw [h]; exact ⟨wI m r.length ++ b, by simp only [hb, Option.map_some]⟩
  · rw [h]; exact ⟨b, by simp only [if_true, hb]⟩

theorem rRec_wRec (hm : Machines m lw) {st : Ld} (S : Links m num st) {t : TagRec} {r : List Val} {b : Bytes}
    (H : RecOk m lw num t r) (hw : wRec m num t r = some b) (rest : Bytes) :
    rRec lw st t.dtype t.size (b ++ rest) = some (r, rest) := by
  have key := fun bs => rMany_wAll (p := rVal lw st t.dtype) r bs rest (fun v hv b hb r => rVal_wVal hm S (H.val v hv) hb r)
  unfold wRec at hw
  unfold rRec
  rcases H.size with h | h
  · rw [h] at hw ⊢
    simp only [Option.map_eq_some_iff] at hw
    obtain ⟨bs, e1, rfl⟩ := hw
    simp only [S.u, List.append_assoc, rI_wI hm H.len, key bs e1]
  · rw [h] at hw ⊢
    simp only [if_true] at hw
    exact key b hw

/-! ## Storing of records -/

/-- The state with other tags. -/
def withTags (st : Ld) (L : List TagRec) : Ld := { st with M := { st.M with tags := L } }

/-- The tag with the records of `t` at the elements of `P`. -/
def patch (t : TagRec) (P : Nat → Nat → Bool) (u : TagRec) : TagRec :=
  { u with data := fun ty k => if P ty k ∧ (t.data ty k).isSome then (t.data ty k).map (touchRec t) else u.data ty k }

/-- Change of the tag at a position, nothing if the tag is skipped. -/
def after (pos : Option Nat) (f : TagRec → TagRec) (L : List TagRec) : List TagRec :=
  match pos with
  | none => L
  | some p => L.modify p f

/-- At the position is a tag with the type and size of `t`. -/
def PosOk (t : TagRec) (pos : Option Nat) (L : List TagRec) : Prop :=
  ∀ p, pos = some p → ∃ u, L[p]? = some u ∧ u.dtype = t.dtype ∧ u.size = t.size

theorem patch_patch (t : TagRec) (P Q : Nat → Nat → Bool) (u : TagRec) :
    patch t Q (patch t P u) = patch t (fun ty k => P ty k || Q ty k) u := by
  unfold patch
  congr 1
  funext ty k
  cases hP : P ty k <;> cases hQ : Q ty k <;> cases hd : (t.data ty k).isSome <;> simp [hd, hP, hQ]

theorem after_after (pos : Option Nat) (t : TagRec) (P Q : Nat → Nat → Bool) (L : List TagRec) :
    after pos (patch t Q) (after pos (patch t P) L) = after pos (patch t fun ty k => P ty k || Q ty k) L := by
  cases pos with
  | none => rfl
  | some p =>
    simp only [after, List.modify_modify_eq]
    congr 1
    funext u
    exact patch_patch t P Q u

theorem patch_none (t u : TagRec) (P : Nat → Nat → Bool) (h : ∀ ty k, P ty k = true → t.data ty k = none) :
    patch t P u = u := by
  unfold patch
  congr 1
  funext ty k
  by_cases hP : P ty k = true
  · simp [h ty k hP]
  · simp [hP]

theorem after_none (pos : Option Nat) (t : TagRec) (P : Nat → Nat → Bool) (L : List TagRec)
    (h : ∀ ty k, P ty k = true → t.data ty k = none) : after pos (patch t P) L = L := by
  cases pos with
  | none => rfl
  | some p =>
    have : patch t P = id := funext fun u => patch_none t u P h
    simp only [after, this, List.modify_id]

theorem after_congr (pos : Option Nat) (t : TagRec) (P Q : Nat → Nat → Bool) (L : List TagRec)
    (h : ∀ ty k, (t.data ty k).isSome = true → P ty k = Q ty k) : after pos (patch t P) L = after pos (patch t Q) L := by
  have : patch t P = patch t Q := by
    funext u
    unfold patch
    congr 1
    funext ty k
    by_cases hd : (t.data ty k).isSome = true
    · rw [h ty k hd]
    · simp [hd]
  rw [this]

theorem posOk_after {t : TagRec} {pos : Option Nat} {L : List TagRec} (h : PosOk t pos L) (P : Nat → Nat → Bool) :
    PosOk t pos (after pos (patch t P) L) := by
  rintro p rfl
  obtain ⟨u, h1, h2, h3⟩ := h p rfl
  exact ⟨patch t P u, by simp [after, List.getElem?_modify, h1], h2, h3⟩

theorem links_withTags {st : Ld} (S : Links m num st) (L : List TagRec) : Links m num (withTags st L) :=
  ⟨S.u, S.i, S.links, S.sizes, S.num5⟩

/-- One element only. -/
def only (ty k : Nat) : Nat → Nat → Bool := fun ty' k' => decide (ty' = ty ∧ k' = k)

theorem keepRec_spec {st : Ld} {L : List TagRec} {t : TagRec} {i : TagInfo} (hp : PosOk t i.pos L) {ty k : Nat}
    {r : List Val} (hd : t.data ty k = some r) (hs : t.size = none ∨ t.size = some r.length) :
    keepRec (withTags st L) i ty k r = some (withTags st (after i.pos (patch t (only ty k)) L)) := by
  unfold keepRec
  cases hpos : i.pos with
  | none => rfl
  | some p =>
    obtain ⟨u, h1, h2, h3⟩ := hp p hpos
    have hl : (withTags st L).M.tags = L := rfl
    have hs' : u.size = none ∨ u.size = some r.length := by rw [h3]; exact hs
    have ht : touchRec u r = touchRec t r := by unfold touchRec; rw [h2, h3]
    simp only [putRec, hl, h1, if_pos hs']
    congr 2
    simp only [after, List.modify_eq_set_getElem?, h1, withTags]
    congr 3
    funext ty' k'
    simp only [only, decide_eq_true_eq]
    by_cases he : ty' = ty ∧ k' = k
    · obtain ⟨rfl, rfl⟩ := he
      simp [hd, ht]
    · simp [he]

/-- The description of the tag in the file. -/
structure InfoOk (t : TagRec) (i : TagInfo) : Prop where
  name : i.name = t.name
  dtype : i.dtype = t.dtype
  size : i.size = t.size
  sparse : ∀ ty, ty < 6 → inMask i.sparse ty = t.sparse ty
  defined : ∀ ty, ty < 6 → inMask i.defined ty = t.defined ty

/-- Elements from `a` of one type. -/
def from' (ty a N : Nat) : Nat → Nat → Bool := fun ty' k' => decide (ty' = ty ∧ a ≤ k' ∧ k' < N)

theorem from_step (pos : Option Nat) (t : TagRec) (L : List TagRec) {ty a N : Nat} (h : a < N) :
    after pos (patch t (from' ty (a + 1) N)) (after pos (patch t (only ty a)) L) = after pos (patch t (from' ty a N)) L := by
  rw [after_after]
  apply after_congr
  intro ty' k' _
  simp only [only, from', ← Bool.decide_or]
  apply decide_eq_decide.2
  omega

theorem from_skip (pos : Option Nat) (t : TagRec) (L : List TagRec) {ty a N : Nat} (h : t.data ty a = none) :
    after pos (patch t (from' ty (a + 1) N)) L = after pos (patch t (from' ty a N)) L := by
  apply after_congr
  intro ty' k' hd
  simp only [from']
  apply decide_eq_decide.2
  constructor
  · omega
  · rintro ⟨rfl, h1, h2⟩
    refine ⟨rfl, ?_, h2⟩
    rcases Nat.lt_or_ge a k' with h' | h'
    · omega
    · obtain rfl : k' = a := by omega
      rw [h] at hd; cases hd

theorem link_get {st : Ld} (S : Links m num st) {ty a : Nat} (ht : ty < 6) (h : a < num ty) :
    (if ty = 5 then [0] else st.links ty)[a]? = some a := by
  by_cases h5 : ty = 5
  · subst h5
    rw [S.num5] at h
    obtain rfl : a = 0 := by omega
    rfl
  · rw [if_neg h5, S.links ty (by omega), List.getElem?_range h]

variable {st : Ld} {t : TagRec} {i : TagInfo} {ty : Nat}

theorem rElems_dense (hm : Machines m lw) (S : Links m num st) (D : DataOk m lw num t) (I : InfoOk t i) (ht : ty < 6)
    (hdef : t.defined ty = true) (hsp : t.sparse ty = false) (r : Bytes) : ∀ (j a f : Nat) (L : List TagRec) (bs : Bytes),
    a + j = num ty → j < f → PosOk t i.pos L → wAll (wElem m num t ty) (List.range' a j) = some bs →
    rElems lw i ty (num ty) f a (withTags st L) (bs ++ r) =
      some (withTags st (after i.pos (patch t (from' ty a (num ty))) L), r)
  | 0, a, f + 1, L, bs, ha, hf, hp, hb => by
    cases hb
    rw [rElems, if_pos (by omega), after_none]
    · rfl
    · intro ty' k' h
      simp only [from', decide_eq_true_eq] at h
      omega
  | j + 1, a, f + 1, L, bs, ha, hf, hp, hb => by
    have hlt : a < num ty := by omega
    rw [List.range'_succ] at hb
    obtain ⟨b, bs', e1, e2, rfl⟩ := wAll_cons hb
    cases hd : t.data ty a with
    | none => exact absurd hd (D.dense ty a ht hdef hsp hlt)
    | some rc =>
      have R := D.recs ty a rc ht hdef hlt hd
      simp only [wElem, hd, hsp, Bool.false_eq_true, if_false, List.nil_append, Option.map_id'] at e1
      have e3 := rRec_wRec hm (links_withTags S L) R e1 (bs' ++ r)
      rw [← I.dtype, ← I.size] at e3
      have e4 := keepRec_spec (st := st) (k := a) hp hd R.size
      have hne : ¬ a = num ty := by omega
      have hl := link_get (links_withTags S L) ht hlt
      have hsp' := I.sparse ty ht
      rw [hsp] at hsp'
      rw [rElems, if_neg hne]
      simp only [List.append_assoc, hl, e3, e4, hsp', Bool.false_eq_true, if_false]
      rw [rElems_dense hm S D I ht hdef hsp r j (a + 1) f _ bs' (by omega) (by omega) (posOk_after hp _) e2,
        from_step _ _ _ hlt]

/-- Reading of the number of the next element and the loop. -/
def rNext (lw : Nat) (i : TagInfo) (ty stop f : Nat) (st : Ld) (b : Bytes) : Option (Ld × Bytes) :=
  match rI lw st.u b with
  | none => none
  | some (q, b) => rElems lw i ty stop f q st b

theorem rElems_sparse (hm : Machines m lw) (S : Links m num st) (D : DataOk m lw num t) (I : InfoOk t i) (ht : ty < 6)
    (hdef : t.defined ty = true) (hsp : t.sparse ty = true) (r : Bytes) : ∀ (j a f : Nat) (L : List TagRec) (bs : Bytes),
    a + j = num ty → j < f → PosOk t i.pos L → wAll (wElem m num t ty) (List.range' a j) = some bs →
    rNext lw i ty (num ty) f (withTags st L) (bs ++ (wI m (num ty) ++ r)) =
      some (withTags st (after i.pos (patch t (from' ty a (num ty))) L), r)
  | 0, a, f + 1, L, bs, ha, hf, hp, hb => by
    cases hb
    have hu : (withTags st L).u = m.conv := S.u
    simp only [rNext, hu, List.nil_append, rI_wI hm (D.count ty ht)]
    rw [rElems, if_pos rfl, after_none]
    intro ty' k' h
    simp only [from', decide_eq_true_eq] at h
    omega
  | j + 1, a, f + 1, L, bs, ha, hf, hp, hb => by
    have hlt : a < num ty := by omega
    rw [List.range'_succ] at hb
    obtain ⟨b, bs', e1, e2, rfl⟩ := wAll_cons hb
    cases hd : t.data ty a with
    | none =>
      simp only [wElem, hd, hsp, if_true, Option.some.injEq] at e1
      subst e1
      rw [List.nil_append, rElems_sparse hm S D I ht hdef hsp r j (a + 1) (f + 1) L bs' (by omega) (by omega) hp e2,
        from_skip _ _ _ hd]
    | some rc =>
      have R := D.recs ty a rc ht hdef hlt hd
      simp only [wElem, hd, hsp, if_true, Option.map_eq_some_iff] at e1
      obtain ⟨b', e1, rfl⟩ := e1
      have hu : (withTags st L).u = m.conv := S.u
      have hfa : Fits m lw a := ⟨lt_trans hlt (D.count ty ht).1, lt_trans hlt (D.count ty ht).2⟩
      have e3 := rRec_wRec hm (links_withTags S L) R e1 (bs' ++ (wI m (num ty) ++ r))
      rw [← I.dtype, ← I.size] at e3
      have e4 := keepRec_spec (st := st) (k := a) hp hd R.size
      have hne : ¬ a = num ty := by omega
      have hl := link_get (links_withTags S L) ht hlt
      have hsp' := I.sparse ty ht
      rw [hsp] at hsp'
      have ih := rElems_sparse hm S D I ht hdef hsp r j (a + 1) f _ bs' (by omega) (by omega)
        (posOk_after hp (only ty a)) e2
      rw [from_step _ _ _ hlt] at ih
      rw [← ih]
      simp only [rNext, hu, List.append_assoc, rI_wI hm hfa]
      rw [rElems, if_neg hne]
      simp only [hl, e3, e4, hsp', if_true]
      rfl

theorem wType_some (D : DataOk m lw num t) (ht : ty < 6) : ∃ b, wType m num t ty = some b := by
  unfold wType
  by_cases hdef : t.defined ty = true
  · rw [if_pos hdef]
    obtain ⟨bs, e⟩ := wAll_some (f := wElem m num t ty) (List.range (num ty)) (by
      intro a ha
      have ha := List.mem_range.1 ha
      unfold wElem
      cases hd : t.data ty a with
      | none =>
        simp only
        cases hs : t.sparse ty with
        | true => exact ⟨_, rfl⟩
        | false => exact absurd hd (D.dense ty a ht hdef hs ha)
      | some rc =>
        obtain ⟨b, hb⟩ := wRec_some (D.recs ty a rc ht hdef ha hd)
        simp only [hb, Option.map_some]
        exact ⟨_, rfl⟩)
    exact ⟨_, by rw [e]; rfl⟩
  · rw [if_neg hdef]; exact ⟨_, rfl⟩

theorem rType_wType (hm : Machines m lw) (S : Links m num st) (D : DataOk m lw num t) (I : InfoOk t i) (ht : ty < 6)
    {L : List TagRec} (hp : PosOk t i.pos L) {b : Bytes} (hw : wType m num t ty = some b) (r : Bytes) :
    rType lw i (withTags st L) ty (b ++ r) =
      some (withTags st (after i.pos (patch t fun ty' k => decide (ty' = ty) && t.defined ty && decide (k < num ty)) L), r) := by
  unfold wType at hw
  unfold rType
  rw [I.defined ty ht]
  cases hdef : t.defined ty with
  | false =>
    rw [hdef, if_neg (by simp)] at hw
    cases hw
    rw [if_neg (by simp), after_none _ _ _ _ (by simp)]
    rfl
  | true =>
    rw [hdef, if_pos rfl, Option.map_eq_some_iff] at hw
    obtain ⟨bs, e1, rfl⟩ := hw
    have hcong : after i.pos (patch t fun ty' k => decide (ty' = ty) && true && decide (k < num ty)) L =
        after i.pos (patch t (from' ty 0 (num ty))) L := by
      apply after_congr
      intro ty' k _
      simp [from', Bool.decide_and]
    have hstop : (if ty = 5 then 1 else (withTags st L).sizes ty) = num ty := by
      by_cases h5 : ty = 5
      · subst h5; rw [if_pos rfl, S.num5]
      · rw [if_neg h5]; exact S.sizes ty (by omega)
    rw [List.range_eq_range'] at e1
    rw [if_pos rfl, hcong]
    simp only [hstop]
    rw [I.sparse ty ht]
    cases hsp : t.sparse ty with
    | false =>
      simp only [Bool.false_eq_true, if_false, List.append_nil]
      exact rElems_dense hm S D I ht hdef hsp r (num ty) 0 _ L bs (by omega) (by omega) hp e1
    | true =>
      simp only [if_true, List.append_assoc]
      have hu : (withTags st L).u = m.conv := S.u
      cases hq : rI lw (withTags st L).u (bs ++ (wI m (num ty) ++ r)) with
      | none =>
        have := rElems_sparse hm S D I ht hdef hsp r (num ty) 0 (num ty + 1) L bs (by omega) (by omega) hp e1
        simp only [rNext, hq] at this
        cases this
      | some q =>
        obtain ⟨q, b'⟩ := q
        simp only
        have := rElems_sparse hm S D I ht hdef hsp r (num ty) 0 (b'.length + num ty + 1) L bs (by omega) (by omega) hp e1
        simp only [rNext, hq] at this
        exact this

theorem rTypes_wData (hm : Machines m lw) (S : Links m num st) (D : DataOk m lw num t) (I : InfoOk t i) (r : Bytes) :
    ∀ (l : List Nat) (L : List TagRec) (bs : Bytes), (∀ ty ∈ l, ty < 6) → PosOk t i.pos L →
    wAll (wType m num t) l = some bs →
    rFor (fun st ty b => rType lw i st ty b) l (withTags st L) (bs ++ r) =
      some (withTags st (after i.pos (patch t fun ty k => decide (ty ∈ l) && t.defined ty && decide (k < num ty)) L), r)
  | [], L, bs, _, _, e => by
    cases e
    rw [after_none _ _ _ _ (by simp)]
    rfl
  | ty :: l, L, bs, hl, hp, e => by
    obtain ⟨b, bs', e1, e2, rfl⟩ := wAll_cons e
    have h1 := rType_wType hm S D I (hl ty (List.mem_cons_self ..)) hp e1 (bs' ++ r)
    simp only [rFor, List.append_assoc, h1]
    rw [rTypes_wData hm S D I r l _ bs' (fun x hx => hl x (List.mem_cons_of_mem _ hx)) (posOk_after hp _) e2, after_after]
    congr 3
    apply after_congr
    intro ty' k _
    by_cases h : ty' = ty
    · subst h; cases t.defined ty' <;> simp
    · simp [h]

/-- All data of a tag. -/
def allData (t : TagRec) (num : Nat → Nat) : Nat → Nat → Bool :=
  fun ty k => decide (ty < 6) && t.defined ty && decide (k < num ty)

theorem rData_wData (hm : Machines m lw) (S : Links m num st) (D : DataOk m lw num t) (I : InfoOk t i) {L : List TagRec}
    (hp : PosOk t i.pos L) {bs : Bytes} (hw : wData m num t = some bs) (r : Bytes) :
    rFor (fun st ty b => rType lw i st ty b) (List.range 6) (withTags st L) (bs ++ r) =
      some (withTags st (after i.pos (patch t (allData t num)) L), r) := by
  rw [rTypes_wData hm S D I r _ L bs (fun ty h => List.mem_range.1 h) hp hw]
  congr 3
  apply after_congr
  intro ty k _
  simp [allData]

theorem wData_some (D : DataOk m lw num t) : ∃ b, wData m num t = some b :=
  wAll_some _ fun _ h => wType_some D (List.mem_range.1 h)

end Verif.Pmf
