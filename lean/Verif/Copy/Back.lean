import Verif.Copy.Lemmas

/-! # Calls that do not read `back_links` -/

namespace Verif.Copy

open Verif.Storage

variable {V : Type} {zero : Nat → Option Nat → V}

theorem withBack_upd (B : ET → Nat → Option Nat) (s : Sto V) (t : ET) (S : TS V) (D : Nat → Col V) :
    withBack B { s with ty := upd s.ty t S, dense := D } =
      { withBack B s with ty := upd (withBack B s).ty t { S with back := B t }, dense := D } := by
  unfold withBack
  simp only [Sto.mk.injEq, and_true]
  funext u
  by_cases h : u = t
  · subst h; simp only [upd_self]
  · simp only [upd_ne _ _ h]

theorem write_back (B : ET → Nat → Option Nat) (s : Sto V) (t : ET) (id i : Nat) (v : V) :
    write (withBack B s) t id i v = (write s t id i v).map (withBack B) := by
  have e1 : slot (withBack B s) t id = slot s t id := rfl
  have e2 : findTag (withBack B s) i = findTag s i := rfl
  unfold write
  rw [e1, e2]
  cases slot s t id with
  | none => rfl
  | some a =>
    cases findTag s i with
    | none => rfl
    | some τ =>
      simp only
      split
      · split
        · show (if a < (s.ty t).nsparse then _ else _) = _
          split
          · simp only [Option.map_some, Option.some.injEq]
            exact (withBack_upd B s t { s.ty t with sparse := upd (s.ty t).sparse a (putRec i v ((s.ty t).sparse a)) }
              s.dense).symm
          · rfl
        · split
          · next p _ =>
            show (if p < s.ndense ∧ a < (s.dense p).n then _ else _) = _
            split <;> rfl
          · rfl
      · rfl

theorem delData_back (B : ET → Nat → Option Nat) (s : Sto V) (t : ET) (id i : Nat) :
    delData zero (withBack B s) t id i = (delData zero s t id i).map (withBack B) := by
  have e1 : slot (withBack B s) t id = slot s t id := rfl
  have e2 : findTag (withBack B s) i = findTag s i := rfl
  unfold delData
  rw [e1, e2]
  cases slot s t id with
  | none => rfl
  | some a =>
    cases findTag s i with
    | none => rfl
    | some τ =>
      simp only
      split
      · split
        · show (if a < (s.ty t).nsparse then _ else _) = _
          split
          · simp only [Option.map_some, Option.some.injEq]
            exact (withBack_upd B s t { s.ty t with sparse := upd (s.ty t).sparse a (eraseRec i ((s.ty t).sparse a)) }
              s.dense).symm
          · rfl
        · split
          · next p _ =>
            show (if p < s.ndense ∧ a < (s.dense p).n then _ else _) = _
            split <;> rfl
          · rfl
      · rfl

theorem reallocate_back (B : ET → Nat → Option Nat) (s : Sto V) (t : ET) (m : Nat) :
    ∃ B', reallocate zero (withBack B s) t m = withBack B' (reallocate zero s t m) := by
  refine ⟨upd B t fun k => if k < (s.ty t).nback then B t k else none, ?_⟩
  unfold reallocate withBack
  simp only [Sto.mk.injEq, and_true]
  funext u
  by_cases h : u = t
  · subst h
    simp only [upd_self]
    split
    · unfold resizeSparse
      simp only
      split <;> rfl
    · rfl
  · simp only [upd_ne _ _ h]

/-- The part of TieElement before `back_links` is written. -/
def tieA (zero : Nat → Option Nat → V) (s : Sto V) (t : ET) : Sto V :=
  let A := pickAddr (s.ty t) s.modified
  let I := pickId A.2 A.1
  let s1 := { s with ty := upd s.ty t I.2 }
  if I.2.capacity ≠ (s.ty t).capacity then reallocate zero s1 t I.2.capacity else s1

theorem tie_eq (s : Sto V) (t : ET) : tie zero s t =
    if (pickAddr (s.ty t) s.modified).1 < ((tieA zero s t).ty t).nback then
      some ({ tieA zero s t with ty := upd (tieA zero s t).ty t { (tieA zero s t).ty t with
        back := upd ((tieA zero s t).ty t).back (pickAddr (s.ty t) s.modified).1
          (some (pickId (pickAddr (s.ty t) s.modified).2 (pickAddr (s.ty t) s.modified).1).1) } },
        (pickId (pickAddr (s.ty t) s.modified).2 (pickAddr (s.ty t) s.modified).1).1)
    else none := rfl

theorem pickAddr_back (S : TS V) (b : Nat → Option Nat) (m : Bool) :
    pickAddr { S with back := b } m = ((pickAddr S m).1, { (pickAddr S m).2 with back := b }) := by
  cases S with
  | mk n l nb bk es el ns sp =>
    cases es with
    | nil => rfl
    | cons a r => cases m <;> rfl

theorem pickId_back (S : TS V) (b : Nat → Option Nat) (a : Nat) :
    pickId { S with back := b } a = ((pickId S a).1, { (pickId S a).2 with back := b }) := by
  cases S with
  | mk n l nb bk es el ns sp => cases el <;> rfl

theorem tieA_back (B : ET → Nat → Option Nat) (s : Sto V) (t : ET) :
    ∃ B', tieA zero (withBack B s) t = withBack B' (tieA zero s t) := by
  have e1 : pickAddr ((withBack B s).ty t) (withBack B s).modified =
      ((pickAddr (s.ty t) s.modified).1, { (pickAddr (s.ty t) s.modified).2 with back := B t }) := pickAddr_back _ _ _
  unfold tieA
  rw [e1]
  simp only
  rw [pickId_back]
  generalize pickId (pickAddr (s.ty t) s.modified).2 (pickAddr (s.ty t) s.modified).1 = J
  simp only
  have e3 : ({ withBack B s with ty := upd (withBack B s).ty t { J.2 with back := B t } } : Sto V) =
      withBack B { s with ty := upd s.ty t J.2 } := (withBack_upd B s t J.2 s.dense).symm
  rw [e3]
  show ∃ B', (if J.2.capacity ≠ (s.ty t).capacity then reallocate zero (withBack B { s with ty := upd s.ty t J.2 }) t
    J.2.capacity else _) = _
  split
  · exact reallocate_back B _ t _
  · exact ⟨B, rfl⟩

theorem tie_back (B : ET → Nat → Option Nat) (s : Sto V) (t : ET) :
    ∃ B', tie zero (withBack B s) t = (tie zero s t).map fun r => (withBack B' r.1, r.2) := by
  obtain ⟨B1, h1⟩ := tieA_back (zero := zero) B s t
  have e1 : pickAddr ((withBack B s).ty t) (withBack B s).modified =
      ((pickAddr (s.ty t) s.modified).1, { (pickAddr (s.ty t) s.modified).2 with back := B t }) := pickAddr_back _ _ _
  rw [tie_eq, tie_eq, h1, e1]
  simp only
  rw [pickId_back]
  simp only
  generalize pickId (pickAddr (s.ty t) s.modified).2 (pickAddr (s.ty t) s.modified).1 = J
  generalize (pickAddr (s.ty t) s.modified).1 = a
  refine ⟨upd B1 t (upd (B1 t) a (some J.1)), ?_⟩
  show (if a < ((tieA zero s t).ty t).nback then _ else _) = _
  split
  · simp only [Option.map_some, Option.some.injEq, Prod.mk.injEq, and_true]
    unfold withBack
    simp only [Sto.mk.injEq, and_true]
    funext u
    by_cases h : u = t
    · subst h; simp only [upd_self]
    · simp only [upd_ne _ _ h]
  · rfl

theorem untie_back (B : ET → Nat → Option Nat) (s : Sto V) (t : ET) (id : Nat) :
    ∃ B', untie (withBack B s) t id = (untie s t id).map (withBack B') := by
  unfold untie
  have e5 : slot (withBack B s) t id = slot s t id := rfl
  rw [e5]
  show ∃ B', (if s.modified then _ else _) = _
  split
  · exact ⟨B, rfl⟩
  · cases slot s t id with
    | none => exact ⟨B, rfl⟩
    | some b =>
      simp only
      show ∃ B', (if b < (s.ty t).nback then _ else _) = _
      split
      · refine ⟨upd B t (upd (B t) b none), ?_⟩
        simp only [Option.map_some, Option.some.injEq]
        unfold withBack
        simp only [Sto.mk.injEq, and_true]
        funext u
        by_cases h : u = t
        · subst h; simp only [upd_self]
        · simp only [upd_ne _ _ h]
      · exact ⟨B, rfl⟩

theorem destroy_back (B : ET → Nat → Option Nat) (s : Sto V) (t : ET) (id : Nat) :
    ∃ B', destroy zero (withBack B s) t id = (destroy zero s t id).map (withBack B') := by
  have e1 : slot (withBack B s) t id = slot s t id := rfl
  unfold destroy
  rw [e1]
  cases hs : slot s t id with
  | none => exact ⟨B, rfl⟩
  | some a =>
    simp only
    show ∃ B', (if (s.tags.filter fun τ => τ.defined t && τ.flag t) ≠ [] ∧ ¬ a < (s.ty t).nsparse then _ else _) = _
    split
    · exact ⟨B, rfl⟩
    · let L := List.foldl (fun l τ => eraseRec τ.id l) ((s.ty t).sparse a)
          (s.tags.filter fun τ => τ.defined t && τ.flag t)
      have e3 := withBack_upd B s t { s.ty t with sparse := upd (s.ty t).sparse a L }
        (foldCols t (clearCell zero a) s.tags s.dense)
      obtain ⟨B', h⟩ := untie_back B _ t id
      exact ⟨B', (congrArg (fun x => untie x t id) e3.symm).trans h⟩

theorem createOn_back (B : ET → Nat → Option Nat) (s : Sto V) (i : Nat) (t : ET) (sp : Bool) :
    createOn zero (withBack B s) i t sp = withBack B (createOn zero s i t sp) := by
  have e2 : findTag (withBack B s) i = findTag s i := rfl
  unfold createOn
  rw [e2]
  cases findTag s i with
  | none => rfl
  | some τ =>
    simp only
    split
    · rfl
    · split <;> rfl

theorem createTag_back (B : ET → Nat → Option Nat) (s : Sto V) (name : String) (dtype : Nat) (size : Option Nat)
    (mask sparse : ET → Bool) (newId : Nat) :
    createTag zero (withBack B s) name dtype size mask sparse newId =
      (createTag zero s name dtype size mask sparse newId).map fun r => (withBack B r.1, r.2) := by
  have e2 : findName (withBack B s) name = findName s name := rfl
  have key : ∀ (s0 : Sto V) (i : Nat), allTypes.foldl (fun s t => if mask t then createOn zero s i t (sparse t) else s)
      (withBack B s0) = withBack B (allTypes.foldl (fun s t => if mask t then createOn zero s i t (sparse t) else s) s0) := by
    intro s0 i
    generalize allTypes = l
    induction l generalizing s0 with
    | nil => rfl
    | cons t l ih =>
      rw [List.foldl_cons, List.foldl_cons, ← ih]
      congr 1
      split
      · exact createOn_back B s0 i t _
      · rfl
  have alloc : ∀ (s0 : Sto V) need, allocSparse (withBack B s0) need = withBack B (allocSparse s0 need) := by
    intro s0 need
    unfold allocSparse withBack
    simp only [Sto.mk.injEq, and_true]
    funext t
    split <;> rfl
  unfold createTag
  rw [e2]
  cases findName s name with
  | none =>
    simp only [Option.map_some, Option.some.injEq, Prod.mk.injEq, and_true]
    exact (congrArg (fun x => allocSparse x _) (key { s with tags := s.tags ++
        [⟨newId, name, dtype, size, fun _ => .undef, fun _ => false⟩] } newId)).trans (alloc _ _)
  | some τ =>
    simp only
    by_cases h : τ.dtype = dtype ∧ (size = none ∨ size = τ.size)
    · rw [if_pos h, if_pos h]
      simp only [Option.map_some, Option.some.injEq, Prod.mk.injEq, and_true]
      exact (congrArg (fun x => allocSparse x _) (key s τ.id)).trans (alloc _ _)
    · rw [if_neg h, if_neg h]; rfl

theorem dropSparse_back (S : TS V) (b : Nat → Option Nat) (i n : Nat) :
    dropSparse { S with back := b } i n = (dropSparse S i n).map fun S => { S with back := b } := by
  induction n with
  | zero => rfl
  | succ n ih =>
    unfold dropSparse
    rw [ih]
    cases dropSparse S i n with
    | none => rfl
    | some S1 =>
      simp only [Option.map_some]
      cases S1.links n with
      | none => rfl
      | some a =>
        simp only
        split <;> rfl

theorem deleteOn_back (B : ET → Nat → Option Nat) (s : Sto V) (i : Nat) (t : ET) :
    deleteOn zero (withBack B s) i t = (deleteOn zero s i t).map (withBack B) := by
  have e2 : findTag (withBack B s) i = findTag s i := rfl
  unfold deleteOn
  rw [e2]
  cases findTag s i with
  | none => rfl
  | some τ =>
    simp only
    split
    · rfl
    · split
      · have e3 : dropSparse ((withBack B s).ty t) i ((withBack B s).ty t).nlinks =
          (dropSparse (s.ty t) i (s.ty t).nlinks).map fun S => { S with back := B t } := dropSparse_back _ _ _ _
        rw [e3]
        cases dropSparse (s.ty t) i (s.ty t).nlinks with
        | none => rfl
        | some S =>
          simp only [Option.map_some, Option.some.injEq]
          unfold withBack
          simp only [Sto.mk.injEq, and_true]
          funext u
          by_cases h : u = t
          · subst h; simp only [upd_self]
          · simp only [upd_ne _ _ h]
      · split
        · next p _ =>
          show (if p < s.ndense then _ else _) = _
          split <;> rfl
        · rfl

theorem deleteTag_back (B : ET → Nat → Option Nat) (s : Sto V) (i : Nat) (mask : ET → Bool) :
    deleteTag zero (withBack B s) i mask = (deleteTag zero s i mask).map (withBack B) := by
  have e2 : findTag (withBack B s) i = findTag s i := rfl
  have key : ∀ l, ∀ s0 : Sto V, deleteOnAll zero (withBack B s0) i mask l =
      (deleteOnAll zero s0 i mask l).map (withBack B) := by
    intro l
    induction l with
    | nil => intro s0; rfl
    | cons t l ih =>
      intro s0
      unfold deleteOnAll
      split
      · rw [deleteOn_back]
        cases deleteOn zero s0 i t with
        | none => rfl
        | some s1 => exact ih s1
      · exact ih s0
  unfold deleteTag
  rw [e2, key]
  cases findTag s i with
  | none => rfl
  | some τ =>
    simp only
    cases deleteOnAll zero s i mask allTypes with
    | none => rfl
    | some s1 =>
      simp only [Option.map_some]
      split
      · simp only [Option.map_some, Option.some.injEq]
        unfold withBack
        simp only [Sto.mk.injEq, and_true, true_and]
        funext t
        split <;> rfl
      · rfl

end Verif.Copy
