import Verif.Storage.Init

/-!
# Properties C07-C10: element storage and tags
-/

namespace Verif.Storage

variable {V : Type} {zero : Nat → Option Nat → V}

theorem Inv.liveEq {s s' : Sto V} (I : Inv zero s) (h1 : s'.ty = s.ty) (h2 : s'.tags = s.tags)
    (h3 : s'.ndense = s.ndense) (h4 : s'.dense = s.dense) (h5 : s'.emptyDense = s.emptyDense) :
    Inv zero s' := by
  have hl : liveS s' = liveS s := liveS_ty fun u => by rw [h1]; exact ⟨rfl, rfl⟩
  refine ⟨by rw [h1]; exact I.L, ?_⟩
  rw [hl]
  exact dinv_congr I.D h2 h3 h4 h5 (fun t => by rw [h1]; exact ⟨rfl, rfl, rfl⟩) (fun _ _ h => h)
    (fun t a h => I.D.bound t a h)

/-- Every reachable state satisfies the representation invariant. -/
theorem Reach.inv {s : Sto V} (R : Reach zero s) : Inv zero s := by
  induction R with
  | init h => exact (init_inv h).1
  | create t _ ht e ih =>
    obtain ⟨s1, id1, e1, I1, _⟩ := tie_spec ih ht
    rw [e1] at e; cases e; exact I1
  | @destroy s s' t id _ e ih =>
    have hs : slot s t id ≠ none := by
      intro h; unfold Verif.Storage.destroy at e; rw [h] at e; cases e
    obtain ⟨a, ha⟩ := Option.ne_none_iff_exists'.1 hs
    have hm : s.modified = false := by
      cases hm : s.modified with
      | false => rfl
      | true =>
        unfold Verif.Storage.destroy untie at e
        rw [ha] at e
        simp [hm] at e
    obtain ⟨s1, e1, I1, _⟩ := destroy_spec ih hm ha
    rw [e1] at e; cases e; exact I1
  | reorder t _ ht e ih =>
    obtain ⟨s1, e1, I1, _⟩ := reorderEmpty_spec ih ht
    rw [e1] at e; cases e; exact I1
  | @write s s' t id i v _ e ih =>
    unfold Verif.Storage.write at e
    split at e
    · next a τ h1 h2 =>
      by_cases hd : τ.defined t = true
      · obtain ⟨s1, e1, I1, _⟩ := write_spec ih h1 h2 hd v
        have e' : Verif.Storage.write s t id i v = some s' := by
          unfold Verif.Storage.write; rw [h1, h2]; exact e
        rw [e1] at e'; cases e'; exact I1
      · rw [if_neg hd] at e; cases e
    · cases e
  | @delData s s' t id i _ e ih =>
    unfold Verif.Storage.delData at e
    split at e
    · next a τ h1 h2 =>
      by_cases hd : τ.defined t = true
      · obtain ⟨s1, e1, I1, _⟩ := delData_spec ih h1 h2 hd
        have e' : Verif.Storage.delData zero s t id i = some s' := by
          unfold Verif.Storage.delData; rw [h1, h2]; exact e
        rw [e1] at e'; cases e'; exact I1
      · rw [if_neg hd] at e; cases e
    · cases e
  | createTag _ P e ih =>
    obtain ⟨s1, i1, e1, I1, _⟩ := createTag_spec ih P
    rw [e1] at e; cases e; exact I1
  | @deleteTag s s' i mask _ e ih =>
    cases hf : findTag s i with
    | none => unfold Verif.Storage.deleteTag at e; rw [hf] at e; cases e
    | some τ =>
      obtain ⟨s1, e1, I1, _⟩ := deleteTag_spec (mask := mask) ih hf
      rw [e1] at e; cases e; exact I1
  | modification b _ ih => exact ih.liveEq rfl rfl rfl rfl rfl

/-! ## C07: slots and local numbers -/

/-- Two live elements of one type never share a storage slot, and the slot of an element maps back
to it. -/
theorem C07_slots {s : Sto V} (R : Reach zero s) (t : ET) :
    (∀ id id' a, slot s t id = some a → slot s t id' = some a → id = id') ∧
    (∀ id a, slot s t id = some a → a < (s.ty t).nback ∧ (s.ty t).back a = some id) ∧
    (∀ a id, a < (s.ty t).nback → (s.ty t).back a = some id → slot s t id = some a) := by
  refine ⟨fun id id' a h h' => R.inv.slot_inj h h', fun id a h => ?_, fun a id h h' => ?_⟩
  · obtain ⟨h1, h2⟩ := slot_some.1 h
    exact ⟨R.inv.D.bound t a ⟨id, h⟩, ((R.inv.L t).b1 id a h1 h2).2⟩
  · exact slot_some.2 ((R.inv.L t).b2 a id h h')

/-- Creation of an element always succeeds, also inside a modification phase.  It returns a number
that denoted no element, keeps every other element with its slot and all its data, and
gives the new element a slot nobody uses and a fresh record for every tag. -/
theorem C07_create {s : Sto V} (R : Reach zero s) {t : ET} (ht : t ≠ 5) :
    ∃ s' id, tie zero s t = some (s', id) ∧ Reach zero s' ∧
      ¬ alive s t id ∧
      (∃ a, slot s' t id = some a ∧ ∀ j, slot s t j ≠ some a) ∧
      (∀ u j, (u ≠ t ∨ j ≠ id) → slot s' u j = slot s u j) ∧
      (∀ u j i, (u ≠ t ∨ j ≠ id) → read s' u j i = read s u j i) ∧
      s'.tags = s.tags ∧
      (∀ τ ∈ s.tags, τ.defined t = true →
        read s' t id τ.id = some (if τ.flag t then none else some (zero τ.dtype τ.size))) := by
  obtain ⟨s', id, e, I, ht', hm, h1, ⟨a, h2, h3⟩, h4, h5, h6⟩ := tie_spec R.inv ht
  refine ⟨s', id, e, R.create t ht e, by simp [alive, h1],
    ⟨a, h2, fun j h => h3 ⟨j, h⟩⟩, h4, ?_, ht', ?_⟩
  · intro u j i hne
    unfold read
    rw [h4 u j hne]
    cases h : slot s u j with
    | none => rfl
    | some b => exact h5 u b ⟨j, h⟩ i
  · intro τ hτ hd
    rw [h6, freshVal, R.inv.D.find hτ]
    simp only [hd, if_true]
    split <;> rfl

/-- Destruction of a live element succeeds outside of a modification phase; the number denotes no
element any more and all other elements keep slots and data. -/
theorem C07_destroy {s : Sto V} (R : Reach zero s) (hm : s.modified = false) {t : ET} {id : Nat}
    (h : alive s t id) :
    ∃ s', destroy zero s t id = some s' ∧ Reach zero s' ∧ ¬ alive s' t id ∧
      (∀ u j, (u ≠ t ∨ j ≠ id) → slot s' u j = slot s u j) ∧
      (∀ u j i, (u ≠ t ∨ j ≠ id) → read s' u j i = read s u j i) ∧ s'.tags = s.tags := by
  obtain ⟨a, ha⟩ := Option.ne_none_iff_exists'.1 h
  obtain ⟨s', e, I, ht', _, h1, h2, h3⟩ := destroy_spec R.inv hm ha
  refine ⟨s', e, R.destroy t id e, by simp [alive, h1], h2, ?_, ht'⟩
  intro u j i hne
  unfold read
  rw [h2 u j hne]
  cases hj : slot s u j with
  | none => rfl
  | some b =>
    refine h3 u b ?_ i
    by_cases e : u = t
    · subst e
      right
      rintro rfl
      exact hne.elim (fun h => h rfl) (fun h => h (R.inv.slot_inj hj ha))
    · exact Or.inl e

/-! ## C08: renumbering -/

/-- `ReorderEmpty` always succeeds, keeps the set of elements and all data of all elements of all
types, and packs the slots of the type: they are `0, ..., n-1` where `n` is the number of
elements. -/
theorem C08_reorder {s : Sto V} (R : Reach zero s) {t : ET} (ht : t ≠ 5) :
    ∃ s', reorderEmpty zero s t = some s' ∧ Reach zero s' ∧
      (∀ u id, alive s' u id ↔ alive s u id) ∧
      (∀ u id, u ≠ t → slot s' u id = slot s u id) ∧
      (∀ u id i, read s' u id i = read s u id i) ∧ s'.tags = s.tags ∧
      ∃ n, (∀ a, (∃ id, slot s' t id = some a) ↔ a < n) ∧
        n = ((List.range (s.ty t).nlinks).filter fun id => (slot s t id).isSome).length := by
  obtain ⟨s', e, I, h1, h2, h3, h4, h5, h6⟩ := reorderEmpty_spec R.inv ht
  refine ⟨s', e, R.reorder t ht e, fun u id => by unfold alive; rw [ne_eq, h3], h4, h5, h1, _, h6, ?_⟩
  unfold liveCount
  congr 1
  apply List.filter_congr
  intro i hi
  have hi : i < (s.ty t).nlinks := List.mem_range.1 hi
  unfold slot
  rw [if_pos hi]
  cases (s.ty t).links i <;> simp

/-! ## C09: tags -/

/-- Two different tags never share a data column on a type, and a column belongs to one type. -/
theorem C09_columns {s : Sto V} (R : Reach zero s) {τ σ : TagRec} (hτ : τ ∈ s.tags)
    (hσ : σ ∈ s.tags) {t u : ET} {p : Nat} (h1 : τ.flag t = false) (h2 : τ.pos t = .col p)
    (h3 : σ.flag u = false) (h4 : σ.pos u = .col p) : τ = σ ∧ t = u :=
  R.inv.D.dist τ hτ σ hσ t u p (colOf_some.2 ⟨h1, h2⟩) (colOf_some.2 ⟨h3, h4⟩)

/-- Writing the data of one tag on one element succeeds whenever the tag is defined on the type.
Afterwards the value is read back, and nothing else in the mesh has changed. -/
theorem C09_write {s : Sto V} (R : Reach zero s) {t : ET} {id i : Nat} {τ : TagRec}
    (ha : alive s t id) (hf : findTag s i = some τ) (hd : τ.defined t = true) (v : V) :
    ∃ s', write s t id i v = some s' ∧ Reach zero s' ∧ read s' t id i = some (some v) ∧
      (∀ u j k, (u ≠ t ∨ j ≠ id ∨ k ≠ i) → read s' u j k = read s u j k) ∧
      (∀ u j, slot s' u j = slot s u j) ∧ s'.tags = s.tags := by
  obtain ⟨a, ha⟩ := Option.ne_none_iff_exists'.1 ha
  obtain ⟨s', e, I, h1, _, h2, h3, h4⟩ := write_spec R.inv ha hf hd v
  exact ⟨s', e, R.write t id i v e, h3, h4, h2, h1⟩

/-- Deletion of data resets exactly the data of the one tag on the one element. -/
theorem C09_delData {s : Sto V} (R : Reach zero s) {t : ET} {id i : Nat} {τ : TagRec}
    (ha : alive s t id) (hf : findTag s i = some τ) (hd : τ.defined t = true) :
    ∃ s', delData zero s t id i = some s' ∧ Reach zero s' ∧
      read s' t id i = some (if τ.flag t then none else some (zero τ.dtype τ.size)) ∧
      (∀ u j k, (u ≠ t ∨ j ≠ id ∨ k ≠ i) → read s' u j k = read s u j k) ∧
      (∀ u j, slot s' u j = slot s u j) ∧ s'.tags = s.tags := by
  obtain ⟨a, ha⟩ := Option.ne_none_iff_exists'.1 ha
  obtain ⟨s', e, I, h1, _, h2, h3, h4⟩ := delData_spec R.inv ha hf hd
  exact ⟨s', e, R.delData t id i e, h3, h4, h2, h1⟩

/-- `HaveData` on a live element answers whether there is data to read: for a tag defined on the
type, and also for a tag that is not defined on the type, unless the tag was sparse there before
(then the source looks into sparse storage, which may be gone). -/
theorem C09_haveData {s : Sto V} (R : Reach zero s) {t : ET} {id i : Nat} {τ : TagRec}
    (ha : alive s t id) (hf : findTag s i = some τ)
    (hd : τ.flag t = true → τ.defined t = true) :
    ∃ b, haveData s t id i = some b ∧ (b = true ↔ ∃ v, read s t id i = some (some v)) := by
  obtain ⟨a, ha⟩ := Option.ne_none_iff_exists'.1 ha
  have hτ := (find_mem hf).1
  have hb := R.inv.D.bound t a ⟨id, ha⟩
  cases hfl : τ.flag t with
  | true =>
    have hn := R.inv.D.spNeed τ hτ t (hd hfl) hfl
    refine ⟨(getRec i ((s.ty t).sparse a)).isSome, ?_, ?_⟩
    · unfold haveData; rw [hf]; simp [hfl, ha, hn, hb]
    · unfold read; rw [ha]; simp only
      rw [readAt_sparse hf (hd hfl) hfl, if_pos (by omega)]
      simp [Option.isSome_iff_exists]
  | false =>
    refine ⟨τ.pos t != Pos.undef, ?_, ?_⟩
    · unfold haveData; rw [hf]; simp [hfl]
    · unfold read; rw [ha]; simp only
      cases hp : τ.pos t with
      | undef =>
        have hx : readAt s t a i = none := by
          unfold readAt; rw [hf]; simp [TagRec.defined, hp]
        simp [hx]
      | sparse => exact absurd hp (R.inv.D.unflagged τ hτ t hfl)
      | col p =>
        have hc := colOf_some.2 ⟨hfl, hp⟩
        rw [readAt_dense hf hc, if_pos ⟨(R.inv.D.colLt τ hτ t p hc).1, by
          rw [R.inv.D.colSize τ hτ t p hc]; exact hb⟩]
        simp

/-- `CreateTag` for a name in use returns the tag of this name, otherwise a tag with an address not
in use before; the returned tag has the name and data type and is defined on all types of the
mask.  All other tags and all data of other tags are unchanged.  The data of the tag itself is
kept on types where it was defined and fresh on types where it was not. -/
theorem C09_createTag {s : Sto V} (R : Reach zero s) {name : String} {dtype : Nat}
    {size : Option Nat} {mask sparse : ET → Bool} {newId : Nat}
    (P : CreatePre s name dtype size mask sparse newId) :
    ∃ s' i τ', createTag zero s name dtype size mask sparse newId = some (s', i) ∧ Reach zero s' ∧
      (∀ τ ∈ s.tags, τ.name = name → i = τ.id) ∧
      ((∀ τ ∈ s.tags, τ.name ≠ name) → ∀ τ ∈ s.tags, i ≠ τ.id) ∧
      findTag s' i = some τ' ∧ τ'.name = name ∧ τ'.dtype = dtype ∧
      (∀ u, mask u = true → τ'.defined u = true) ∧
      (∀ k, k ≠ i → findTag s' k = findTag s k) ∧
      (∀ u j, slot s' u j = slot s u j) ∧
      (∀ u j k, k ≠ i → read s' u j k = read s u j k) ∧
      ∀ u j, alive s u j →
        ((∃ τ, findTag s i = some τ ∧ τ.defined u = true) → read s' u j i = read s u j i) ∧
        (¬ (∃ τ, findTag s i = some τ ∧ τ.defined u = true) → mask u = true →
          read s' u j i = some (if sparse u then none else some (zero dtype τ'.size))) := by
  obtain ⟨s', i, e, I, hm, h1, h2, h3, h4, ⟨τ', q1, q2, q3, q4, q5, q6, q7⟩, h5⟩ :=
    createTag_spec R.inv P
  refine ⟨s', i, τ', e, R.createTag P e, ?_, ?_, q1, q2, q3, fun u hu => (q6 u hu).1, h2, h1, ?_, ?_⟩
  · intro τ hτ hn
    apply h3
    have := find_of_mem_nodup (f := (·.name)) R.inv.D.names hτ
    unfold findName
    rw [hn] at this
    exact this
  · intro hn τ hτ he
    have := R.inv.D.find hτ
    rw [← he, h4 (findName_none.2 hn), P.fresh] at this
    cases this
  · intro u j k hk
    unfold read
    rw [h1]
    cases hj : slot s u j with
    | none => rfl
    | some b => exact h5 u b k ⟨j, hj⟩ hk
  · intro u j hj
    obtain ⟨a, ha⟩ := Option.ne_none_iff_exists'.1 hj
    obtain ⟨r1, r2⟩ := q7 u a ⟨j, ha⟩
    unfold read
    rw [h1, ha]
    simp only
    refine ⟨?_, ?_⟩
    · rintro ⟨τ, g1, g2⟩
      apply r2
      rintro ⟨_, g3⟩
      have := g3 τ g1
      unfold TagRec.defined at g2
      rw [this] at g2; simp at g2
    · intro hn hmk
      rw [r1 ⟨hmk, fun τ hτ => ?_⟩, q3]
      by_cases hp : τ.pos u = .undef
      · exact hp
      · exact absurd ⟨τ, hτ, by unfold TagRec.defined; simpa using hp⟩ hn

/-- `DeleteTag` on a mask of types: the tag is no longer defined there, it disappears exactly when
it is defined nowhere, and all data of other tags and of the tag on other types is unchanged. -/
theorem C09_deleteTag {s : Sto V} (R : Reach zero s) {i : Nat} {mask : ET → Bool} {τ : TagRec}
    (hf : findTag s i = some τ) :
    ∃ s', deleteTag zero s i mask = some s' ∧ Reach zero s' ∧
      (findTag s' i = none ↔ ∀ u, τ.defined u = true → mask u = true) ∧
      (∀ τ', findTag s' i = some τ' → τ'.name = τ.name ∧
        ∀ u, τ'.defined u = true ↔ τ.defined u = true ∧ mask u = false) ∧
      (∀ k, k ≠ i → findTag s' k = findTag s k) ∧
      (∀ u j, slot s' u j = slot s u j) ∧
      (∀ u j k, (k ≠ i ∨ mask u = false) → read s' u j k = read s u j k) := by
  obtain ⟨s', e, I, hm, h1, h2, h3, h4, h5⟩ := deleteTag_spec (mask := mask) R.inv hf
  refine ⟨s', e, R.deleteTag i mask e, h3, ?_, h2, h1, ?_⟩
  · intro τ' h'
    obtain ⟨g1, -, -, g2⟩ := h4 τ' h'
    refine ⟨g1, fun u => ?_⟩
    rw [g2]; simp
  · intro u j k hk
    unfold read
    rw [h1]
    cases hj : slot s u j with
    | none => rfl
    | some b => exact h5 u b k ⟨j, hj⟩ hk

/-! ## C10: sparsity of a re-created tag -/

/-- The full property: after `CreateTag` that newly defines the tag on a type, the tag is sparse
on the type exactly if the call asked for it. -/
def C10Full (zero : Nat → Option Nat → V) (s : Sto V) (name : String) (dtype : Nat)
    (size : Option Nat) (mask sparse : ET → Bool) (newId : Nat) : Prop :=
  ∀ s' i τ', createTag zero s name dtype size mask sparse newId = some (s', i) →
    findTag s' i = some τ' → ∀ u, mask u = true →
      (∀ τ, findTag s i = some τ → τ.defined u = false) → τ'.flag u = sparse u

/-- It holds if the tag was not sparse before on a type now requested as dense. -/
theorem C10_partial {s : Sto V} (R : Reach zero s) {name : String} {dtype : Nat}
    {size : Option Nat} {mask sparse : ET → Bool} {newId : Nat}
    (P : CreatePre s name dtype size mask sparse newId) :
    C10Full zero s name dtype size mask sparse newId := by
  intro s' i τ' e hf u hu hnew
  obtain ⟨s1, i1, e1, -, -, -, -, -, -, ⟨τ1, q1, -, -, -, -, q6, -⟩, -⟩ := createTag_spec R.inv P
  rw [e1] at e; cases e
  rw [q1] at hf; cases hf
  refine (q6 u hu).2 (fun τ hτ => ?_)
  have := hnew τ hτ
  unfold TagRec.defined at this
  simpa using this

/-! ## Witnesses

A mesh with data values in `Nat`; types 0 (nodes) and 1 (edges). -/

section Witness

def z : Nat → Option Nat → Nat := fun _ _ => 0
def m0 : ET → Bool := fun t => t = 0
def m01 : ET → Bool := fun t => t = 0 || t = 1
def nomask : ET → Bool := fun _ => false

def w0 : Sto Nat := (initSto z).get (by decide +kernel)
/-- A dense tag "a" on nodes and edges, a sparse tag "b" on nodes and edges. -/
def w1 : Sto Nat := ((createTag z w0 "a" 0 (some 1) m01 nomask 10).get (by decide +kernel)).1
def w2 : Sto Nat := ((createTag z w1 "b" 0 none m01 m01 11).get (by decide +kernel)).1
/-- Three nodes. -/
def w3 : Sto Nat := ((tie z w2 0).get (by decide +kernel)).1
def w4 : Sto Nat := ((tie z w3 0).get (by decide +kernel)).1
def w5 : Sto Nat := ((tie z w4 0).get (by decide +kernel)).1
/-- Data on nodes 1 and 2. -/
def w6 : Sto Nat := (write w5 0 2 10 77).get (by decide +kernel)
def w7 : Sto Nat := (write w6 0 1 11 5).get (by decide +kernel)
/-- Node 0 is destroyed. -/
def w8 : Sto Nat := (destroy z w7 0 0).get (by decide +kernel)

theorem getEq {α : Type} {o : Option α} (h : o.isSome = true) : o = some (o.get h) :=
  (Option.some_get h).symm

theorem getEq2 {α β : Type} {o : Option (α × β)} (h : o.isSome = true) :
    o = some ((o.get h).1, (o.get h).2) := (Option.some_get h).symm

theorem w0_reach : Reach z w0 := .init (getEq _)
theorem w1_pre : CreatePre w0 "a" 0 (some 1) m01 nomask 10 := by
  have h : w0.tags = [] := (init_inv (getEq (by decide +kernel) : initSto z = some w0)).2.1
  refine ⟨?_, ?_, ?_⟩
  · unfold findTag; rw [h]; rfl
  · intro τ hτ; unfold findName at hτ; rw [h] at hτ; cases hτ
  · intro τ hτ; unfold findName at hτ; rw [h] at hτ; cases hτ
theorem w1_reach : Reach z w1 := .createTag w0_reach w1_pre (getEq2 _)
theorem w2_pre : CreatePre w1 "b" 0 none m01 m01 11 := by
  have h : (findName w1 "b").isNone = true := by decide +kernel
  have h2 : (findTag w1 11).isNone = true := by decide +kernel
  rw [Option.isNone_iff_eq_none] at h h2
  refine ⟨h2, ?_, ?_⟩
  · intro τ hτ; rw [h] at hτ; cases hτ
  · intro τ hτ; rw [h] at hτ; cases hτ
theorem w2_reach : Reach z w2 := .createTag w1_reach w2_pre (getEq2 _)
theorem w3_reach : Reach z w3 := .create 0 w2_reach (by decide) (getEq2 _)
theorem w4_reach : Reach z w4 := .create 0 w3_reach (by decide) (getEq2 _)
theorem w5_reach : Reach z w5 := .create 0 w4_reach (by decide) (getEq2 _)
theorem w6_reach : Reach z w6 := .write 0 2 10 77 w5_reach (getEq _)
theorem w7_reach : Reach z w7 := .write 0 1 11 5 w6_reach (getEq _)
theorem w8_reach : Reach z w8 := .destroy 0 0 w7_reach (getEq _)

/-- The hypotheses of `C07_*`, `C08_reorder`, `C09_*` hold in `w8`: node 2 in slot 2 has data 77 of
tag "a", node 1 has data 5 of the sparse tag "b" and node 2 has none; slot 0 is a hole. -/
example : Reach z w8 ∧ slot w8 0 0 = none ∧ slot w8 0 1 = some 1 ∧ slot w8 0 2 = some 2 ∧
    read w8 0 2 10 = some (some 77) ∧ read w8 0 1 11 = some (some 5) ∧
    read w8 0 2 11 = some none ∧ w8.modified = false :=
  ⟨w8_reach, by decide +kernel, by decide +kernel, by decide +kernel, by decide +kernel,
    by decide +kernel, by decide +kernel, by decide +kernel⟩

/-- After `ReorderEmpty` node 2 has moved to slot 0 with its data. -/
example : (reorderEmpty z w8 0).map (fun s => (slot s 0 2, slot s 0 1, read s 0 2 10)) =
    some (some 0, some 1, some (some 77)) := by decide +kernel

/-- Deleting tag "b" on nodes keeps the tag on edges; creating it again as dense on nodes leaves
it flagged sparse there. -/
def w9 : Sto Nat := (deleteTag z w8 11 m0).get (by decide +kernel)
theorem w9_reach : Reach z w9 := .deleteTag 11 m0 w8_reach (getEq _)

def w10 : Sto Nat × Nat := (createTag z w9 "b" 0 none m0 nomask 12).get (by decide +kernel)
def w10tag : TagRec := (findTag w10.1 w10.2).get (by decide +kernel)

/-- The full property C10 is false of the code: a reachable state, a tag not defined on nodes, a
call that asks for a dense tag on nodes, and a result that is sparse on nodes. -/
theorem C10_fails : ∃ s : Sto Nat, Reach z s ∧ ¬ C10Full z s "b" 0 none m0 nomask 12 := by
  refine ⟨w9, w9_reach, fun h => ?_⟩
  have hs : createTag z w9 "b" 0 none m0 nomask 12 = some (w10.1, w10.2) := getEq2 _
  have hf : findTag w10.1 w10.2 = some w10tag := getEq _
  have := h w10.1 w10.2 w10tag hs hf 0 rfl (by
    intro τ hτ
    have hi : (findTag w9 w10.2).map (fun τ => τ.defined 0) = some false := by decide +kernel
    rw [hτ] at hi
    simpa using hi)
  have h2 : w10tag.flag 0 = true := by decide +kernel
  rw [h2] at this
  cases this

/-- `C10_partial` is not vacuous: creating the tag again as sparse. -/
example : CreatePre w9 "b" 0 none m0 m0 12 := by
  have h2 : (findTag w9 12).isNone = true := by decide +kernel
  rw [Option.isNone_iff_eq_none] at h2
  refine ⟨h2, fun τ hτ => ⟨?_, Or.inl rfl⟩, fun τ hτ t ht _ _ => ht⟩
  have h : (findName w9 "b").map (·.dtype) = some 0 := by decide +kernel
  rw [hτ] at h
  simpa using h

end Witness

end Verif.Storage
