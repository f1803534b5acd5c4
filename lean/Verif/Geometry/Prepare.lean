import Mathlib.Data.List.Basic

/-!
Stored geometric data, `Mesh::PrepareGeometricData`, geometry.cpp L1233-1413, and
`Mesh::RemoveGeometricData`, L1147-1178.
-/

namespace Verif.Prepare

/-- `GeometricData`. -/
inductive Kind where
  | measure | centroid | barycenter | normal | orientation
  deriving DecidableEq

/-- Types of elements with stored data. -/
inductive Ty where
  | edge | face | cell
  deriving DecidableEq

/-- The mesh: flags `remember` (inmost_mesh.h L3254), stored values, valid and hidden elements by
type and number, faces with the right orientation. Values are of any type. -/
structure St (α : Type) where
  have' : Kind → Ty → Bool
  stored : Kind → Ty → Nat → α
  valid : Ty → Nat → Bool
  hidden : Ty → Nat → Bool
  oriented : Nat → Bool

variable {α : Type}

/-- `ShowGeometricData`, inmost_mesh.h L3261. -/
def show' (s : St α) (k : Kind) (e : Ty) : St α := { s with have' := fun k' e' => if k' = k ∧ e' = e then true else s.have' k' e' }

/-- `HideGeometricData`, inmost_mesh.h L3260. -/
def hide (s : St α) (k : Kind) (e : Ty) : St α := { s with have' := fun k' e' => if k' = k ∧ e' = e then false else s.have' k' e' }

/-- `GetGeometricData`: the stored value if there is one, otherwise the computed value. That the
computation does not depend on other stored data is a simplification. -/
def get (comp : Kind → Ty → Nat → α) (s : St α) (k : Kind) (e : Ty) (h : Nat) : α := if s.have' k e then s.stored k e h else comp k e h

/-- One type of elements, L1277-1304 and the same for other kinds: values of elements that are valid
and not hidden are computed and stored. Without a modification no element is hidden. -/
def prepareType (comp : Kind → Ty → Nat → α) (k : Kind) (mask : Ty → Bool) (s : St α) (e : Ty) : St α :=
  if mask e && !s.have' k e then
    show' { s with stored := fun k' e' h => if k' = k ∧ e' = e ∧ s.valid e h && !s.hidden e h then get comp s k e h else s.stored k' e' h } k e
  else s

/-- One entry of the table, L1237-1411. For ORIENTATION the flag is set in any case, L1270. -/
def prepareEntry (comp : Kind → Ty → Nat → α) (s : St α) (t : Kind × (Ty → Bool)) : St α :=
  match t.1 with
  | .orientation =>
    show' (if t.2 .face then { s with oriented := fun h => if s.valid .face h && !s.hidden .face h then true else s.oriented h } else s) .orientation .face
  | .normal => [Ty.face, .cell].foldl (prepareType comp .normal t.2) s
  | k => [Ty.edge, .face, .cell].foldl (prepareType comp k t.2) s

/-- `PrepareGeometricData`, L1233-1413. -/
def prepare (comp : Kind → Ty → Nat → α) (s : St α) (table : List (Kind × (Ty → Bool))) : St α := table.foldl (prepareEntry comp) s

/-- One entry of `RemoveGeometricData`, L1151-1176; values of deleted tags are lost, they are no
longer read. -/
def removeEntry (s : St α) (t : Kind × (Ty → Bool)) : St α :=
  match t.1 with
  | .orientation => if t.2 .face then hide s .orientation .face else s
  | .normal => [Ty.face, .cell].foldl (fun s e => if t.2 e then hide s .normal e else s) s
  | k => [Ty.edge, .face, .cell].foldl (fun s e => if t.2 e then hide s k e else s) s

/-- `RemoveGeometricData`, L1147-1178. -/
def remove (s : St α) (table : List (Kind × (Ty → Bool))) : St α := table.foldl removeEntry s

/-! ## Specification -/

/-- Calls of the user. -/
inductive Call where
  | prepare (table : List (Kind × (Ty → Bool)))
  | remove (table : List (Kind × (Ty → Bool)))

/-- A history of calls. -/
def run (comp : Kind → Ty → Nat → α) (s : St α) : List Call → St α
  | [] => s
  | .prepare t :: r => run comp (prepare comp s t) r
  | .remove t :: r => run comp (remove s t) r

/-- Stored data is right: for elements that are not hidden it is the computed value. -/
def Right (comp : Kind → Ty → Nat → α) (s : St α) : Prop :=
  ∀ k e h, k ≠ .orientation → s.have' k e = true → s.valid e h = true → s.hidden e h = false → s.stored k e h = comp k e h

/-! ## Lemmas -/

/-- Same elements. -/
def Same (s t : St α) : Prop := t.valid = s.valid ∧ t.hidden = s.hidden

theorem prepareType_spec (comp : Kind → Ty → Nat → α) (k : Kind) (hk : k ≠ .orientation) (mask : Ty → Bool) (s : St α) (e : Ty) (hr : Right comp s) :
    Right comp (prepareType comp k mask s e) ∧ Same s (prepareType comp k mask s e) ∧
      (∀ k' e', (prepareType comp k mask s e).have' k' e' = true ↔ s.have' k' e' = true ∨ (k' = k ∧ e' = e ∧ mask e = true)) := by
  unfold prepareType
  cases hm : mask e with
  | false =>
    simp only [Bool.false_and, Bool.false_eq_true, if_false]
    exact ⟨hr, ⟨rfl, rfl⟩, fun k' e' => by simp⟩
  | true =>
    cases hh : s.have' k e with
    | true =>
      simp only [Bool.not_true, Bool.and_false, Bool.false_eq_true, if_false]
      refine ⟨hr, ⟨rfl, rfl⟩, fun k' e' => ⟨.inl, ?_⟩⟩
      rintro (h | ⟨rfl, rfl, -⟩)
      · exact h
      · exact hh
    | false =>
      simp only [Bool.not_false, Bool.and_true, if_true]
      refine ⟨?_, ⟨rfl, rfl⟩, fun k' e' => ?_⟩
      · intro k' e' h h0 h1 h2 h3
        simp only [show'] at h1 h2 h3 ⊢
        by_cases hc : k' = k ∧ e' = e
        · obtain ⟨rfl, rfl⟩ := hc
          simp [h2, h3, get, hh]
        · rw [if_neg hc] at h1
          rw [if_neg (by simp only [Bool.and_eq_true]; tauto)]
          exact hr k' e' h h0 h1 h2 h3
      · simp only [show']
        by_cases hc : k' = k ∧ e' = e
        · simp [hc]
        · rw [if_neg hc]
          simp only [and_true]
          tauto

theorem foldTypes (comp : Kind → Ty → Nat → α) (k : Kind) (hk : k ≠ .orientation) (mask : Ty → Bool) : ∀ (es : List Ty) (s : St α), Right comp s →
    Right comp (es.foldl (prepareType comp k mask) s) ∧ Same s (es.foldl (prepareType comp k mask) s) ∧
      (∀ k' e', (es.foldl (prepareType comp k mask) s).have' k' e' = true ↔ s.have' k' e' = true ∨ (k' = k ∧ e' ∈ es ∧ mask e' = true))
  | [], s, hr => ⟨hr, ⟨rfl, rfl⟩, fun k' e' => by simp⟩
  | e :: r, s, hr => by
    obtain ⟨a1, a2, a3⟩ := prepareType_spec comp k hk mask s e hr
    obtain ⟨b1, b2, b3⟩ := foldTypes comp k hk mask r _ a1
    rw [List.foldl_cons]
    refine ⟨b1, ⟨b2.1.trans a2.1, b2.2.trans a2.2⟩, fun k' e' => ?_⟩
    rw [b3, a3, List.mem_cons]
    constructor
    · rintro ((h | ⟨h1, rfl, h3⟩) | ⟨h1, h2, h3⟩)
      · exact .inl h
      · exact .inr ⟨h1, .inl rfl, h3⟩
      · exact .inr ⟨h1, .inr h2, h3⟩
    · rintro (h | ⟨h1, rfl | h2, h3⟩)
      · exact .inl (.inl h)
      · exact .inl (.inr ⟨h1, rfl, h3⟩)
      · exact .inr ⟨h1, h2, h3⟩

theorem entry_right (comp : Kind → Ty → Nat → α) (s : St α) (t : Kind × (Ty → Bool)) (hr : Right comp s) :
    Right comp (prepareEntry comp s t) ∧ Same s (prepareEntry comp s t) ∧ ∀ k e, k ≠ .orientation →
      ((prepareEntry comp s t).have' k e = true ↔ s.have' k e = true ∨ (k = t.1 ∧ t.2 e = true ∧ ¬ (k = .normal ∧ e = .edge))) := by
  obtain ⟨k0, mask⟩ := t
  have three : ∀ e : Ty, e ∈ [Ty.edge, .face, .cell] := by intro e; cases e <;> simp
  cases k0 with
  | orientation =>
    simp only [prepareEntry]
    refine ⟨?_, ?_, ?_⟩
    · intro k e h h0 h1 h2 h3
      simp only [show'] at h1 h2 h3 ⊢
      rw [if_neg (by tauto)] at h1
      split at h1 <;> split at h2 <;> split at h3 <;> split <;> first | exact hr k e h h0 h1 h2 h3 | contradiction
    · constructor <;> simp only [show'] <;> split <;> rfl
    · intro k e h0
      simp only [show']
      rw [if_neg (by tauto)]
      split <;> simp [h0]
  | normal =>
    obtain ⟨a, b, c⟩ := foldTypes comp .normal (by simp) mask [Ty.face, .cell] s hr
    refine ⟨a, b, fun k e _ => (c k e).trans (or_congr_right ?_)⟩
    cases e <;> simp +contextual
  | measure =>
    obtain ⟨a, b, c⟩ := foldTypes comp .measure (by simp) mask [Ty.edge, .face, .cell] s hr
    refine ⟨a, b, fun k e _ => (c k e).trans (or_congr_right ?_)⟩
    constructor
    · rintro ⟨rfl, _, h⟩
      exact ⟨rfl, h, by simp⟩
    · rintro ⟨rfl, h, _⟩
      exact ⟨rfl, three e, h⟩
  | centroid =>
    obtain ⟨a, b, c⟩ := foldTypes comp .centroid (by simp) mask [Ty.edge, .face, .cell] s hr
    refine ⟨a, b, fun k e _ => (c k e).trans (or_congr_right ?_)⟩
    constructor
    · rintro ⟨rfl, _, h⟩
      exact ⟨rfl, h, by simp⟩
    · rintro ⟨rfl, h, _⟩
      exact ⟨rfl, three e, h⟩
  | barycenter =>
    obtain ⟨a, b, c⟩ := foldTypes comp .barycenter (by simp) mask [Ty.edge, .face, .cell] s hr
    refine ⟨a, b, fun k e _ => (c k e).trans (or_congr_right ?_)⟩
    constructor
    · rintro ⟨rfl, _, h⟩
      exact ⟨rfl, h, by simp⟩
    · rintro ⟨rfl, h, _⟩
      exact ⟨rfl, three e, h⟩

theorem prepare_right (comp : Kind → Ty → Nat → α) : ∀ (table : List (Kind × (Ty → Bool))) (s : St α), Right comp s →
    Right comp (prepare comp s table) ∧ Same s (prepare comp s table) ∧ ∀ k e, k ≠ .orientation →
      ((prepare comp s table).have' k e = true ↔ s.have' k e = true ∨ ((∃ t ∈ table, k = t.1 ∧ t.2 e = true) ∧ ¬ (k = .normal ∧ e = .edge)))
  | [], s, hr => ⟨hr, ⟨rfl, rfl⟩, fun k e _ => by simp [prepare]⟩
  | t :: r, s, hr => by
    obtain ⟨a1, a2, a3⟩ := entry_right comp s t hr
    obtain ⟨b1, b2, b3⟩ := prepare_right comp r _ a1
    refine ⟨b1, ⟨b2.1.trans a2.1, b2.2.trans a2.2⟩, fun k e h0 => ?_⟩
    change (prepare comp (prepareEntry comp s t) r).have' k e = true ↔ _
    rw [b3 k e h0, a3 k e h0]
    simp only [List.mem_cons, exists_eq_or_imp]
    tauto

theorem hideTypes (k : Kind) (mask : Ty → Bool) : ∀ (es : List Ty) (s : St α),
    (es.foldl (fun s e => if mask e then hide s k e else s) s).stored = s.stored ∧ Same s (es.foldl (fun s e => if mask e then hide s k e else s) s) ∧
      ∀ k' e', (es.foldl (fun s e => if mask e then hide s k e else s) s).have' k' e' = true ↔ s.have' k' e' = true ∧ ¬ (k' = k ∧ e' ∈ es ∧ mask e' = true)
  | [], s => ⟨rfl, ⟨rfl, rfl⟩, fun k' e' => by simp⟩
  | e :: r, s => by
    rw [List.foldl_cons]
    obtain ⟨b1, b2, b3⟩ := hideTypes k mask r (if mask e then hide s k e else s)
    cases hm : mask e with
    | false =>
      simp only [hm, Bool.false_eq_true, if_false] at b1 b2 b3 ⊢
      refine ⟨b1, b2, fun k' e' => (b3 k' e').trans (and_congr_right fun _ => not_congr ?_)⟩
      rw [List.mem_cons]
      constructor
      · rintro ⟨a, b, c⟩
        exact ⟨a, .inr b, c⟩
      · rintro ⟨a, rfl | b, c⟩
        · rw [hm] at c
          simp at c
        · exact ⟨a, b, c⟩
    | true =>
      simp only [hm, if_true] at b1 b2 b3 ⊢
      refine ⟨b1, b2, fun k' e' => (b3 k' e').trans ?_⟩
      simp only [hide, List.mem_cons]
      by_cases hc : k' = k ∧ e' = e
      · obtain ⟨rfl, rfl⟩ := hc
        simp [hm]
      · rw [if_neg hc]
        tauto

theorem removeEntry_spec (s : St α) (t : Kind × (Ty → Bool)) : (removeEntry s t).stored = s.stored ∧ Same s (removeEntry s t) ∧
    ∀ k e, k ≠ .orientation → ((removeEntry s t).have' k e = true ↔ s.have' k e = true ∧ ¬ (k = t.1 ∧ t.2 e = true ∧ ¬ (k = .normal ∧ e = .edge))) := by
  obtain ⟨k0, mask⟩ := t
  cases k0 with
  | orientation =>
    simp only [removeEntry]
    split
    · exact ⟨rfl, ⟨rfl, rfl⟩, fun k e h0 => by simp [hide, h0]⟩
    · exact ⟨rfl, ⟨rfl, rfl⟩, fun k e h0 => by simp [h0]⟩
  | normal =>
    obtain ⟨a, b, c⟩ := hideTypes (α := α) .normal mask [Ty.face, .cell] s
    refine ⟨a, b, fun k e _ => (c k e).trans (and_congr_right fun _ => not_congr ?_)⟩
    cases e <;> simp +contextual
  | measure =>
    obtain ⟨a, b, c⟩ := hideTypes (α := α) .measure mask [Ty.edge, .face, .cell] s
    refine ⟨a, b, fun k e _ => (c k e).trans (and_congr_right fun _ => not_congr ?_)⟩
    cases e <;> simp +contextual
  | centroid =>
    obtain ⟨a, b, c⟩ := hideTypes (α := α) .centroid mask [Ty.edge, .face, .cell] s
    refine ⟨a, b, fun k e _ => (c k e).trans (and_congr_right fun _ => not_congr ?_)⟩
    cases e <;> simp +contextual
  | barycenter =>
    obtain ⟨a, b, c⟩ := hideTypes (α := α) .barycenter mask [Ty.edge, .face, .cell] s
    refine ⟨a, b, fun k e _ => (c k e).trans (and_congr_right fun _ => not_congr ?_)⟩
    cases e <;> simp +contextual

theorem remove_spec : ∀ (table : List (Kind × (Ty → Bool))) (s : St α), (remove s table).stored = s.stored ∧ Same s (remove s table) ∧
    ∀ k e, k ≠ .orientation → ((remove s table).have' k e = true ↔
      s.have' k e = true ∧ ¬ ((∃ t ∈ table, k = t.1 ∧ t.2 e = true) ∧ ¬ (k = .normal ∧ e = .edge)))
  | [], s => ⟨rfl, ⟨rfl, rfl⟩, fun k e _ => by simp [remove]⟩
  | t :: r, s => by
    obtain ⟨a1, a2, a3⟩ := removeEntry_spec s t
    obtain ⟨b1, b2, b3⟩ := remove_spec r (removeEntry s t)
    refine ⟨b1.trans a1, ⟨b2.1.trans a2.1, b2.2.trans a2.2⟩, fun k e h0 => ?_⟩
    change (remove (removeEntry s t) r).have' k e = true ↔ _
    rw [b3 k e h0, a3 k e h0]
    simp only [List.mem_cons, exists_eq_or_imp]
    generalize (∃ t', t' ∈ r ∧ k = t'.1 ∧ t'.2 e = true) = P
    generalize (k = Kind.normal ∧ e = Ty.edge) = Q
    generalize (k = t.1) = R
    generalize (t.2 e = true) = T
    generalize (s.have' k e = true) = H
    by_cases P <;> by_cases Q <;> by_cases R <;> by_cases T <;> simp [*]

theorem remove_right (comp : Kind → Ty → Nat → α) (table : List (Kind × (Ty → Bool))) (s : St α) (hr : Right comp s) : Right comp (remove s table) := by
  obtain ⟨a, b, c⟩ := remove_spec table s
  intro k e h h0 h1 h2 h3
  rw [a]
  rw [b.1] at h2
  rw [b.2] at h3
  exact hr k e h h0 ((c k e h0).1 h1).1 h2 h3

/-! ## Properties -/

/-- C164: after any history of `PrepareGeometricData` and `RemoveGeometricData` the data of an element
that is not hidden is the computed one. -/
theorem C164_values (comp : Kind → Ty → Nat → α) (calls : List Call) : ∀ (s : St α), (∀ k e, s.have' k e = false) →
    ∀ k e h, k ≠ .orientation → s.valid e h = true → s.hidden e h = false → get comp (run comp s calls) k e h = comp k e h := by
  have gen : ∀ (calls : List Call) (s : St α), Right comp s → Right comp (run comp s calls) ∧ Same s (run comp s calls) := by
    intro calls
    induction calls with
    | nil => exact fun s hr => ⟨hr, rfl, rfl⟩
    | cons c r ih =>
      intro s hr
      cases c with
      | prepare t =>
        obtain ⟨a, b, _⟩ := prepare_right comp t s hr
        obtain ⟨p, q⟩ := ih _ a
        exact ⟨p, q.1.trans b.1, q.2.trans b.2⟩
      | remove t =>
        obtain ⟨p, q⟩ := ih _ (remove_right comp t s hr)
        exact ⟨p, q.1.trans (remove_spec t s).2.1.1, q.2.trans (remove_spec t s).2.1.2⟩
  intro s h0 k e h hk hv hh
  obtain ⟨p, q⟩ := gen calls s fun k e h _ h1 => by simp [h0] at h1
  unfold get
  split
  · rename_i hhave
    exact p k e h hk hhave (by rw [q.1]; exact hv) (by rw [q.2]; exact hh)
  · rfl

/-- C164, full claim: data of a kind is stored for a type exactly if it was stored before or the
table asks for it; `RemoveGeometricData` is the reverse. Proved for kinds other than the orientation;
normals of edges are never stored. -/
theorem C164_flags_partial (comp : Kind → Ty → Nat → α) (s : St α) (hr : Right comp s) (table : List (Kind × (Ty → Bool))) (k : Kind) (e : Ty)
    (hk : k ≠ .orientation) (hn : ¬ (k = .normal ∧ e = .edge)) :
    ((prepare comp s table).have' k e = true ↔ s.have' k e = true ∨ ∃ t ∈ table, k = t.1 ∧ t.2 e = true) ∧
    ((remove s table).have' k e = true ↔ s.have' k e = true ∧ ¬ ∃ t ∈ table, k = t.1 ∧ t.2 e = true) := by
  constructor
  · rw [(prepare_right comp table s hr).2.2 k e hk]
    tauto
  · rw [(remove_spec table s).2.2 k e hk, and_iff_left hn]

/-- A mesh with nothing stored and two faces. -/
def sample : St Nat :=
  { have' := fun _ _ => false, stored := fun _ _ _ => 0, valid := fun e h => e == .face && decide (h < 2), hidden := fun _ _ => false, oriented := fun _ => false }

/-- The hypotheses are met; the stored value is read. -/
example : (∀ k e, sample.have' k e = false) ∧ sample.valid .face 1 = true ∧
    (prepare (fun _ _ h => h + 5) sample [(.measure, fun _ => true)]).have' .measure .face = true ∧
    (prepare (fun _ _ h => h + 5) sample [(.measure, fun _ => true)]).stored .measure .face 1 = 6 := by
  refine ⟨fun _ _ => rfl, by decide, by decide, by decide⟩

/-- C164 fails for the orientation: a table that asks for it only for cells sets the flag of faces,
and no face is turned. -/
theorem C164_orientation_fails : ∃ (s : St Nat) (comp : Kind → Ty → Nat → Nat) (table : List (Kind × (Ty → Bool))),
    (∀ t ∈ table, t.2 .face = false) ∧ s.valid .face 0 = true ∧ s.have' .orientation .face = false ∧
    (prepare comp s table).have' .orientation .face = true ∧ (prepare comp s table).oriented 0 = false :=
  ⟨sample, fun _ _ _ => 0, [(.orientation, fun e => e == .cell)], by decide, by decide, by decide, by decide, by decide⟩

end Verif.Prepare
