import Verif.Unknowns.Lemmas

/-!
# C33: numbering of unknowns; C34: registration slots
-/

namespace Verif.Unknowns

/-! ## C34 -/

/-- C34: whatever calls came before, registration succeeds and returns a slot that is not in use; it stores the entry there, active,
and changes no other slot. -/
theorem C34_register (hist : List Op) (s : Registry) (h : run Registry.init hist = some s) (b : Entry) :
    ∃ s' r, register s b = some (s', r) ∧ r ∉ listRegistered s ∧ listRegistered s' = (List.range s'.reg.length).filter
        (fun i => i = r ∨ i ∈ listRegistered s) ∧ s'.reg[r]? = some (some (stored b r)) ∧ s'.act[r]? = some true ∧
      ∀ i, i ≠ r → s'.reg[i]? = s.reg[i]? ∧ s'.act[i]? = s.act[i]? := by
  have hinv := run_inv _ _ rinv_init hist h
  obtain ⟨s', r, h1, _, h3, h4, h5, h6⟩ := register_spec s hinv b
  refine ⟨s', r, h1, by simp [listRegistered, h3], ?_, h4, h5, h6⟩
  unfold listRegistered
  apply List.filter_congr
  intro i hi
  rw [List.mem_range] at hi
  by_cases hir : i = r
  · subst hir; simp [isRegistered, h4]
  · have : isRegistered s' i = isRegistered s i := by unfold isRegistered; rw [(h6 i hir).1]
    rw [this]
    simp only [hir, false_or, List.mem_filter, List.mem_range]
    by_cases hr : isRegistered s i = true
    · have : i < s.reg.length := by
        unfold isRegistered at hr
        split at hr
        · rename_i hb; exact (List.getElem?_eq_some_iff.1 hb).1
        · cases hr
      simp [hr, this]
    · simp [hr]

/-- C34: removing a registered entry succeeds, frees its slot and changes no other slot. -/
theorem C34_unregister (hist : List Op) (s : Registry) (h : run Registry.init hist = some s) (i : Nat)
    (hi : i ∈ listRegistered s) :
    ∃ s', unregister s i = some s' ∧ i ∉ listRegistered s' ∧
      ∀ j, j ≠ i → s'.reg[j]? = s.reg[j]? ∧ s'.act[j]? = s.act[j]? := by
  have hinv := run_inv _ _ rinv_init hist h
  obtain ⟨s', h1, _, h3, h4⟩ := unregister_spec s hinv i (List.mem_filter.1 hi).2
  exact ⟨s', h1, by simp [listRegistered, isRegistered, h3], h4⟩

/-- C34: removing an entry that is not registered is refused. -/
theorem C34_unregister_absent (s : Registry) (i : Nat) (hi : i ∉ listRegistered s) : unregister s i = none := by
  unfold unregister
  split
  · rename_i b hb
    exfalso; apply hi
    unfold listRegistered
    rw [List.mem_filter]
    exact ⟨List.mem_range.2 (List.getElem?_eq_some_iff.1 hb).1, by simp [isRegistered, hb]⟩
  · rfl

/-- C34: switching an entry off and on changes only the activity of this entry: the list of registered entries, the other
slots and the kind, types and mask of the entry stay. -/
theorem C34_activity (hist : List Op) (s : Registry) (h : run Registry.init hist = some s) (i : Nat)
    (hi : i ∈ listRegistered s) :
    (∃ s', deactivate s i = some s' ∧ s'.act[i]? = some false ∧ listRegistered s' = listRegistered s ∧
      ∀ j, j ≠ i → s'.reg[j]? = s.reg[j]? ∧ s'.act[j]? = s.act[j]?) ∧
    (∃ s', activate s i = some s' ∧ s'.act[i]? = some true ∧ listRegistered s' = listRegistered s ∧
      (∀ b, s.reg[i]? = some (some b) → ∃ b', s'.reg[i]? = some (some b') ∧ b'.kind = b.kind ∧ b'.mesh = b.mesh ∧
        b'.types = b.types ∧ b'.mask = b.mask ∧ b'.inverse = b.inverse ∧ b'.regIndex = some i) ∧
      ∀ j, j ≠ i → s'.reg[j]? = s.reg[j]? ∧ s'.act[j]? = s.act[j]?) := by
  have hinv := run_inv _ _ rinv_init hist h
  have hr := (List.mem_filter.1 hi).2
  unfold isRegistered at hr
  split at hr
  · rename_i b hb
    have hlt := (List.getElem?_eq_some_iff.1 hb).1
    have hlen := hinv.len
    have hlist : ∀ (c : Entry) (a : Bool), listRegistered ⟨s.reg.set i (some c), s.act.set i a, s.del⟩ = listRegistered s := by
      intro c a
      unfold listRegistered
      simp only [List.length_set]
      apply List.filter_congr
      intro j _
      unfold isRegistered
      by_cases hji : j = i
      · subst hji; simp only [hb, List.getElem?_set_self hlt]
      · simp only [List.getElem?_set_ne (fun hh => hji hh.symm)]
    refine ⟨⟨_, by unfold deactivate; rw [hb], by simp [hlen, hlt], hlist _ _, fun j hj => ?_⟩,
      ⟨_, by unfold activate; rw [hb], by simp [hlen, hlt], hlist _ _, fun c hc => ?_, fun j hj => ?_⟩⟩
    · simp only [List.getElem?_set_ne (fun hh => hj hh.symm), and_self]
    · rw [hb, Option.some.injEq, Option.some.injEq] at hc
      subst hc
      exact ⟨{ b with regIndex := some i, offDefined := fun t => b.offDefined t || b.types t }, by simp [hlt],
        rfl, rfl, rfl, rfl, rfl, rfl⟩
    · simp only [List.getElem?_set_ne (fun hh => hj hh.symm), and_self]
  · cases hr

/-! ## C33 -/

/-- For an active entry of a reachable registry, validity on an existing element is: the entry applies to it. -/
theorem isValid_iff (s : Registry) (hinv : RInv s) (it : Nat) (b : Entry) (hb : s.reg[it]? = some (some b))
    (ha : s.act[it]? = some true) (m : MeshView) (t k : Nat) :
    b.isValid m t k = true ↔ b.types t = true ∧ ∀ mask, b.mask = some mask → m.marker mask t k ≠ b.inverse := by
  obtain ⟨h1, h2⟩ := hinv.active it b hb ha
  unfold Entry.isValid
  rw [h1]
  cases hm : b.mask with
  | none =>
    simp only [Option.isSome_some, Bool.true_and, Bool.and_true, Bool.and_eq_true, reduceCtorEq, false_implies, implies_true,
      and_true]
    exact ⟨fun h => h.2, fun h => ⟨h2 t h, h⟩⟩
  | some mask =>
    simp only [Option.isSome_some, Bool.true_and, Bool.and_eq_true, bne_iff_ne, ne_eq, Option.some.injEq, forall_eq']
    exact ⟨fun h => ⟨h.1.2, h.2⟩, fun h => ⟨⟨h2 t h.1, h.1⟩, h.2⟩⟩

/-- The elements that get numbers are exactly those with unknowns. -/
theorem visit_iff (s : Registry) (hinv : RInv s) (views : Nat → MeshView)
    (hok : ∀ (it : Nat) (b : Entry), s.reg[it]? = some (some b) → s.act[it]? = some true → WellUsed (views b.mesh) b)
    (it t k pos : Nat) :
    IsUnknown s views it t k pos ↔ ∃ n, ((it, t, k), some n) ∈ visit s views ∧ pos < n := by
  constructor
  · rintro ⟨b, hb, ha, hap, hu⟩
    obtain ⟨n, hn, hiff⟩ := size_spec (views b.mesh) b (hok it b hb ha) t k hap
    have hpos := (hiff pos).2 hu
    obtain ⟨h1, h2, h3, h4, h5, h6⟩ := hap
    refine ⟨n, (mem_visit s views _ _).2 ⟨b, hb, ha, ?_⟩, hpos⟩
    rw [mem_visitEntry]
    refine ⟨t, k, rfl, h1, h4, h2, h3, h5, (isValid_iff s hinv it b hb ha _ t k).2 ⟨h4, h6⟩, ?_, hn.symm⟩
    rw [hn]; intro h; cases h; omega
  · rintro ⟨n, hm, hpos⟩
    obtain ⟨b, hb, ha, hm⟩ := (mem_visit s views _ _).1 hm
    obtain ⟨t', k', he, h1, h4, h2, h3, h5, h6, h7, h8⟩ := (mem_visitEntry views _ b _ _).1 hm
    simp only [Prod.mk.injEq] at he
    obtain ⟨-, rfl, rfl⟩ := he
    have hap : Applies (views b.mesh) b t k := ⟨h1, h2, h3, h4, h5, ((isValid_iff s hinv it b hb ha _ t k).1 h6).2⟩
    obtain ⟨n', hn', hiff⟩ := size_spec (views b.mesh) b (hok it b hb ha) t k hap
    rw [hn', Option.some.injEq] at h8
    subst h8
    exact ⟨b, hb, ha, hap, (hiff pos).1 hpos⟩

theorem visit_some (s : Registry) (hinv : RInv s) (views : Nat → MeshView)
    (hok : ∀ (it : Nat) (b : Entry), s.reg[it]? = some (some b) → s.act[it]? = some true → WellUsed (views b.mesh) b) :
    ∀ v ∈ visit s views, v.2.isSome := by
  rintro ⟨q, sz⟩ hv
  obtain ⟨b, hb, ha, hm⟩ := (mem_visit s views _ _).1 hv
  obtain ⟨t, k, he, h1, h4, h2, h3, h5, h6, h7, h8⟩ := (mem_visitEntry views _ b _ _).1 hm
  have hap : Applies (views b.mesh) b t k := ⟨h1, h2, h3, h4, h5, ((isValid_iff s hinv _ b hb ha _ t k).1 h6).2⟩
  obtain ⟨n', hn', _⟩ := size_spec (views b.mesh) b (hok _ b hb ha) t k hap
  rw [h8, hn']; rfl

/-- The index of an unknown is the offset of its element plus its position. -/
theorem indexOf_eq (s : Registry) (hinv : RInv s) (views : Nat → MeshView) (off : Offsets)
    (hok : ∀ (it : Nat) (b : Entry), s.reg[it]? = some (some b) → s.act[it]? = some true → WellUsed (views b.mesh) b)
    (it t k pos : Nat) (hu : IsUnknown s views it t k pos) : indexOf s views off it t k pos = some (off (it, t, k) + pos) := by
  obtain ⟨b, hb, ha, hap, hu⟩ := hu
  have hv := (isValid_iff s hinv it b hb ha (views b.mesh) t k).2 ⟨hap.2.2.2.1, hap.2.2.2.2.2⟩
  unfold indexOf
  rw [hb]
  simp only
  unfold Entry.index
  unfold HasUnknown at hu
  cases hk : b.kind with
  | multi parts => exact absurd hk ((hok it b hb ha).1 parts)
  | simple sm =>
    rw [hk] at hu
    cases sm with
    | single tag => simp only at hu; simp [hu.1, hv]
    | block tags => simp [hv]
    | vector tag => simp only at hu; simp [hu.2, hv]
    | status tags st tbl =>
      obtain ⟨tag, row, _, _, h3, h4⟩ := hu
      simp [hv, h3, h4]

theorem noNull_of_inv (s : Registry) (hinv : RInv s) : noNull s = true := by
  unfold noNull
  rw [List.all_eq_true]
  intro it hit
  rw [List.mem_range] at hit
  have hlen := hinv.len
  cases hr : s.reg[it]? with
  | none => rw [List.getElem?_eq_none_iff] at hr; omega
  | some o =>
    cases ha : s.act[it]? with
    | none => rw [List.getElem?_eq_none_iff] at ha; omega
    | some a =>
      cases a with
      | false => rfl
      | true =>
        cases o with
        | none => rw [hinv.inactive it hr] at ha; cases ha
        | some b => rfl

/-- What a numbering of one process must satisfy: every unknown has an index in the interval of the process, different unknowns have
different indices, every index of the interval is used. -/
def Numbered (p : Proc) (r : Numbering) : Prop :=
  (∀ it t k pos, IsUnknown p.reg p.views it t k pos →
    ∃ i, indexOf p.reg p.views r.off it t k pos = some i ∧ r.first ≤ i ∧ i < r.last) ∧
  (∀ it t k pos it' t' k' pos' i, IsUnknown p.reg p.views it t k pos → IsUnknown p.reg p.views it' t' k' pos' →
    indexOf p.reg p.views r.off it t k pos = some i → indexOf p.reg p.views r.off it' t' k' pos' = some i →
    it = it' ∧ t = t' ∧ k = k' ∧ pos = pos') ∧
  (∀ i, r.first ≤ i → i < r.last → ∃ it t k pos, IsUnknown p.reg p.views it t k pos ∧
    indexOf p.reg p.views r.off it t k pos = some i)

theorem numbered_local (p : Proc) (hist : List Op) (h : run Registry.init hist = some p.reg) (hok : ProcOk p) (acc : Nat) :
    ∃ off n, enumerateLocal p.reg p.views p.off = some (off, n) ∧
      Numbered p ⟨acc, n + acc, shiftOffsets p.reg p.views off acc⟩ := by
  have hinv := run_inv _ _ rinv_init hist h
  obtain ⟨off, n, h1, h2, h3, h4, h5, h6⟩ := number_spec p.off 0 (visit p.reg p.views) (visit_nodup _ _)
    (visit_some p.reg hinv p.views hok)
  have hsh : ∀ q m, (q, some m) ∈ visit p.reg p.views → shiftOffsets p.reg p.views off acc q = off q + acc := by
    intro q m hm
    unfold shiftOffsets
    rw [if_pos (List.mem_map.2 ⟨_, hm, rfl⟩)]
  have hidx := fun it t k pos hu => indexOf_eq p.reg hinv p.views (shiftOffsets p.reg p.views off acc) hok it t k pos hu
  refine ⟨off, n, by unfold enumerateLocal; rw [if_pos (noNull_of_inv _ hinv)]; exact h1, ?_, ?_, ?_⟩
  · intro it t k pos hu
    obtain ⟨m, hm, hlt⟩ := (visit_iff p.reg hinv p.views hok it t k pos).1 hu
    refine ⟨_, hidx it t k pos hu, ?_, ?_⟩
    · rw [hsh _ m hm]; simp only; omega
    · rw [hsh _ m hm]
      have := h4 _ m hm
      simp only; omega
  · intro it t k pos it' t' k' pos' i hu hu' hi hi'
    obtain ⟨m, hm, hlt⟩ := (visit_iff p.reg hinv p.views hok it t k pos).1 hu
    obtain ⟨m', hm', hlt'⟩ := (visit_iff p.reg hinv p.views hok it' t' k' pos').1 hu'
    simp only at hi hi'
    rw [hidx it t k pos hu, hsh _ m hm, Option.some.injEq] at hi
    rw [hidx it' t' k' pos' hu', hsh _ m' hm', Option.some.injEq] at hi'
    by_cases hq : (it, t, k) = (it', t', k')
    · rw [hq] at hi
      simp only [Prod.mk.injEq] at hq
      exact ⟨hq.1, hq.2.1, hq.2.2, by omega⟩
    · exfalso
      rcases h5 _ m _ m' hm hm' hq with h | h <;> omega
  · intro i hi1 hi2
    simp only at hi1 hi2
    obtain ⟨⟨it, t, k⟩, m, hm, hq1, hq2⟩ := h6 (i - acc) (by omega) (by omega)
    have hu := (visit_iff p.reg hinv p.views hok it t k (i - acc - off (it, t, k))).2 ⟨m, hm, by omega⟩
    refine ⟨it, t, k, _, hu, ?_⟩
    simp only
    rw [hidx it t k _ hu, hsh _ m hm]
    congr 1; omega

/-- C33: `EnumerateEntries` on any number of processes, after any history of registrations on each, numbers the unknowns of the owned
elements of the active entries one to one: on every process by the interval `[first, last)` of this process; the intervals follow
each other from 0 without gaps.

Partial: requires that the entries are used as the numbering presumes (`WellUsed`): no `MultiEntry`, and on each element the unknowns
that exist come first.  Without that the claim is false, see the theorems below. -/
theorem C33_enumerate_partial (ps : List Proc) (hreach : ∀ p ∈ ps, ∃ hist, run Registry.init hist = some p.reg)
    (hok : ∀ p ∈ ps, ProcOk p) (acc : Nat) :
    ∃ rs, enumerateAll acc ps = some rs ∧ rs.length = ps.length ∧
      (∀ (j : Nat) (p : Proc) (r : Numbering), ps[j]? = some p → rs[j]? = some r → Numbered p r) ∧
      (∀ (r : Numbering), rs[0]? = some r → r.first = acc) ∧
      (∀ (j : Nat) (r r' : Numbering), rs[j]? = some r → rs[j + 1]? = some r' → r.first ≤ r.last ∧ r'.first = r.last) := by
  induction ps generalizing acc with
  | nil => exact ⟨[], rfl, rfl, by simp, by simp, by simp⟩
  | cons p ps ih =>
    obtain ⟨hist, hh⟩ := hreach p (by simp)
    obtain ⟨off, n, h1, h2⟩ := numbered_local p hist hh (hok p (by simp)) acc
    obtain ⟨rs, g1, g2, g3, g4, g5⟩ := ih (fun q hq => hreach q (List.mem_cons_of_mem _ hq))
      (fun q hq => hok q (List.mem_cons_of_mem _ hq)) (acc + n)
    refine ⟨⟨acc, n + acc, shiftOffsets p.reg p.views off acc⟩ :: rs, ?_, by simp [g2], ?_, ?_, ?_⟩
    · rw [enumerateAll, h1]
      simp only [g1, Nat.add_sub_cancel]
    · intro j q r hq hr
      cases j with
      | zero =>
        simp only [List.getElem?_cons_zero, Option.some.injEq] at hq hr
        subst hq; subst hr; exact h2
      | succ j =>
        simp only [List.getElem?_cons_succ] at hq hr
        exact g3 j q r hq hr
    · intro r hr
      simp only [List.getElem?_cons_zero, Option.some.injEq] at hr
      subst hr; rfl
    · intro j r r' hr hr'
      cases j with
      | zero =>
        simp only [List.getElem?_cons_zero, Option.some.injEq, List.getElem?_cons_succ, Nat.zero_add] at hr hr'
        subst hr
        exact ⟨by simp, by rw [g4 r' hr']; simp only; omega⟩
      | succ j =>
        simp only [List.getElem?_cons_succ] at hr hr'
        exact g5 j r r' hr hr'

/-- A mesh of two cells; tag 0 is on both, tag 1 is on cell 1 only (sparse), tag 2 holds the status (0 on cell 0, 1 on cell 1). -/
def twoCells : MeshView where
  lastLocalID := fun t => if t = 3 then 2 else 0
  valid := fun _ _ => true
  ghost := fun _ _ => false
  marker := fun _ _ _ => false
  haveData := fun tag _ k => tag != 1 || k == 1
  dataSize := fun _ _ _ => 3
  intData := fun _ _ k => k

/-- An entry on cells. -/
def onCells (kd : Kind) : Entry :=
  { kind := kd, mesh := 0, types := fun t => t == 3, mask := none, inverse := false, regIndex := none, offDefined := fun _ => false }

/-- The numbering of one process with one entry: the indices of two unknowns. -/
def twoIndices (kd : Kind) (k pos k' pos' : Nat) : Option (Nat × Option Nat × Option Nat) :=
  match run Registry.init [.register (onCells kd)] with
  | none => none
  | some s =>
    match enumerateAll 0 [⟨s, fun _ => twoCells, fun _ => 0⟩] with
    | some [r] => some (r.last, indexOf s (fun _ => twoCells) r.off 0 3 k pos, indexOf s (fun _ => twoCells) r.off 0 3 k' pos')
    | _ => none

/-- The code violates C33 for `StatusBlockEntry`: when status 0 switches on only the second unknown and status 1 only the first, the second
unknown of cell 0 and the first unknown of cell 1 get the same index. -/
theorem C33_status_fails :
    twoIndices (.simple (.status [0, 0] 2 [[false, true], [true, false]])) 0 1 1 0 = some (2, some 1, some 1) := by
  decide +kernel

/-- The code violates C33 for `BlockEntry` with a sparse tag: cell 0 lacks the first unknown and has the second; its index equals
that of the first unknown of cell 1, and the second unknown of cell 1 is inside the interval. -/
theorem C33_block_fails : twoIndices (.simple (.block [1, 0])) 0 1 1 0 = some (3, some 1, some 1) := by
  decide +kernel

/-- The code violates C33 for `MultiEntry`: its two unknowns are counted, but `Index` throws. -/
theorem C33_multi_fails : twoIndices (.multi [.single 0]) 0 0 1 0 = some (2, none, none) := by
  decide +kernel

/-- The hypotheses of C33 are satisfiable, with a deactivated entry, a hole that is filled again, a vector and two processes; the
second process continues the numbers of the first. -/
example :
    let ops : List Op := [.register (onCells (.simple (.single 0))), .register (onCells (.simple (.vector 0))),
      .register (onCells (.simple (.single 1))), .unregister 0, .deactivate 2, .register (onCells (.simple (.block [0, 1])))]
    ∃ s, run Registry.init ops = some s ∧ listRegistered s = [0, 1, 2] ∧ s.act = [true, true, false] ∧
      ProcOk ⟨s, fun _ => twoCells, fun _ => 0⟩ ∧
      (∃ r r', enumerateAll 0 [⟨s, fun _ => twoCells, fun _ => 0⟩, ⟨s, fun _ => twoCells, fun _ => 0⟩] = some [r, r'] ∧
        r.first = 0 ∧ r.last = 9 ∧ r'.first = 9 ∧ r'.last = 18 ∧
        indexOf s (fun _ => twoCells) r'.off 1 3 1 2 = some 17) := by
  intro ops
  refine ⟨_, rfl, by decide +kernel, by decide +kernel, ?_, _, _, rfl, by decide +kernel, by decide +kernel, by decide +kernel,
    by decide +kernel, by decide +kernel⟩
  intro it b hb ha
  have h3 : it = 0 ∨ it = 1 ∨ it = 2 := by
    have := (List.getElem?_eq_some_iff.1 hb).1
    simp [Registry.init] at this; omega
  rcases h3 with rfl | rfl | rfl
  · simp [Registry.init] at hb
    subst hb
    refine ⟨fun parts h => (by cases h), fun _ _ _ h => (by cases h), ?_⟩
    rintro t k ⟨_, hk, _⟩ p q hpq ⟨tag, h1, h2⟩
    have hq : q = 1 := by
      have := (List.getElem?_eq_some_iff.1 h1).1
      simp at this; omega
    have hp : p = 0 := by omega
    subst hp
    exact ⟨0, rfl, by simp [twoCells]⟩
  · simp [Registry.init] at hb
    subst hb
    refine ⟨fun parts h => (by cases h), fun _ _ _ h => (by cases h), ?_⟩
    rintro t k _ p q hpq ⟨h1, h2⟩
    exact ⟨h1, by simp [twoCells] at h2 ⊢; omega⟩
  · cases ha

end Verif.Unknowns
