import Verif.Models.Lemmas
import Verif.Models.Spec
import Mathlib.Order.Lattice
/-
C119: tables of a model.  C120: calls of all parts of a model.  C121: multiplier and time step.
C122: initialization.
-/

namespace Verif.Models

/-! ### C119 -/

/-- C119.  With asserts a history from a new model runs to the end exactly when no name is given twice
to objects of the same kind and no coupling term is added.  Then every object is found by its
name and by no other one, and the lists of names (except for scalar functions) have
each name once, and for all kinds but entries they are in the order of the calls. -/
theorem C119_registry_partial (ops : List Op) :
    ((run true ops init).isSome ↔ (∀ o ∈ ops, o.isCoupling = false) ∧
      ((added ops).map fun e => (e.1, e.2.1)).Nodup) ∧
    ∀ s, run true ops init = some s →
      (∀ k n p, get s k n = some p ↔ (k, n, p) ∈ added ops) ∧
      (∀ k, k ≠ .scalar → (names s k).Nodup ∧ ∀ n, n ∈ names s k ↔ ∃ p, (k, n, p) ∈ added ops) ∧
      (∀ k, k ≠ .scalar → k ≠ .entry → names s k = (addedOf k ops).map (·.1)) := by
  have hr := run_isSome ops after_init rfl
  have hr' : (run true ops init).isSome ↔ (∀ o ∈ ops, o.isCoupling = false) ∧
      ((added ops).map fun e => (e.1, e.2.1)).Nodup := by
    rw [hr]
    refine and_congr_right fun _ => ⟨fun h => h.1, fun h => ⟨h, ?_⟩⟩
    intro e _
    simp [addedOf, added]
  refine ⟨hr', ?_⟩
  intro s hs
  have hd := (hr'.1 (by rw [hs]; rfl)).2
  have h := run_after ops after_init hd (by intro e _; simp [addedOf, added]) hs
  rw [List.nil_append] at h
  have hget : ∀ k n p, (n, p) ∈ s.list k ↔ (k, n, p) ∈ added ops := by
    intro k n p
    rw [(h.perm k).mem_iff, mem_addedOf]
  refine ⟨?_, ?_, ?_⟩
  · intro k n p
    rw [get, find_iff (h.nodup k), hget]
  · intro k hk
    unfold names
    rw [if_neg hk]
    refine ⟨h.nodup k, ?_⟩
    intro n
    simp only [List.mem_map]
    constructor
    · rintro ⟨⟨m, p⟩, he, rfl⟩
      exact ⟨p, (hget _ _ _).1 he⟩
    · rintro ⟨p, hp⟩
      exact ⟨(n, p), (hget _ _ _).2 hp, rfl⟩
  · intro k hk hk'
    unfold names
    rw [if_neg hk, h.order k hk']

/-- C119: where entries go.  `AddEntry` puts the new one last, `AddFirstEntry` first,
`AddAfterEntry` right behind the first entry of that name, or last if there is none. -/
theorem C119_entry_order (s t : Reg) (name after : String) (p : Nat) :
    (add true s .entry name p = some t → names t .entry = names s .entry ++ [name]) ∧
    (addFirst true s name p = some t → names t .entry = name :: names s .entry) ∧
    (addAfter true s name p after = some t →
      (∀ l r, names s .entry = l ++ after :: r → after ∉ l →
        names t .entry = l ++ after :: name :: r) ∧
      (after ∉ names s .entry → names t .entry = names s .entry ++ [name])) := by
  refine ⟨?_, ?_, ?_⟩
  · intro h
    unfold add at h
    split at h
    · rw [← Option.some.inj h]; simp [names, setList]
    · simp at h
  · intro h
    unfold addFirst at h
    split at h
    · rw [← Option.some.inj h]; simp [names, setList]
    · simp at h
  · intro h
    unfold addAfter at h
    split at h
    · rw [← Option.some.inj h]
      simp only [names, setList, reduceCtorEq, if_false, if_true]
      generalize s.list .entry = es
      constructor
      · intro l
        induction l generalizing es with
        | nil =>
          intro r hr _
          cases es with
          | nil => simp at hr
          | cons e es =>
            simp only [List.map_cons, List.nil_append, List.cons.injEq] at hr
            rw [insertAfter, if_pos hr.1]
            simp [hr.1, hr.2]
        | cons x l ih =>
          intro r hr hl
          cases es with
          | nil => simp at hr
          | cons e es =>
            simp only [List.map_cons, List.cons_append, List.cons.injEq] at hr
            simp only [List.mem_cons, not_or] at hl
            rw [insertAfter, if_neg (by rw [hr.1]; exact fun e => hl.1 e.symm)]
            simp only [List.map_cons, List.cons_append, hr.1]
            rw [ih es r hr.2 hl.2]
      · intro hn
        induction es with
        | nil => rfl
        | cons e es ih =>
          simp only [List.map_cons, List.mem_cons, not_or] at hn
          rw [insertAfter, if_neg (fun e' => hn.1 e'.symm)]
          simp [ih hn.2]
    · simp at h

/-- C119 does not hold for `GetScalarFunctionNames`: it gives the names of the matrix functions. -/
theorem C119_scalar_names_fails :
    (run true [.add .scalar "f" 1, .add .matrix "g" 2] init).map (fun s => names s .scalar) =
      some ["g"] ∧
    ∀ s, names s .scalar = names s .matrix := by
  refine ⟨rfl, fun s => rfl⟩

/-- C119 does not hold for coupling terms: with asserts no history can add one, since the assert
calls `GetCouplingTerm`, which uses the iterator `end()` when the submodel has no terms yet. -/
theorem C119_coupling_fails (ops : List Op) (h : ∃ sub name p, Op.addCoupling sub name p ∈ ops) :
    run true ops init = none := by
  obtain ⟨sub, name, p, hm⟩ := h
  cases hr : run true ops init with
  | none => rfl
  | some s =>
    have := ((C119_registry_partial ops).1.1 (by rw [hr]; rfl)).1 _ hm
    simp [Op.isCoupling] at this

/-- C119 for coupling terms without asserts: the term added is found by the names of submodel and term,
unless the submodel has one of this name already; all other results of `GetCouplingTerm` that
were defined are as before. -/
theorem C119_coupling_partial (s : Reg) (sub name : String) (p : Nat)
    (hn : ∀ q, getCoupling s sub name ≠ some (some q)) :
    ∃ t, addCoupling false s sub name p = some t ∧
      getCoupling t sub name = some (some p) ∧
      (∀ sub' name', (get s .submodel sub' ≠ get s .submodel sub ∨ name' ≠ name) →
        getCoupling s sub' name' ≠ none → getCoupling t sub' name' = getCoupling s sub' name') ∧
      (∀ k n, get t k n = get s k n) := by
  refine ⟨_, rfl, ?_, ?_, fun _ _ => rfl⟩
  · have hf : ∀ l : List (Option Nat × List (String × Nat)),
        (∀ m, findTerms l (get s .submodel sub) = some m → find m name = none) →
        ∃ m, findTerms (pushTerm (name, p) (get s .submodel sub) l) (get s .submodel sub) = some m ∧
          find m name = some p := by
      intro l hl
      induction l with
      | nil => exact ⟨[(name, p)], by simp [pushTerm, findTerms], by simp [find]⟩
      | cons e l ih =>
        rw [pushTerm]
        by_cases he : e.1 = get s .submodel sub
        · rw [if_pos he]
          refine ⟨e.2 ++ [(name, p)], by simp [findTerms, he], ?_⟩
          have := hl e.2 (by simp [findTerms, he])
          revert this
          generalize e.2 = m
          intro hm
          induction m with
          | nil => simp [find]
          | cons x m ihm =>
            rw [find] at hm
            split at hm
            · simp at hm
            · rename_i hx
              rw [List.cons_append, find, if_neg hx]
              exact ihm hm
        · rw [if_neg he]
          obtain ⟨m, m1, m2⟩ := ih (fun m hm => hl m (by rw [findTerms, if_neg he]; exact hm))
          exact ⟨m, by rw [findTerms, if_neg he]; exact m1, m2⟩
    obtain ⟨m, m1, m2⟩ := hf s.coupling (by
      intro m hm
      cases hx : find m name with
      | none => rfl
      | some q =>
        exfalso
        refine hn q ?_
        unfold getCoupling
        rw [hm]; simp [hx])
    have m1' : findTerms (pushTerm (name, p) (find (s.list .submodel) sub) s.coupling)
      (find (s.list .submodel) sub) = some m := m1
    simp only [getCoupling, get, m1', m2]
  · intro sub' name' hd hdef
    have hf : ∀ l : List (Option Nat × List (String × Nat)), ∀ m,
        findTerms l (get s .submodel sub') = some m →
        ∃ m', findTerms (pushTerm (name, p) (get s .submodel sub) l) (get s .submodel sub') = some m' ∧
          find m' name' = find m name' := by
      intro l m hm
      induction l with
      | nil => simp [findTerms] at hm
      | cons e l ih =>
        rw [pushTerm]
        by_cases he : e.1 = get s .submodel sub
        · rw [if_pos he]
          rw [findTerms] at hm
          by_cases he' : e.1 = get s .submodel sub'
          · rw [if_pos he'] at hm
            refine ⟨e.2 ++ [(name, p)], by simp [findTerms, he'], ?_⟩
            have hne : name' ≠ name := by
              rcases hd with hd | hd
              · exact absurd (he'.symm.trans he) hd
              · exact hd
            rw [← Option.some.inj hm]
            generalize e.2 = q
            induction q with
            | nil => simp [find, hne.symm]
            | cons x q ihq =>
              rw [List.cons_append, find, find, ihq]
          · rw [if_neg he'] at hm
            exact ⟨m, by rw [findTerms, if_neg he']; exact hm, rfl⟩
        · rw [if_neg he]
          rw [findTerms] at hm
          by_cases he' : e.1 = get s .submodel sub'
          · rw [if_pos he'] at hm
            exact ⟨m, by rw [findTerms, if_pos he']; exact hm, rfl⟩
          · rw [if_neg he'] at hm
            obtain ⟨m', g1, g2⟩ := ih hm
            exact ⟨m', by rw [findTerms, if_neg he']; exact g1, g2⟩
    cases hm : findTerms s.coupling (get s .submodel sub') with
    | none => exfalso; exact hdef (by unfold getCoupling; rw [hm])
    | some m =>
      obtain ⟨m', g1, g2⟩ := hf s.coupling m hm
      have g1' : findTerms (pushTerm (name, p) (find (s.list .submodel) sub) s.coupling)
        (find (s.list .submodel) sub') = some m' := g1
      have hm' : findTerms s.coupling (find (s.list .submodel) sub') = some m := hm
      simp only [getCoupling, get, g1', hm', g2]

/-- A history for the examples. -/
def sampleOps : List Op :=
  [.add .submodel "flow" 10, .add .entry "flow:p" 1, .addFirst "heat:T" 2, .add .submodel "heat" 11,
   .addAfter "flow:s" 3 "flow:p", .add .matrix "K" 20, .add .entry "well" 4, .setSub "heat" false]

example : (run true sampleOps init).map (fun s => (names s .entry, get s .entry "flow:s")) =
    some (["heat:T", "flow:p", "flow:s", "well"], some 3) := by decide +kernel

-- without asserts, a term of the submodel "flow" and a global one
example : ((run false (sampleOps ++ [.addCoupling "flow" "a" 30, .addCoupling "" "b" 31]) init).map
    fun s => (getCoupling s "flow" "a", getCoupling s "" "b", getCoupling s "flow" "c",
      getCoupling s "heat" "a")) =
    some (some (some 30), some (some 31), some none, none) := by decide +kernel

/-! ### C120 -/

theorem loop_does {W : Type} (f : Comp → W → W × Bool) : ∀ (l : List Comp) (w : W) (b : Bool),
    ∃ c, Does f l w (loop f l (w, b)).1 c ∧ (loop f l (w, b)).2 = (b && c) := by
  intro l
  induction l with
  | nil => intro w b; exact ⟨true, .nil w, by simp [loop]⟩
  | cons x l ih =>
    intro w b
    obtain ⟨c, h1, h2⟩ := ih (f x w).1 (b && (f x w).2)
    refine ⟨(f x w).2 && c, .cons rfl h1, ?_⟩
    rw [loop, h2, Bool.and_assoc]

theorem does_append {W : Type} {f : Comp → W → W × Bool} {l m : List Comp} {w w1 w2 : W} {b c : Bool}
    (h : Does f l w w1 b) (h' : Does f m w1 w2 c) : Does f (l ++ m) w w2 (b && c) := by
  induction h with
  | nil w => simpa using h'
  | cons e _ ih => rw [List.cons_append, Bool.and_assoc]; exact .cons e (ih h')

theorem loop_append {W : Type} (f : Comp → W → W × Bool) (l m : List Comp) (x : W × Bool) :
    loop f (l ++ m) x = loop f m (loop f l x) := by
  induction l generalizing x with
  | nil => rfl
  | cons c l ih => rw [List.cons_append, loop, loop, ih]

theorem loop_all {W : Type} (f : Comp → W → W × Bool) (l : List Comp) (w : W) :
    Does f l w (loop f l (w, true)).1 (loop f l (w, true)).2 := by
  obtain ⟨c, h1, h2⟩ := loop_does f l w true
  rw [h2, Bool.true_and]; exact h1

/-- Submodels that were not switched off by the last call about them. -/
def onSubs (ops : List Op) : List Comp :=
  ((addedOf .submodel ops).filter fun e => lastToggle e.1 ops ≠ some false).map fun e => .submodel e.2

theorem activeSubs_eq {ops : List Op} {s : Reg} (h : After ops s) : activeSubs s = onSubs ops := by
  unfold activeSubs onSubs
  rw [h.order _ (by simp)]
  congr 1
  refine List.filter_congr ?_
  intro e _
  unfold isActive
  have ht := h.toggle e.1
  split
  · rename_i he
    have : s.activeSub = [] := by simpa using he
    rw [this] at ht
    rw [← ht]
    simp [find]
  · rw [ht]
    split <;> simp_all

/-- C120 for `FillResidual` and `UpdateSolution`.  Let the names of a history be distinct for each kind
(compiled with or without asserts).  `FillResidual` clears the residual, then calls each
submodel that was not switched off, in the order they were added, then each coupling term once;
`UpdateSolution` calls the submodels not switched off.  The result is `true` exactly when all calls
returned `true`, and no call is left out when another one fails. -/
theorem C120_fill_partial {W : Type} (clear : W → W) (f : Comp → W → W × Bool) {a : Bool} {ops : List Op}
    {s : Reg} (hd : ((added ops).map fun e => (e.1, e.2.1)).Nodup) (hs : run a ops init = some s) (w : W) :
    (∃ ts, List.Perm ts (addedTerms ops) ∧
      Does f (onSubs ops ++ ts) (clear w) (fillResidual clear f s w).1 (fillResidual clear f s w).2) ∧
    Does f (onSubs ops) w (updateSolution f s w).1 (updateSolution f s w).2 := by
  have h := run_after ops after_init hd (by intro e _; simp [addedOf, added]) hs
  rw [List.nil_append] at h
  refine ⟨⟨terms s, h.terms, ?_⟩, ?_⟩
  · unfold fillResidual
    rw [← activeSubs_eq h, ← loop_append]
    exact loop_all _ _ _
  · unfold updateSolution
    rw [← activeSubs_eq h]
    exact loop_all _ _ _

/-- C120 for `UpdateTimeStep`, `SetTimeStep`, `RestoreTimeStep` and `PrepareIterations`: all
submodels, (operators), coupling terms, scalar and matrix functions, each one once. -/
theorem C120_steps {W : Type} (f : Comp → W → W × Bool) {a : Bool} {ops : List Op}
    {s : Reg} (hd : ((added ops).map fun e => (e.1, e.2.1)).Nodup) (hs : run a ops init = some s) (w : W) :
    ∃ ts, List.Perm ts (addedTerms ops) ∧
      Does f ((addedOf .submodel ops).map (fun e => .submodel e.2) ++ ts ++
          (addedOf .scalar ops).map (fun e => .scalar e.2) ++
          (addedOf .matrix ops).map (fun e => .matrix e.2)) w (timeStep f s w).1 (timeStep f s w).2 ∧
      Does f ((addedOf .submodel ops).map (fun e => .submodel e.2) ++
          (addedOf .operator ops).map (fun e => .operator e.2) ++ ts ++
          (addedOf .scalar ops).map (fun e => .scalar e.2) ++
          (addedOf .matrix ops).map (fun e => .matrix e.2)) w
        (prepareIterations f s w).1 (prepareIterations f s w).2 := by
  have h := run_after ops after_init hd (by intro e _; simp [addedOf, added]) hs
  rw [List.nil_append] at h
  refine ⟨terms s, h.terms, ?_, ?_⟩
  · unfold timeStep subs scalars matrices
    rw [h.order .submodel (by simp), h.order .scalar (by simp), h.order .matrix (by simp)]
    rw [← loop_append, ← loop_append, ← loop_append]
    simp only [List.append_assoc]
    exact loop_all _ _ _
  · unfold prepareIterations subs scalars matrices operators
    rw [h.order .submodel (by simp), h.order .scalar (by simp), h.order .matrix (by simp),
      h.order .operator (by simp)]
    rw [← loop_append, ← loop_append, ← loop_append, ← loop_append]
    simp only [List.append_assoc]
    exact loop_all _ _ _

/-- C120 does not hold for coupling terms of a submodel that is switched off: the header says that they
are not evaluated, the code calls them. -/
theorem C120_coupling_inactive_fails :
    ∃ s, run false [.add .submodel "flow" 10, .addCoupling "flow" "a" 30, .setSub "flow" false] init =
        some s ∧ get s .submodel "flow" = some 10 ∧ isActive s "flow" = false ∧
      (fillResidual id (fun c w => (w ++ [c], true)) s []).1 = [.term 30] := by
  refine ⟨_, rfl, ?_, ?_, ?_⟩ <;> decide +kernel

-- the hypotheses of C120 hold, and the calls are as it says
example : ((added sampleOps).map fun e => (e.1, e.2.1)).Nodup ∧ (run true sampleOps init).isSome ∧
    onSubs sampleOps = [.submodel 10] := by decide +kernel

/-! ### C121 -/

theorem minLoop_isMin {R : Type} [LinearOrder R] {lt : R → R → Bool} (hlt : ∀ x y, lt x y = true ↔ x < y)
    (f : Comp → R) : ∀ (l : List Comp) (a : R), IsMin (minLoop lt f l a) a f l := by
  have hs : ∀ a b, smaller lt a b ≤ a ∧ smaller lt a b ≤ b ∧ (smaller lt a b = a ∨ smaller lt a b = b) := by
    intro a b
    unfold smaller
    split
    · rename_i h
      have := (hlt _ _).1 h
      exact ⟨le_of_lt this, le_refl _, Or.inr rfl⟩
    · rename_i h
      exact ⟨le_refl _, not_lt.1 fun hh => h ((hlt _ _).2 hh), Or.inl rfl⟩
  intro l
  induction l with
  | nil => intro a; exact ⟨le_refl _, by simp, Or.inl rfl⟩
  | cons c l ih =>
    intro a
    obtain ⟨h1, h2, h3⟩ := ih (smaller lt a (f c))
    obtain ⟨g1, g2, g3⟩ := hs a (f c)
    rw [minLoop]
    refine ⟨le_trans h1 g1, ?_, ?_⟩
    · intro d hd
      rcases List.mem_cons.1 hd with e | hd
      · rw [e]; exact le_trans h1 g2
      · exact h2 d hd
    · rcases h3 with h3 | ⟨d, hd, h3⟩
      · rcases g3 with g3 | g3
        · exact Or.inl (h3.trans g3)
        · exact Or.inr ⟨c, by simp, h3.trans g3⟩
      · exact Or.inr ⟨d, by simp [hd], h3⟩

theorem minLoop_append {R : Type} (lt : R → R → Bool) (f : Comp → R) (l m : List Comp) (a : R) :
    minLoop lt f (l ++ m) a = minLoop lt f m (minLoop lt f l a) := by
  induction l generalizing a with
  | nil => rfl
  | cons c l ih => rw [List.cons_append, minLoop, minLoop, ih]

/-- C121 on one process: `UpdateMultiplier` is the least of one and the values of the submodels not
switched off, of all coupling terms and of all functions; `AdjustTimeStep` is the least of the
step asked for and the values of all submodels, coupling terms and functions. -/
theorem C121_least {R : Type} [LinearOrder R] {lt : R → R → Bool} (hlt : ∀ x y, lt x y = true ↔ x < y)
    {a : Bool} {ops : List Op} {s : Reg} (hd : ((added ops).map fun e => (e.1, e.2.1)).Nodup)
    (hs : run a ops init = some s) (one dt : R) (f : Comp → R) (g : R → Comp → R) :
    ∃ ts, List.Perm ts (addedTerms ops) ∧
      IsMin (updateMultiplier lt one f s) one f (onSubs ops ++ ts ++
        (addedOf .scalar ops).map (fun e => .scalar e.2) ++
        (addedOf .matrix ops).map (fun e => .matrix e.2)) ∧
      IsMin (adjustTimeStep lt g s dt) dt (g dt) ((addedOf .submodel ops).map (fun e => .submodel e.2) ++
        ts ++ (addedOf .scalar ops).map (fun e => .scalar e.2) ++
        (addedOf .matrix ops).map (fun e => .matrix e.2)) := by
  have h := run_after ops after_init hd (by intro e _; simp [addedOf, added]) hs
  rw [List.nil_append] at h
  refine ⟨terms s, h.terms, ?_, ?_⟩
  · unfold updateMultiplier scalars matrices
    rw [← activeSubs_eq h, h.order .scalar (by simp), h.order .matrix (by simp)]
    rw [← minLoop_append, ← minLoop_append, ← minLoop_append]
    simp only [List.append_assoc]
    exact minLoop_isMin hlt _ _ _
  · unfold adjustTimeStep subs scalars matrices
    rw [h.order .submodel (by simp), h.order .scalar (by simp), h.order .matrix (by simp)]
    rw [← minLoop_append, ← minLoop_append, ← minLoop_append]
    simp only [List.append_assoc]
    exact minLoop_isMin hlt _ _ _

/-- C121 on all processes: the value of the reduction is not larger than the value of any process,
and it is the value of one of them. -/
theorem C121_all {R : Type} [LinearOrder R] {lt : R → R → Bool} (hlt : ∀ x y, lt x y = true ↔ x < y)
    (x : R) (l : List R) : (∀ y ∈ x :: l, allMin lt x l ≤ y) ∧ allMin lt x l ∈ x :: l := by
  induction l generalizing x with
  | nil => simp [allMin]
  | cons y l ih =>
    obtain ⟨h1, h2⟩ := ih (smaller lt x y)
    have hs : smaller lt x y ≤ x ∧ smaller lt x y ≤ y ∧ (smaller lt x y = x ∨ smaller lt x y = y) := by
      unfold smaller
      split
      · rename_i h
        exact ⟨le_of_lt ((hlt _ _).1 h), le_refl _, Or.inr rfl⟩
      · rename_i h
        exact ⟨le_refl _, not_lt.1 fun hh => h ((hlt _ _).2 hh), Or.inl rfl⟩
    rw [allMin]
    refine ⟨?_, ?_⟩
    · intro z hz
      have h0 := h1 _ List.mem_cons_self
      rcases List.mem_cons.1 hz with e | hz
      · rw [e]; exact le_trans h0 hs.1
      · rcases List.mem_cons.1 hz with e | hz
        · rw [e]; exact le_trans h0 hs.2.1
        · exact h1 z (List.mem_cons_of_mem _ hz)
    · rcases List.mem_cons.1 h2 with e | h
      · rw [e]
        rcases hs.2.2 with e' | e' <;> rw [e'] <;> simp
      · exact List.mem_cons_of_mem _ (List.mem_cons_of_mem _ h)

-- the switched off submodel 11 does not count for the multiplier, but for the time step
example : (run true sampleOps init).map (fun s =>
    (updateMultiplier (fun x y : Int => decide (x < y)) 100
      (fun c => match c with | .submodel p => p | .matrix _ => 50 | _ => 0) s,
     adjustTimeStep (fun x y : Int => decide (x < y))
      (fun _ c => match c with | .submodel 11 => 3 | _ => 7) s 100)) = some (10, 3) := by
  decide +kernel

/-! ### C122 -/

theorem initLoop_spec {a : Bool} {cb : Comp → List Op × Bool} {mine : Reg → List Comp} :
    ∀ (l : List Comp) {x y : Reg × List Comp × Bool}, initLoop a cb mine l x = some y →
      mine y.1 = mine x.1 ∧ y.2.1 = x.2.1 ++ l ∧ y.2.2 = (x.2.2 && l.all fun c => (cb c).2) ∧
      ∀ {α : Type} (g : Reg → α),
        (∀ c ∈ l, ∀ s t, run a (cb c).1 s = some t → g t = g s) → g y.1 = g x.1 := by
  intro l
  induction l with
  | nil =>
    intro x y h
    rw [← Option.some.inj h]
    simp
  | cons c l ih =>
    intro x y h
    rw [initLoop] at h
    cases hr : run a (cb c).1 x.1 with
    | none => rw [hr] at h; simp at h
    | some t =>
      rw [hr] at h
      simp only at h
      split at h
      · rename_i hm
        obtain ⟨h1, h2, h3, h4⟩ := ih h
        refine ⟨h1.trans hm, by rw [h2]; simp, by rw [h3]; simp [Bool.and_assoc], ?_⟩
        intro α g hg
        rw [h4 g (fun d hd => hg d (by simp [hd]))]
        exact hg c (by simp) _ _ hr
      · simp at h

theorem step_list {a : Bool} {s t : Reg} {o : Op} (h : step a s o = some t) (k : Kind)
    (hk : ∀ e, o.adds = some e → e.1 ≠ k) : t.list k = s.list k := by
  cases o with
  | add j n p =>
    simp only [step, add] at h
    split at h
    · rw [← Option.some.inj h]
      simp only [setList]
      rw [if_neg (fun e => hk _ rfl e.symm)]
    · simp at h
  | addFirst n p =>
    simp only [step, addFirst] at h
    split at h
    · rw [← Option.some.inj h]
      simp only [setList]
      rw [if_neg (fun e => hk _ rfl e.symm)]
    · simp at h
  | addAfter n p b =>
    simp only [step, addAfter] at h
    split at h
    · rw [← Option.some.inj h]
      simp only [setList]
      rw [if_neg (fun e => hk _ rfl e.symm)]
    · simp at h
  | addCoupling sub n p =>
    simp only [step, addCoupling] at h
    split at h
    · split at h
      · simp at h
      · split at h
        · rw [← Option.some.inj h]
        · simp at h
    · rw [← Option.some.inj h]
  | setSub n b => rw [← Option.some.inj h]; rfl
  | setEntry n b => rw [← Option.some.inj h]; rfl

theorem step_coupling {a : Bool} {s t : Reg} {o : Op} (h : step a s o = some t)
    (hk : o.isCoupling = false) : t.coupling = s.coupling := by
  cases o with
  | add j n p => simp only [step, add] at h; split at h <;> simp at h; rw [← h]; rfl
  | addFirst n p => simp only [step, addFirst] at h; split at h <;> simp at h; rw [← h]; rfl
  | addAfter n p b => simp only [step, addAfter] at h; split at h <;> simp at h; rw [← h]; rfl
  | addCoupling sub n p => simp [Op.isCoupling] at hk
  | setSub n b => rw [← Option.some.inj h]; rfl
  | setEntry n b => rw [← Option.some.inj h]; rfl

theorem run_keeps {a : Bool} {α : Type} (g : Reg → α) : ∀ (l : List Op) {s t : Reg},
    (∀ o ∈ l, ∀ s t, step a s o = some t → g t = g s) → run a l s = some t → g t = g s := by
  intro l
  induction l with
  | nil => intro s t _ h; rw [← Option.some.inj h]
  | cons o l ih =>
    intro s t hg h
    rw [run] at h
    cases ho : step a s o with
    | none => rw [ho] at h; simp at h
    | some s1 =>
      rw [ho] at h
      rw [ih (fun o' h' => hg o' (by simp [h'])) h]
      exact hg o (by simp) _ _ ho

/-- C122.  `cb c` are the calls that object `c` makes from its own `Initialize`, and its result.
Submodels may add whatever they like, operators all but submodels, the other objects nothing.  If
`Initialize` of the model comes to its end (no failed assert, no vector growing under its own
loop), then all submodels, all operators, all entries (registration), all coupling terms, scalar and
matrix functions that the model has in the end were visited, in this order and each one once;
the result is `true` exactly when all objects returned `true`, and the model counts as
initialized exactly then: with asserts nothing can be added any more. -/
theorem C122_initialize_partial {a : Bool} {cb : Comp → List Op × Bool} {s t : Reg} {log : List Comp}
    {ok : Bool}
    (hop : ∀ p, ∀ o ∈ (cb (.operator p)).1, ∀ e, o.adds = some e → e.1 ≠ .submodel)
    (hrest : ∀ c, (∀ p, c ≠ .submodel p) → (∀ p, c ≠ .operator p) →
      ∀ o ∈ (cb c).1, o.adds = none ∧ o.isCoupling = false)
    (h : initModel a cb s = some (t, log, ok)) :
    log = subs t ++ operators t ++ (t.list .entry).map (fun e => .entry e.2) ++ terms t ++ scalars t ++
      matrices t ∧
    (ok = true ↔ ∀ c ∈ log, (∀ p, c ≠ .entry p) → (cb c).2 = true) ∧
    t.initialized = ok ∧
    (ok = true → ∀ k n p, add true t k n p = none) := by
  unfold initModel initFirst initRest at h
  cases h1 : initLoop a cb subs (subs s) (s, [], true) with
  | none => rw [h1] at h; simp at h
  | some x =>
    rw [h1] at h
    simp only at h
    cases h2 : initLoop a cb operators (operators x.1) x with
    | none => rw [h2] at h; simp at h
    | some y =>
      rw [h2] at h
      simp only [registerEntries] at h
      cases h3 : initLoop a cb terms (terms y.1)
          (y.1, y.2.1 ++ (y.1.list .entry).map (fun e => Comp.entry e.2), y.2.2) with
      | none => rw [h3] at h; simp at h
      | some z =>
        rw [h3] at h
        simp only at h
        cases h4 : initLoop a cb scalars (scalars z.1) z with
        | none => rw [h4] at h; simp at h
        | some u =>
          rw [h4] at h
          simp only at h
          cases h5 : initLoop a cb matrices (matrices u.1) u with
          | none => rw [h5] at h; simp at h
          | some v =>
            rw [h5] at h
            simp only [Option.some.injEq, Prod.mk.injEq] at h
            obtain ⟨e1, e2, e3⟩ := h
            obtain ⟨x1, x2, x3, _⟩ := initLoop_spec _ h1
            obtain ⟨y1, y2, y3, y4⟩ := initLoop_spec _ h2
            obtain ⟨z1, z2, z3, z4⟩ := initLoop_spec _ h3
            obtain ⟨u1, u2, u3, u4⟩ := initLoop_spec _ h4
            obtain ⟨v1, v2, v3, v4⟩ := initLoop_spec _ h5
            have quiet : ∀ c, (∀ p, c ≠ .submodel p) → (∀ p, c ≠ .operator p) → ∀ k,
                ∀ s t, run a (cb c).1 s = some t → t.list k = s.list k := by
              intro c hc1 hc2 k s t hr
              refine run_keeps (fun s => s.list k) _ ?_ hr
              intro o ho s t hs
              refine step_list hs k ?_
              intro e he
              rw [(hrest c hc1 hc2 o ho).1] at he
              simp at he
            have quietT : ∀ c, (∀ p, c ≠ .submodel p) → (∀ p, c ≠ .operator p) →
                ∀ s t, run a (cb c).1 s = some t → t.coupling = s.coupling := by
              intro c hc1 hc2 s t hr
              refine run_keeps (fun s => s.coupling) _ ?_ hr
              intro o ho s t hs
              exact step_coupling hs (hrest c hc1 hc2 o ho).2
            have ysub : subs y.1 = subs x.1 := by
              have := y4 (fun s => s.list .submodel) (by
                intro c hc s t hr
                obtain ⟨p, _, rfl⟩ := List.mem_map.1 hc
                refine run_keeps (fun s => s.list .submodel) _ ?_ hr
                intro o ho s t hs
                exact step_list hs _ (hop _ o ho))
              unfold subs; rw [this]
            have tt : ∀ c ∈ terms y.1, (∀ p, c ≠ .submodel p) ∧ (∀ p, c ≠ .operator p) ∧ ∀ p, c ≠ .entry p := by
              intro c hc
              simp only [terms, List.mem_flatMap, List.mem_map] at hc
              obtain ⟨_, _, _, _, rfl⟩ := hc
              simp
            have ts : ∀ c ∈ scalars z.1, (∀ p, c ≠ .submodel p) ∧ (∀ p, c ≠ .operator p) ∧ ∀ p, c ≠ .entry p := by
              intro c hc
              obtain ⟨_, _, rfl⟩ := List.mem_map.1 hc
              simp
            have tm : ∀ c ∈ matrices u.1, (∀ p, c ≠ .submodel p) ∧ (∀ p, c ≠ .operator p) ∧ ∀ p, c ≠ .entry p := by
              intro c hc
              obtain ⟨_, _, rfl⟩ := List.mem_map.1 hc
              simp
            have zl : ∀ k, z.1.list k = y.1.list k := fun k => z4 (fun s => s.list k)
              (fun c hc => quiet c (tt c hc).1 (tt c hc).2.1 k)
            have ul : ∀ k, u.1.list k = z.1.list k := fun k => u4 (fun s => s.list k)
              (fun c hc => quiet c (ts c hc).1 (ts c hc).2.1 k)
            have vl : ∀ k, v.1.list k = u.1.list k := fun k => v4 (fun s => s.list k)
              (fun c hc => quiet c (tm c hc).1 (tm c hc).2.1 k)
            have uc : u.1.coupling = z.1.coupling := u4 (fun s => s.coupling)
              (fun c hc => quietT c (ts c hc).1 (ts c hc).2.1)
            have vc : v.1.coupling = u.1.coupling := v4 (fun s => s.coupling)
              (fun c hc => quietT c (tm c hc).1 (tm c hc).2.1)
            have tl : ∀ k, t.list k = y.1.list k := by
              intro k; rw [← e1]; show v.1.list k = _; rw [vl, ul, zl]
            have tc : terms t = terms y.1 := by
              have : t.coupling = z.1.coupling := by
                rw [← e1]; show v.1.coupling = _; rw [vc, uc]
              have e : terms t = terms z.1 := by unfold terms; rw [this]
              rw [e]; exact z1
            have e4 : subs t = subs s := by
              have : subs t = subs y.1 := by unfold subs; rw [tl]
              rw [this, ysub]; exact x1
            have e5 : operators t = operators x.1 := by
              have : operators t = operators y.1 := by unfold operators; rw [tl]
              rw [this]; exact y1
            have e6 : scalars t = scalars z.1 := by unfold scalars; rw [tl, zl]
            have e7 : matrices t = matrices u.1 := by unfold matrices; rw [tl, ul, zl]
            have elog : log = subs t ++ operators t ++ (t.list .entry).map (fun e => .entry e.2) ++
                terms t ++ scalars t ++ matrices t := by
              rw [← e2, v2, u2, z2, y2, x2, e4, e5, tc, e6, e7, tl]
              simp
            have hini : t.initialized = ok := by rw [← e1, ← e3]
            refine ⟨elog, ?_, hini, ?_⟩
            · rw [← e3, v3, u3, z3]
              simp only
              rw [y3, x3, elog, ← e4, ← e5, ← tc, ← e6, ← e7]
              simp only [Bool.true_and, Bool.and_eq_true, List.all_eq_true, List.mem_append]
              have q1 : ∀ c ∈ subs t, ∀ p, c ≠ .entry p := by
                intro c hc
                obtain ⟨_, _, rfl⟩ := List.mem_map.1 hc
                simp
              have q2 : ∀ c ∈ operators t, ∀ p, c ≠ .entry p := by
                intro c hc
                obtain ⟨_, _, rfl⟩ := List.mem_map.1 hc
                simp
              constructor
              · rintro ⟨⟨⟨⟨g1, g2⟩, g3⟩, g4⟩, g5⟩ c hc hne
                rcases hc with ((((hc | hc) | hc) | hc) | hc) | hc
                · exact g1 c hc
                · exact g2 c hc
                · obtain ⟨p, _, rfl⟩ := List.mem_map.1 hc
                  exact absurd rfl (hne p.2)
                · exact g3 c hc
                · exact g4 c hc
                · exact g5 c hc
              · intro g
                refine ⟨⟨⟨⟨?_, ?_⟩, ?_⟩, ?_⟩, ?_⟩
                · exact fun c hc => g c (by simp [hc]) (q1 c hc)
                · exact fun c hc => g c (by simp [hc]) (q2 c hc)
                · exact fun c hc => g c (by simp [hc]) (tt c (tc ▸ hc)).2.2
                · exact fun c hc => g c (by simp [hc]) (ts c (e6 ▸ hc)).2.2
                · exact fun c hc => g c (by simp [hc]) (tm c (e7 ▸ hc)).2.2
            · intro hok k n p
              simp [add, allowed, hini, hok]

/-- C122 does not hold for entries added by a function: `Initialize` of a scalar function adds an
entry, the model has it in the end, and it was not registered. -/
theorem C122_late_entry_fails :
    ∃ cb s t log, run true [.add .scalar "f" 1] init = some s ∧
      initModel true cb s = some (t, log, true) ∧ get t .entry "p" = some 5 ∧ Comp.entry 5 ∉ log := by
  refine ⟨fun _ => ([.add .entry "p" 5], true), _, _, _, rfl, rfl, ?_, ?_⟩ <;> decide +kernel

-- a submodel adds an entry and an operator, the operator an entry
example : (initModel true (fun c => match c with
      | .submodel _ => ([.add .entry "p" 1, .add .operator "div" 7], true)
      | .operator _ => ([.addFirst "q" 2], true)
      | _ => ([], false)) (setList init .submodel [("flow", 10)])).map (fun x => x.2) =
    some ([.submodel 10, .operator 7, .entry 2, .entry 1], true) := by decide +kernel

end Verif.Models
