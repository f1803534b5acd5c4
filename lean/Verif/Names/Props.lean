import Verif.Names.Lemmas

/-!
# C92: the names of sets

A mesh finds its sets by name: `GetSet` returns the set with the given name, `CreateSet` returns it instead of
making a second one, `GetSetsByPrefix` returns the sets whose names begin as asked, in alphabetic order, for
every history of creations and deletions.  What happens after `CreateSetUnique` with a name in use, after `Clear`,
in a copy of a mesh and within a modification is in `C92_*_fails`.
-/

namespace Verif.Names

/-- `GetSet`: the set with this name, if there is one; and no two sets share a name. -/
theorem C92_getSet_partial {S : Sets} (H : Hist S) :
    (∀ n h, S.getSet n = some h ↔ S.live h = true ∧ S.name h = n) ∧
    (∀ n, S.getSet n = none ↔ ∀ h, S.live h = true → S.name h ≠ n) ∧
    (∀ a b, S.live a = true → S.live b = true → S.name a = S.name b → a = b) := by
  have I := hist_ok H
  have key : ∀ n h, S.getSet n = some h ↔ S.live h = true ∧ S.name h = n := fun n h => by
    rw [Sets.getSet, find_some I.sorted, I.mem]
  refine ⟨key, fun n => ?_, fun a b => I.distinct⟩
  constructor
  · intro e h hl hn
    rw [(key n h).2 ⟨hl, hn⟩] at e; cases e
  · intro h
    cases e : S.getSet n with
    | none => rfl
    | some g => exact absurd ((key n g).1 e).2 (h g ((key n g).1 e).1)

/-- `CreateSet` returns the set with this name: the one that exists, and then nothing changes, or else a
new one.  No other set changes. -/
theorem C92_create_partial {S S' : Sets} (H : Hist S) {n : Str} {h g : Nat} {new : Bool}
    (hl : S.live h = false) (e : S.create n h = (S', g, new)) :
    S'.live g = true ∧ S'.name g = n ∧ S'.getSet n = some g ∧
    (new = true ↔ ∀ k, S.live k = true → S.name k ≠ n) ∧
    (new = false → S' = S) ∧
    (new = true → g = h ∧ ∀ k, k ≠ g → S'.live k = S.live k ∧ S'.name k = S.name k) ∧
    (∀ m, m ≠ n → S'.getSet m = S.getSet m) := by
  have I := hist_ok H
  obtain ⟨key, knone, _⟩ := C92_getSet_partial H
  have H' : Hist (S.create n h).1 := .create n h H hl
  rw [e] at H'
  have key' := (C92_getSet_partial H').1
  rw [Sets.create] at e
  cases eg : S.getSet n with
  | some g0 =>
    rw [eg] at e
    cases e
    have := (key n _).1 eg
    refine ⟨this.1, this.2, eg, ⟨(fun h => (by cases h)), fun h => absurd this.2 (h _ this.1)⟩,
      fun _ => rfl, (fun h => (by cases h)), fun _ _ => rfl⟩
  | none =>
    rw [eg] at e
    cases e
    have h1 : (S.createUnique n h).live h = true := if_pos rfl
    have h2 : (S.createUnique n h).name h = n := if_pos rfl
    refine ⟨h1, h2, (key' n h).2 ⟨h1, h2⟩, ⟨fun _ => (knone n).1 eg, fun _ => rfl⟩, (fun h => (by cases h)),
      fun _ => ⟨rfl, fun k hk => ⟨if_neg hk, if_neg hk⟩⟩, fun m hm => ?_⟩
    have hk : ∀ k, (S.createUnique n h).getSet m = some k ↔ S.getSet m = some k := by
      intro k
      rw [key', key]
      by_cases ek : k = h
      · subst ek
        rw [h1, h2, hl]
        exact ⟨fun x => absurd x.2.symm hm, fun x => by cases x.1⟩
      · have a1 : (S.createUnique n h).live k = S.live k := if_neg ek
        have a2 : (S.createUnique n h).name k = S.name k := if_neg ek
        rw [a1, a2]
    exact Option.ext hk

/-- After a set is destroyed its name is free, and the others keep theirs. -/
theorem C92_destroy_partial {S S' : Sets} (H : Hist S) {h : Nat} (e : S.destroy h = some S') :
    S'.getSet (S.name h) = none ∧ (∀ m, m ≠ S.name h → S'.getSet m = S.getSet m) ∧
    (∀ k, S'.live k = true ↔ S.live k = true ∧ k ≠ h) ∧ S'.name = S.name := by
  have I := hist_ok H
  obtain ⟨_, hl, g1, g2, _⟩ := ok_destroy I e
  obtain ⟨key, _, dis⟩ := C92_getSet_partial H
  obtain ⟨key', knone', _⟩ := C92_getSet_partial (.destroy h H e)
  refine ⟨(knone' _).2 fun k hk => ?_, fun m hm => Option.ext fun k => ?_, g1, g2⟩
  · rw [g1] at hk
    rw [g2]
    exact fun e => hk.2 (dis k h hk.1 hl e)
  · rw [key', key, g1, g2]
    exact ⟨fun x => ⟨x.1.1, x.2⟩, fun x => ⟨⟨x.1, by rintro rfl; exact hm x.2.symm⟩, x.2⟩⟩

/-- `EndModification` always completes; it frees the names of exactly the sets deleted within the
modification. -/
theorem C92_endMod_partial {S : Sets} (H : Hist S) (hm : S.hide = true) :
    ∃ S', S.endMod = some S' ∧
      ∀ n h, S'.getSet n = some h ↔ S.getSet n = some h ∧ S.hidden h = false := by
  have I := hist_ok H
  obtain ⟨S1, h1⟩ := endLoop_some (List.range S.last) S
  have e : S.endMod = some { S1 with hide := false } := by rw [Sets.endMod, if_pos hm, h1]
  refine ⟨_, e, fun n h => ?_⟩
  obtain ⟨_, k1, k2, _⟩ := ok_endLoop _ _ _ I h1
  rw [(C92_getSet_partial (.endMod H e)).1, (C92_getSet_partial H).1]
  change S1.live h = true ∧ S1.name h = n ↔ _
  rw [k1, k2]
  constructor
  · rintro ⟨⟨a, b⟩, c⟩
    refine ⟨⟨a, c⟩, ?_⟩
    cases hh : S.hidden h with
    | false => rfl
    | true => exact absurd ⟨hh, List.mem_range.2 (I.bound h a)⟩ b
  · rintro ⟨⟨a, c⟩, hh⟩
    exact ⟨⟨a, fun x => by rw [hh] at x; cases x.1⟩, c⟩

/-- `GetSetsByPrefix`: exactly the sets whose names begin with the prefix, each once, in alphabetic order of
the names. -/
theorem C92_prefix_partial {S : Sets} (H : Hist S) (p : Str) :
    (∀ h, h ∈ S.byPrefix p ↔ S.live h = true ∧ p <+: S.name h) ∧
    (S.byPrefix p).Pairwise (fun a b => Before (S.name a) (S.name b)) ∧ (S.byPrefix p).Nodup := by
  have I := hist_ok H
  rw [byPrefix_eq I.sorted]
  have hname : ∀ a ∈ S.reg, S.name a.2 = a.1 := fun a ha => ((I.mem a.1 a.2).1 ha).2
  have hpw : ((S.reg.filter fun a => decide (p <+: a.1)).map (·.2)).Pairwise
      (fun a b => Before (S.name a) (S.name b)) := by
    rw [List.pairwise_map]
    have hs := I.sorted.filter fun a => decide (p <+: a.1)
    refine hs.imp_of_mem fun {a b} ha hb hab => ?_
    rw [hname a (List.mem_filter.1 ha).1, hname b (List.mem_filter.1 hb).1]
    exact hab
  refine ⟨fun h => ?_, hpw, hpw.imp fun {a b} hab e => by subst e; exact Before.irrefl hab⟩
  simp only [List.mem_map, List.mem_filter, decide_eq_true_eq]
  constructor
  · rintro ⟨⟨n, g⟩, ⟨h1, h2⟩, rfl⟩
    have := (I.mem n g).1 h1
    exact ⟨this.1, by rw [this.2]; exact h2⟩
  · rintro ⟨h1, h2⟩
    exact ⟨(S.name h, h), ⟨(I.mem _ _).2 ⟨h1, rfl⟩, h2⟩, rfl⟩

/-! ## Examples -/

/-- Sets "ab", "b", "a". -/
def demo : Sets := ((((Sets.init.create [97, 98] 0).1.create [98] 1).1.create [97] 2).1)

theorem demo_hist : Hist demo :=
  .create _ _ (.create _ _ (.create _ _ .init rfl) (by decide +kernel)) (by decide +kernel)

example : demo.getSet [98] = some 1 ∧ demo.getSet [99] = none ∧ demo.byPrefix [97] = [2, 0] ∧
    demo.byPrefix [] = [2, 0, 1] := by decide +kernel

example : (demo.create [98] 3).2 = (1, false) ∧ (demo.create [99] 3).2 = (3, true) := by decide +kernel

/-- Set 0 is deleted within a modification. -/
def demoMod : Sets := ((demo.beginMod.bind fun S => S.delete 0)).getD Sets.init

theorem demoMod_eq : ∃ S, demo.beginMod = some S ∧ S.delete 0 = some demoMod := by
  refine ⟨{ demo with hide := true, hidden := fun _ => false }, rfl, rfl⟩

theorem demoMod_hist : Hist demoMod :=
  have ⟨_, a, b⟩ := demoMod_eq
  .delete 0 (.beginMod demo_hist a) b

example : demoMod.hide = true ∧ demoMod.getSet [97, 98] = some 0 ∧
    (demoMod.endMod.bind fun S => S.getSet [97, 98]) = none := by decide +kernel

/-! ## Where the names fail -/

/-- Within a modification `GetSet` finds a set that was deleted, `CreateSet` hands it out as the set with that
name, and `EndModification` destroys it. -/
theorem C92_hidden_fails : ∃ S S' : Sets, ∃ n : Str, ∃ h : Nat, Hist S ∧ S.hide = true ∧
    S.hidden 0 = true ∧ S.create n h = (S, 0, false) ∧ S.endMod = some S' ∧ S'.live 0 = false ∧
    S'.getSet n = none := by
  refine ⟨demoMod, (demoMod.endMod).getD Sets.init, [97, 98], 3, demoMod_hist, rfl, rfl, ?_, ?_, ?_, ?_⟩
  · rfl
  · rfl
  · decide +kernel
  · decide +kernel

/-- `CreateSetUnique` with a name in use: two sets have the name, `GetSet` knows the newer, and when that
is deleted, none. -/
theorem C92_unique_fails : ∃ S S' : Sets, ∃ n : Str, Hist S ∧ S.live 0 = true ∧ S.name 0 = n ∧ S.live 1 = false ∧
    (S.createUnique n 1).destroy 1 = some S' ∧ S'.live 0 = true ∧ S'.name 0 = n ∧ S'.getSet n = none := by
  refine ⟨(Sets.init.create [97] 0).1, (((Sets.init.create [97] 0).1.createUnique [97] 1).destroy 1).getD Sets.init,
    [97], .create _ _ .init rfl, ?_, ?_, ?_, rfl, ?_, ?_, ?_⟩ <;> decide +kernel

/-- `Clear` forgets every set but not its name: `GetSet` returns a set that does not exist, and `CreateSet`
does not make it. -/
theorem C92_clear_fails : ∃ S : Sets, ∃ n : Str, Hist S ∧ (∀ h, S.clear.live h = false) ∧
    S.clear.getSet n = some 0 ∧ S.clear.create n 0 = (S.clear, 0, false) :=
  ⟨(Sets.init.create [97] 0).1, [97], .create _ _ .init rfl, fun _ => rfl, by decide +kernel, rfl⟩

/-- A copy of a mesh has the sets and their names but finds none, and `CreateSet` makes a second set with the
same name. -/
theorem C92_copy_fails : ∃ S : Sets, ∃ n : Str, Hist S ∧ S.copy.live 0 = true ∧ S.copy.name 0 = n ∧
    S.copy.getSet n = none ∧ (S.copy.create n 1).2 = (1, true) :=
  ⟨(Sets.init.create [97] 0).1, [97], .create _ _ .init rfl, by decide +kernel, by decide +kernel,
    by decide +kernel, by decide +kernel⟩

end Verif.Names
