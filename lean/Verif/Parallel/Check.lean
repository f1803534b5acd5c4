import Verif.Parallel.Final

/-!
# A decision procedure for the hypotheses, used in the examples only
-/

namespace Verif.Parallel

variable {V : Type}

def ghostOfB (G : Nat → Local V) (p : Nat) (e : El) (q : Nat) (e' : El) : Bool :=
  decide (e ∈ (G p).elems) && decide (e' ∈ (G q).elems) && decide ((G p).status e = .ghost) &&
  decide ((G p).owner e = q) && decide ((G q).status e' = .shared) && decide (p ∈ (G q).procs e') &&
  decide (q ≠ p) && decide (e.ty = e'.ty) && decide ((G p).key e = (G q).key e')

theorem ghostOfB_iff {G : Nat → Local V} {p : Nat} {e : El} {q : Nat} {e' : El} :
    ghostOfB G p e q e' = true ↔ GhostOf G p e q e' := by
  unfold ghostOfB
  simp only [Bool.and_eq_true, decide_eq_true_eq]
  constructor
  · rintro ⟨⟨⟨⟨⟨⟨⟨⟨h1, h2⟩, h3⟩, h4⟩, h5⟩, h6⟩, h7⟩, h8⟩, h9⟩
    exact ⟨h1, h2, h3, h4, h5, h6, h7, h8, h9⟩
  · rintro ⟨h1, h2, h3, h4, h5, h6, h7, h8, h9⟩
    exact ⟨⟨⟨⟨⟨⟨⟨⟨h1, h2⟩, h3⟩, h4⟩, h5⟩, h6⟩, h7⟩, h8⟩, h9⟩

def distributedB (n : Nat) (G : Nat → Local V) : Bool :=
  (List.range n).all fun p =>
    decide (G p).elems.Nodup &&
    (G p).elems.all (fun e =>
      decide (e.ty < 5) && decide ((G p).procs e).Nodup &&
      (G p).elems.all (fun e' => !(decide (e.ty = e'.ty) && decide ((G p).key e = (G p).key e')) ||
        decide (e = e')) &&
      (!(decide ((G p).status e = .ghost)) || (decide ((G p).owner e < n) &&
        (G ((G p).owner e)).elems.any fun e' => ghostOfB G p e ((G p).owner e) e')) &&
      (!(decide ((G p).status e = .shared)) || ((G p).procs e).all fun q => decide (q = p) ||
        (decide (q < n) && (G q).elems.any fun e1 => ghostOfB G q e1 p e)) &&
      (List.range n).all (fun q => (G q).elems.all fun e' => !ghostOfB G p e q e' ||
        decide ((G p).sel e = (G q).sel e')))

theorem distributed_of {n : Nat} {G : Nat → Local V} (h : distributedB n G = true) :
    Distributed n G := by
  unfold distributedB at h
  simp only [List.all_eq_true, List.mem_range, Bool.and_eq_true, Bool.or_eq_true, Bool.not_eq_true',
    decide_eq_true_eq, decide_eq_false_iff_not, List.any_eq_true, Bool.and_eq_false_iff] at h
  constructor
  · exact fun p hp => (h p hp).1
  · exact fun p hp e he => ((h p hp).2 e he).1.1.1.1.1
  · intro p hp e e' he he' ht hk
    rcases ((h p hp).2 e he).1.1.1.2 e' he' with (h1 | h1) | h1
    · exact absurd ht h1
    · exact absurd hk h1
    · exact h1
  · exact fun p hp e he _ => ((h p hp).2 e he).1.1.1.1.2
  · intro p hp e he hs
    rcases ((h p hp).2 e he).1.1.2 with h1 | ⟨h1, e', _, h2⟩
    · exact absurd hs h1
    · exact ⟨h1, e', ghostOfB_iff.1 h2⟩
  · intro q hq e' he' hs p hp hne
    rcases ((h q hq).2 e' he').1.2 with h1 | h1
    · exact absurd hs h1
    · rcases h1 p hp with h2 | ⟨h2, e, _, h3⟩
      · exact absurd h2 hne
      · exact ⟨h2, e, ghostOfB_iff.1 h3⟩
  · intro p q hp hq e e' hg
    rcases ((h p hp).2 e hg.mem).2 q hq e' hg.mem' with h1 | h1
    · rw [ghostOfB_iff.2 hg] at h1; cases h1
    · exact h1

def sizedB (n : Nat) (tags : List (Nat × TagInfo)) (G : Nat → Local V) : Bool :=
  tags.all fun t => (List.range n).all fun p => (G p).elems.all fun e =>
    !(t.2.defd e.ty) ||
      ((match (G p).data t.1 e, t.2.size with
        | some x, some n => decide (x.length = n)
        | _, _ => true) && (t.2.sparse e.ty || ((G p).data t.1 e).isSome))

theorem sized_of {n : Nat} {tags : List (Nat × TagInfo)} {G : Nat → Local V}
    (h : sizedB n tags G = true) : Sized n tags G := by
  unfold sizedB at h
  simp only [List.all_eq_true, List.mem_range, Bool.and_eq_true, Bool.or_eq_true,
    Bool.not_eq_true'] at h
  intro t ht p hp e he hd
  rcases h t ht p hp e he with h1 | ⟨h1, h2⟩
  · rw [hd] at h1; cases h1
  · constructor
    · intro x m hx hm
      rw [hx, hm] at h1
      simpa using h1
    · intro hs hn
      rw [hs, hn] at h2
      simp at h2

/-- A run given by its events. -/
def runEvents (C : Call V) : List Event → Sys V → Option (Sys V)
  | [], S => some S
  | ev :: evs, S =>
    match step C S ev with
    | .ok S' => runEvents C evs S'
    | _ => none

theorem run_append {C : Call V} {G : Nat → Local V} : ∀ (evs tr : List Event) (S S' : Sys V),
    Run C G tr S → runEvents C evs S = some S' → Run C G (tr ++ evs) S'
  | [], tr, S, S', h, he => by
    simp only [runEvents, Option.some.injEq] at he
    subst he
    simpa using h
  | ev :: evs, tr, S, S', h, he => by
    simp only [runEvents] at he
    split at he
    · rename_i S1 hs
      have := run_append evs (tr ++ [ev]) S1 S' (.snoc h hs) he
      simpa using this
    · cases he

theorem run_of {C : Call V} {G : Nat → Local V} {evs : List Event} {S : Sys V}
    (h : runEvents C evs (initSys G) = some S) : Run C G evs S := by
  simpa using run_append evs [] _ _ .nil h

def doneB (C : Call V) (S : Sys V) : Bool :=
  (List.range C.n).all fun p => S.begun p && (S.wait p).isEmpty

theorem done_of {C : Call V} {S : Sys V} (h : doneB C S = true) : Done C S := by
  unfold doneB at h
  simp only [List.all_eq_true, List.mem_range, Bool.and_eq_true, List.isEmpty_iff] at h
  exact h

end Verif.Parallel
