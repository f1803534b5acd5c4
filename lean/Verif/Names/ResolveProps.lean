import Verif.Names.ResolveLemmas
import Verif.Names.Props

/-!
# C93: `ResolveSets` tells every process who else has its sets
-/

namespace Verif.Names

/-- For every number of processes and every history of sets on each, if no name contains a zero byte, `ResolveSets`
completes on every process and gives each of its sets: the ranks of all processes that have a set with that name, in
increasing order; the least of them as the owner; the status "owned" if no other process has it, else "shared" on
the owner and "ghost" on the others.  Sets that are deleted keep their data. -/
theorem C93_resolve_partial {P : List Sets} (hP : ∀ S ∈ P, Hist S) (h0 : ∀ S ∈ P, ∀ n, S.Has n → 0 ∉ n)
    {rank : Nat} {S : Sets} (hS : P[rank]? = some S) (D : Nat → Par) :
    ∃ D', resolveSets P S rank D = some D' ∧
      (∀ h, S.live h = true → ¬ (S.hide = true ∧ S.hidden h = true) →
        Holders P (S.name h) (D' h).procs ∧
        (D' h).owner ∈ (D' h).procs ∧ (∀ k ∈ (D' h).procs, (D' h).owner ≤ k) ∧
        ((D' h).status = .owned ↔ ∀ k ∈ (D' h).procs, k = rank) ∧
        ((D' h).status = .shared ↔ (D' h).owner = rank ∧ ∃ k ∈ (D' h).procs, k ≠ rank) ∧
        ((D' h).status = .ghost ↔ (D' h).owner ≠ rank)) ∧
      (∀ h, S.live h = false ∨ (S.hide = true ∧ S.hidden h = true) → D' h = D h) := by
  have I := hist_ok (hP S (List.mem_of_getElem? hS))
  obtain ⟨M, eM, hM⟩ := mapNames_eq (fun T hT => hist_ok (hP T hT)) h0
  have hin : ∀ n, S.Has n → rank ∈ M n := fun n hn => ((hM n).2 rank).2 ⟨S, hS, hn⟩
  have hnd : (S.reg.map (·.2)).Nodup := by
    rw [List.Nodup, List.pairwise_map]
    refine I.sorted.imp_of_mem fun {a b} ha hb hab e => ?_
    have h1 := ((I.mem a.1 a.2).1 ha).2
    have h2 := ((I.mem b.1 b.2).1 hb).2
    rw [← e, h1] at h2
    rw [h2] at hab
    exact Before.irrefl hab
  have hvis : ∀ a ∈ S.reg, S.isHidden a.2 = false → S.Has a.1 := fun a ha hv =>
    (sent_has I a.1).1 (mem_sent.2 ⟨a.2, ha, hv⟩)
  obtain ⟨D', e, e1, e2⟩ := resolveLoop_eq (rank := rank) (M := M) S.reg D hnd fun a ha hv =>
    have ⟨p, hp, _⟩ := resolveSet_eq (hM a.1).1 (hin a.1 (hvis a ha hv))
    ⟨p, hp⟩
  refine ⟨D', by rw [resolveSets, eM]; exact e, fun h hl hv => ?_, fun h hd => e2 h fun a ha ea => ?_⟩
  · have hm : (S.name h, h) ∈ S.reg := (I.mem _ _).2 ⟨hl, rfl⟩
    have hv' : S.isHidden h = false := by
      rw [Sets.isHidden]; cases a : S.hide <;> cases b : S.hidden h <;> simp_all
    have hp := e1 _ hm hv'
    have hrk := hin _ (hvis _ hm hv')
    obtain ⟨p, hp', q1, q2, q3, q4, q5, q6⟩ := resolveSet_eq (hM (S.name h)).1 hrk
    simp only at hp hrk
    rw [hp'] at hp
    cases hp
    have hone : M (S.name h) = [rank] ↔ ∀ k ∈ M (S.name h), k = rank := by
      constructor
      · intro e k hk; rw [e] at hk; simpa using hk
      · intro hall
        refine Holders.unique (P := P) (n := S.name h) (hM _) ⟨by simp, fun k => ?_⟩
        rw [← (hM (S.name h)).2 k, List.mem_singleton]
        exact ⟨fun e => e ▸ hrk, hall k⟩
    rw [q1]
    refine ⟨hM _, q2, q3, q4.trans hone, ?_, q6⟩
    rw [q5, ne_eq, hone]
    simp only [not_forall, exists_prop]
    exact and_comm
  · subst ea
    rcases hd with hd | hd
    · rw [((I.mem a.1 a.2).1 ha).1] at hd; cases hd
    · rw [Sets.isHidden, hd.1, hd.2]; rfl

/-- All processes agree: two sets with the same name, on any two processes, get the same list of ranks and the
same owner. -/
theorem C93_agree_partial {P : List Sets} (hP : ∀ S ∈ P, Hist S) (h0 : ∀ S ∈ P, ∀ n, S.Has n → 0 ∉ n)
    {i j : Nat} {S T : Sets} (hS : P[i]? = some S) (hT : P[j]? = some T) {D E D' E' : Nat → Par}
    (e1 : resolveSets P S i D = some D') (e2 : resolveSets P T j E = some E') {a b : Nat}
    (ha : S.live a = true) (hva : ¬ (S.hide = true ∧ S.hidden a = true))
    (hb : T.live b = true) (hvb : ¬ (T.hide = true ∧ T.hidden b = true)) (hn : S.name a = T.name b) :
    (D' a).procs = (E' b).procs ∧ (D' a).owner = (E' b).owner := by
  obtain ⟨D1, f1, g1, _⟩ := C93_resolve_partial hP h0 hS D
  obtain ⟨E1, f2, g2, _⟩ := C93_resolve_partial hP h0 hT E
  rw [e1] at f1; cases f1
  rw [e2] at f2; cases f2
  obtain ⟨p1, p2, p3, _⟩ := g1 a ha hva
  obtain ⟨q1, q2, q3, _⟩ := g2 b hb hvb
  rw [hn] at p1
  have e := Holders.unique p1 q1
  refine ⟨e, Nat.le_antisymm (p3 _ (e ▸ q2)) (q3 _ (e ▸ p2))⟩

/-! ## Example: four processes -/

def p0 : Sets := (Sets.init.create [97] 0).1
def p1 : Sets := ((Sets.init.create [98] 0).1.create [99] 1).1
def p2 : Sets := Sets.init
def p3 : Sets := ((Sets.init.create [99] 0).1.create [97] 1).1

def quad : List Sets := [p0, p1, p2, p3]

theorem quad_hist : ∀ S ∈ quad, Hist S := by
  intro S hS
  simp only [quad, List.mem_cons, List.not_mem_nil, or_false] at hS
  rcases hS with rfl | rfl | rfl | rfl
  · exact .create _ _ .init rfl
  · exact .create _ _ (.create _ _ .init rfl) (by decide +kernel)
  · exact .init
  · exact .create _ _ (.create _ _ .init rfl) (by decide +kernel)

theorem quad_zero : ∀ S ∈ quad, ∀ n, S.Has n → 0 ∉ n := by
  intro S hS n hn
  have := (sent_has (hist_ok (quad_hist S hS)) n).2 hn
  simp only [quad, List.mem_cons, List.not_mem_nil, or_false] at hS
  have key : ∀ S ∈ quad, ∀ n ∈ sent S S.reg, 0 ∉ n := by decide +kernel
  exact key S (by simpa [quad] using hS) n this

example : (resolveSets quad p3 3 (fun _ => ⟨[], 0, .owned⟩)).map (fun D => (D 0, D 1)) =
    some (⟨[1, 3], 1, .ghost⟩, ⟨[0, 3], 0, .ghost⟩) := by decide +kernel
example : (resolveSets quad p1 1 (fun _ => ⟨[], 0, .owned⟩)).map (fun D => (D 0, D 1)) =
    some (⟨[1], 1, .owned⟩, ⟨[1, 3], 1, .shared⟩) := by decide +kernel

/-! ## Where it fails -/

/-- A name with a zero byte is cut into two names on the way; the process that has the set finds no process
that has it, and the assertion `procs.size() > 0` fails. -/
theorem C93_zero_fails : ∃ P : List Sets, ∃ S : Sets, (∀ S ∈ P, Hist S) ∧ P[0]? = some S ∧
    ∀ D, resolveSets P S 0 D = none := by
  refine ⟨[(Sets.init.create [97, 0, 98] 0).1], _, ?_, rfl, fun D => ?_⟩
  · intro S hS
    rw [List.mem_singleton] at hS
    subst hS
    exact .create _ _ .init rfl
  · have e : ∃ M, mapNames [(Sets.init.create [97, 0, 98] 0).1] = some M ∧ M [97, 0, 98] = [] :=
      ⟨_, rfl, by decide +kernel⟩
    obtain ⟨M, e1, e2⟩ := e
    rw [resolveSets, e1]
    change (if _ then _ else match resolveSet 0 (M [97, 0, 98]) with | none => none | some p => _) = none
    rw [e2]
    rfl

end Verif.Names
