import Mathlib.Data.List.Nodup
import Mathlib.Tactic.ByContra

/-!
# Topology checks (C149)

Models `BeginTopologyCheck`, `EndTopologyCheck` (`/repo/Source/Mesh/mesh.cpp` L874-1188), their use in `CreateEdge`, `CreateFace`, `CreateCell`
(L1226-1301, L1328-1403, L1805-1868), and the state of errors (`/repo/Source/Headers/inmost_mesh.h` L3395-3405).

Simplifications: a mask of bits is a set of checks. What the checks ask of the mesh (dimensions, numbers of cells, an element over the given ones, convexity, faces over
the same nodes) is given. Errors that `EndTopologyCheck` finds by itself, L1098-1178, are a list, of enabled checks. Printing is not modelled.
The code goes on after an invalid handle is found and asks it for its dimension and cells, which is undefined; here any answer is allowed.
-/

namespace Verif.Topology.Checks

/-- bits of `TopologyCheck`, inmost_mesh.h L45-117; checks that the two functions never use are left out -/
inductive Chk where
  | throwException | printNotify | deleteOnError | markOnError
  | duplicateEdge | duplicateFace | duplicateCell
  | degenerateEdge | degenerateFace | degenerateCell
  | faceOrientation | facePlanarity | interleavedFaces | tripleSharedFace | flattenedCell
  | adjacentDuplicate | adjacentHidden | adjacentValid | adjacentDimension
  | prohibitMultiline | prohibitPolygon | prohibitMultipolygon | prohibitPolyhedron
  | faceEdgesOrder | prohibitConcaveCell | disable2D
  deriving DecidableEq

inductive EType where
  | edge | face | cell
  deriving DecidableEq

/-- what the mesh answers: enabled checks, `isValidHandle`, the hide marker, `GetElementDimension` (`none` is ENUMUNDEF), the number of cells of a face,
`FindSharedAdjacency`, `CheckConvexity`, and the loop of L1076-1087 -/
structure Env where
  on : Chk → Bool
  valid : Nat → Bool
  hidden : Nat → Bool
  dim : Nat → Option Nat
  nbCells : Nat → Nat
  shared : List Nat → Option Nat
  convex : List Nat → Bool
  interleaved : List Nat → Bool

/-- L898-908: `marked` are the elements with the marker -/
def dupLoop : List Nat → List Nat → Bool
  | [], _ => false
  | h :: r, marked => if marked.contains h then true else dupLoop r (h :: marked)

/-- L921-940 for the dimensions: `none` is `happen`, otherwise the value of `d` -/
def dimLoop : List (Option Nat) → Option Nat → Option (Option Nat)
  | [], d => some d
  | none :: _, _ => none
  | some j :: r, none => dimLoop r (some j)
  | some j :: r, some d => if d ≠ j then none else dimLoop r (some d)

/-- one bit, if the condition holds -/
def bit (c : Bool) (x : Chk) : List Chk := if c then [x] else []

/-- the switch of L941-1045; `d` is a dimension -/
def switch (env : Env) (t : EType) (adj : List Nat) (d : Nat) : List Chk :=
  let s := adj.length
  match t with
  | .edge =>
    bit (env.on .disable2D && (s == 1 && d == 0)) .disable2D ++
    bit (env.on .adjacentDimension && decide (d > 0)) .adjacentDimension ++
    bit (env.on .degenerateEdge && decide (s > 2)) .degenerateEdge
  | .face =>
    bit (env.on .disable2D && (s == 2 && d == 0)) .disable2D ++
    bit (env.on .adjacentDimension && decide (d > 1)) .adjacentDimension ++
    bit (env.on .degenerateEdge && (d == 0 && s != 2)) .degenerateEdge ++
    bit (env.on .degenerateFace && (d == 1 && decide (s < 3))) .degenerateFace
  | .cell =>
    bit (env.on .disable2D && d == 1) .disable2D ++
    bit (env.on .adjacentDimension && (decide (d > 2) || d == 0)) .adjacentDimension ++
    bit (env.on .degenerateFace && (d == 1 && decide (s < 3))) .degenerateFace ++
    bit (env.on .degenerateCell && (d == 2 && decide (s < 4))) .degenerateCell ++
    bit (env.on .prohibitConcaveCell && !env.convex adj) .prohibitConcaveCell

/-- ENUMUNDEF -/
def undef : Nat := 4294967295

/-- L919: any of the five bits -/
def anyDim (env : Env) : Bool :=
  env.on .adjacentDimension || env.on .degenerateCell || env.on .degenerateFace || env.on .degenerateEdge || env.on .disable2D

/-- L919-1046 -/
def dimPart (env : Env) (t : EType) (adj : List Nat) : List Chk :=
  if anyDim env then
    match dimLoop (adj.map env.dim) none with
    | none => [.adjacentDimension]
    | some d => switch env t adj (d.getD undef)
  else []

/-- L1047-1089 -/
def lastPart (env : Env) (t : EType) (adj : List Nat) : List Chk :=
  match t with
  | .cell => bit (env.on .tripleSharedFace && (adj.any (fun h => env.nbCells h == 2) &&
      !(env.on .duplicateCell && (env.shared adj).isSome))) .tripleSharedFace
  | .face => bit (env.on .interleavedFaces && env.interleaved adj) .interleavedFaces
  | .edge => []

/-- `BeginTopologyCheck`, L874-1092: the errors -/
def beginCheck (env : Env) (t : EType) (adj : List Nat) : List Chk :=
  bit (env.on .adjacentValid && adj.any fun h => !env.valid h) .adjacentValid ++
  bit (env.on .adjacentHidden && adj.any fun h => env.hidden h) .adjacentHidden ++
  bit (env.on .adjacentDuplicate && dupLoop adj []) .adjacentDuplicate ++
  dimPart env t adj ++ lastPart env t adj

/-- elements of the type, `errorset`, the tag TOPOLOGY_ERROR_TAG -/
structure St where
  live : List Nat
  next : Nat
  errors : List Chk
  mark : Nat → Option (List Chk)

/-- an exception, or a handle and the second component of the result -/
inductive Out where
  | threw
  | got (h : Option Nat) (new : Bool)
  deriving DecidableEq

/-- the check for duplicates of the type -/
def dupBit : EType → Chk
  | .edge => .duplicateEdge
  | .face => .duplicateFace
  | .cell => .duplicateCell

/-- `EndTopologyCheck` from L1179: `errorset`, mark, deletion, exception. The handle is passed by value. -/
def endCheck (env : Env) (h : Nat) (chk : List Chk) (st : St) : Bool × St :=
  let st := { st with errors := st.errors ++ chk }
  if chk.isEmpty then (false, st)
  else
    let st := if env.on .markOnError then { st with mark := fun x => if x = h then some chk else st.mark x } else st
    let st := if env.on .deleteOnError then { st with live := st.live.filter (· != h), mark := fun x => if x = h then none else st.mark x } else st
    (env.on .throwException, st)

/-- `CreateEdge`, `CreateFace`, `CreateCell`; `late`: errors that `EndTopologyCheck` adds -/
def create (env : Env) (t : EType) (adj : List Nat) (late : List Chk) (st : St) : Out × St :=
  if adj.isEmpty then (.got none true, st)
  else
    let chk := beginCheck env t adj
    let st := { st with errors := st.errors ++ chk }
    if !chk.isEmpty && env.on .throwException then (.threw, st)
    else match if env.on (dupBit t) then env.shared adj else none with
      | some h => (.got (some h) false, st)
      | none =>
        let h := st.next
        let r := endCheck env h (chk ++ late) { st with live := st.live ++ [h], next := h + 1 }
        (if r.1 then .threw else .got (some h) true, r.2)

/-- a history of calls: environments may differ, each call has its late errors -/
structure Call where
  env : Env
  t : EType
  adj : List Nat
  late : List Chk

def run : List Call → St → St
  | [], st => st
  | c :: r, st => run r (create c.env c.t c.adj c.late st).2

/-! ## Specification -/

/-- all given elements have this dimension -/
def Uniform (env : Env) (adj : List Nat) (d : Nat) : Prop := ∀ h ∈ adj, env.dim h = some d

/-- the documented check for duplicates of each type -/
def DuplicateCheck (t : EType) : Chk := if t = .edge then .duplicateEdge else if t = .face then .duplicateFace else .duplicateCell

/-- the check finds no element over the given ones -/
def NotFound (env : Env) (t : EType) (adj : List Nat) : Prop := env.on (DuplicateCheck t) = false ∨ env.shared adj = none

/-- what is wrong with an element over the given ones, by checks -/
def Wrong (env : Env) (t : EType) (adj : List Nat) : Chk → Prop
  | .adjacentValid => ∃ h ∈ adj, env.valid h = false
  | .adjacentHidden => ∃ h ∈ adj, env.hidden h = true
  | .adjacentDuplicate => ¬ adj.Nodup
  | .adjacentDimension => match t with
    | .edge => ¬ Uniform env adj 0
    | .face => ¬ (Uniform env adj 0 ∨ Uniform env adj 1)
    | .cell => ¬ (Uniform env adj 1 ∨ Uniform env adj 2)
  | .degenerateEdge => match t with
    | .edge => (∃ d, Uniform env adj d) ∧ 2 < adj.length
    | .face => Uniform env adj 0 ∧ adj.length ≠ 2
    | .cell => False
  | .degenerateFace => t ≠ .edge ∧ Uniform env adj 1 ∧ adj.length < 3
  | .degenerateCell => t = .cell ∧ Uniform env adj 2 ∧ adj.length < 4
  | .disable2D => match t with
    | .edge => Uniform env adj 0 ∧ adj.length = 1
    | .face => Uniform env adj 0 ∧ adj.length = 2
    | .cell => Uniform env adj 1
  | .prohibitConcaveCell => t = .cell ∧ (∃ d, Uniform env adj d) ∧ env.convex adj = false
  | .tripleSharedFace => t = .cell ∧ (∃ h ∈ adj, 2 ≤ env.nbCells h) ∧ ¬ (env.on .duplicateCell = true ∧ env.shared adj ≠ none)
  | .interleavedFaces => t = .face ∧ env.interleaved adj = true
  | _ => False

/-! ## Lemmas -/

theorem duplicateCheck_eq (t : EType) : DuplicateCheck t = dupBit t := by cases t <;> rfl


theorem mem_bit {c : Bool} {x y : Chk} : y ∈ bit c x ↔ c = true ∧ y = x := by
  unfold bit
  cases c <;> simp

theorem dupLoop_iff : ∀ (l marked : List Nat), dupLoop l marked = true ↔ ¬ l.Nodup ∨ ∃ x ∈ l, x ∈ marked
  | [], marked => by simp [dupLoop]
  | h :: r, marked => by
    unfold dupLoop
    by_cases hm : h ∈ marked
    · simp [hm]
    · rw [if_neg (by simpa using hm), dupLoop_iff r, List.nodup_cons]
      by_cases hr : h ∈ r
      · simp only [hr, not_true_eq_false, false_and, not_false_eq_true, true_or, iff_true]
        exact .inr ⟨h, hr, by simp⟩
      · simp only [hr, not_false_eq_true, true_and]
        refine or_congr Iff.rfl ?_
        constructor
        · rintro ⟨x, hx, hm'⟩
          rcases List.mem_cons.1 hm' with e | e
          · exact absurd (e ▸ hx) hr
          · exact ⟨x, by simp [hx], e⟩
        · rintro ⟨x, hx, hm'⟩
          rcases List.mem_cons.1 hx with e | e
          · exact absurd (e ▸ hm') hm
          · exact ⟨x, e, by simp [hm']⟩

theorem dimLoop_some (env : Env) (d : Nat) : ∀ l : List Nat, dimLoop (l.map env.dim) (some d) = if ∀ h ∈ l, env.dim h = some d then some (some d) else none
  | [] => by simp [dimLoop]
  | h :: r => by
    rw [List.map_cons]
    cases hd : env.dim h with
    | none => simp [dimLoop, hd]
    | some j =>
      unfold dimLoop
      by_cases e : d = j
      · subst e
        simp only [ne_eq, not_true_eq_false, if_false]
        rw [dimLoop_some env d r]
        simp [hd]
      · have : ¬ j = d := fun h => e h.symm
        simp [hd, e, this]

/-- the loop over dimensions finds the common one -/
theorem dimLoop_cases (env : Env) (adj : List Nat) (hne : adj ≠ []) :
    (∃ d, Uniform env adj d ∧ dimLoop (adj.map env.dim) none = some (some d)) ∨
    ((∀ d, ¬ Uniform env adj d) ∧ dimLoop (adj.map env.dim) none = none) := by
  cases adj with
  | nil => exact absurd rfl hne
  | cons h r =>
    rw [List.map_cons]
    cases hd : env.dim h with
    | none =>
      refine .inr ⟨fun d hu => ?_, rfl⟩
      have := hu h (by simp)
      rw [hd] at this; cases this
    | some j =>
      have e : dimLoop (some j :: r.map env.dim) none = dimLoop (r.map env.dim) (some j) := rfl
      rw [e, dimLoop_some]
      by_cases hr : ∀ h ∈ r, env.dim h = some j
      · refine .inl ⟨j, ?_, if_pos hr⟩
        intro x hx
        rcases List.mem_cons.1 hx with c | c
        · rw [c, hd]
        · exact hr x c
      · refine .inr ⟨fun d hu => hr fun x hx => ?_, if_neg hr⟩
        have h1 := hu h (by simp)
        rw [hd] at h1
        rw [hu x (by simp [hx]), ← h1]

theorem uniform_eq {env : Env} {adj : List Nat} (hne : adj ≠ []) {d e : Nat} (hd : Uniform env adj d) : Uniform env adj e ↔ d = e := by
  constructor
  · intro he
    obtain ⟨h, hh⟩ := List.exists_mem_of_ne_nil adj hne
    have := (hd h hh).symm.trans (he h hh)
    simpa using this
  · rintro rfl; exact hd

theorem mem_dimPart (env : Env) (t : EType) (adj : List Nat) (hne : adj ≠ []) (c : Chk) (h1 : c ≠ .adjacentDimension) (h2 : c ≠ .prohibitConcaveCell)
    (h3 : c ≠ .adjacentValid) (h4 : c ≠ .adjacentHidden) (h5 : c ≠ .adjacentDuplicate) (h6 : c ≠ .tripleSharedFace) (h7 : c ≠ .interleavedFaces) :
    c ∈ dimPart env t adj ↔ env.on c = true ∧ Wrong env t adj c := by
  unfold dimPart
  by_cases ha : anyDim env = true
  · rw [if_pos ha]
    rcases dimLoop_cases env adj hne with ⟨d, hu, e⟩ | ⟨hn, e⟩
    · rw [e]
      simp only [Option.getD_some]
      have hu' := fun k => uniform_eq (e := k) hne hu
      have hex : ∃ d, Uniform env adj d := ⟨d, hu⟩
      cases t <;> cases c <;> simp_all [switch, mem_bit, Wrong, and_comm]
    · rw [e]
      cases t <;> cases c <;> simp_all [Wrong]
  · rw [if_neg ha]
    simp only [anyDim, Bool.or_eq_true, not_or, Bool.not_eq_true] at ha
    cases c <;> simp_all [Wrong]

/-! ## The property -/

/-- **C149** (partial): before an element is made, each enabled check reports an error if and only if what it forbids is there, and checks that are not enabled
report nothing. Missing: the check of dimensions, which can report without being enabled, and the check of convexity, which needs another one; see the next theorems. Faces have
at most two cells, see `C149_third_cell_fails`. -/
theorem C149_begin_partial (env : Env) (t : EType) (adj : List Nat) (hne : adj ≠ []) (h2c : ∀ h ∈ adj, env.nbCells h ≤ 2) (c : Chk) (h1 : c ≠ .adjacentDimension) (h2 : c ≠ .prohibitConcaveCell) :
    c ∈ beginCheck env t adj ↔ env.on c = true ∧ Wrong env t adj c := by
  by_cases h3 : c = .adjacentValid
  · subst h3
    have hd : Chk.adjacentValid ∉ dimPart env t adj := by
      unfold dimPart; split
      · split
        · simp
        · cases t <;> simp [switch, mem_bit]
      · simp
    have hl : Chk.adjacentValid ∉ lastPart env t adj := by cases t <;> simp [lastPart, mem_bit]
    simp [beginCheck, mem_bit, hd, hl, Wrong]
  by_cases h4 : c = .adjacentHidden
  · subst h4
    have hd : Chk.adjacentHidden ∉ dimPart env t adj := by
      unfold dimPart; split
      · split
        · simp
        · cases t <;> simp [switch, mem_bit]
      · simp
    have hl : Chk.adjacentHidden ∉ lastPart env t adj := by cases t <;> simp [lastPart, mem_bit]
    simp [beginCheck, mem_bit, hd, hl, Wrong]
  by_cases h5 : c = .adjacentDuplicate
  · subst h5
    have hd : Chk.adjacentDuplicate ∉ dimPart env t adj := by
      unfold dimPart; split
      · split
        · simp
        · cases t <;> simp [switch, mem_bit]
      · simp
    have hl : Chk.adjacentDuplicate ∉ lastPart env t adj := by cases t <;> simp [lastPart, mem_bit]
    simp [beginCheck, mem_bit, hd, hl, Wrong, dupLoop_iff]
  by_cases h6 : c = .tripleSharedFace
  · subst h6
    have hd : Chk.tripleSharedFace ∉ dimPart env t adj := by
      unfold dimPart; split
      · split
        · simp
        · cases t <;> simp [switch, mem_bit]
      · simp
    have h2e : (∃ h ∈ adj, 2 ≤ env.nbCells h) ↔ ∃ h ∈ adj, env.nbCells h = 2 :=
      ⟨fun ⟨h, m, l⟩ => ⟨h, m, Nat.le_antisymm (h2c h m) l⟩, fun ⟨h, m, l⟩ => ⟨h, m, Nat.le_of_eq l.symm⟩⟩
    simp only [beginCheck, List.mem_append, mem_bit, hd, Wrong, h2e]
    cases t <;> simp [lastPart, mem_bit, Option.isSome_iff_ne_none]
    intro _ _ _ _
    cases env.on .duplicateCell <;> simp
  by_cases h7 : c = .interleavedFaces
  · subst h7
    have hd : Chk.interleavedFaces ∉ dimPart env t adj := by
      unfold dimPart; split
      · split
        · simp
        · cases t <;> simp [switch, mem_bit]
      · simp
    simp only [beginCheck, List.mem_append, mem_bit, hd, Wrong]
    cases t <;> simp [lastPart, mem_bit]
  · have hl : c ∉ lastPart env t adj := by cases t <;> simp [lastPart, mem_bit, h6, h7]
    simp only [beginCheck, List.mem_append, mem_bit, h3, h4, h5, hl, and_false, false_or, or_false]
    exact mem_dimPart env t adj hne c h1 h2 h3 h4 h5 h6 h7

/-- **C149** (partial): the check of dimensions is exact if it is enabled, and the check of convexity if one of the five checks of sizes and dimensions is. -/
theorem C149_dimension_partial (env : Env) (t : EType) (adj : List Nat) (hne : adj ≠ []) :
    (env.on .adjacentDimension = true → (.adjacentDimension ∈ beginCheck env t adj ↔ Wrong env t adj .adjacentDimension)) ∧
    ((∃ c ∈ [Chk.adjacentDimension, .degenerateCell, .degenerateFace, .degenerateEdge, .disable2D], env.on c = true) → (.prohibitConcaveCell ∈ beginCheck env t adj ↔ env.on .prohibitConcaveCell = true ∧ Wrong env t adj .prohibitConcaveCell)) := by
  constructor
  · intro hon
    have ha : anyDim env = true := by simp [anyDim, hon]
    have hl : Chk.adjacentDimension ∉ lastPart env t adj := by cases t <;> simp [lastPart, mem_bit]
    simp only [beginCheck, List.mem_append, mem_bit, hl, reduceCtorEq, and_false, false_or, or_false, dimPart, ha, if_true]
    rcases dimLoop_cases env adj hne with ⟨d, hu, e⟩ | ⟨hn, e⟩
    · rw [e]
      have hu' := fun k => uniform_eq (e := k) hne hu
      cases t <;> simp [switch, mem_bit, hon, Wrong, hu'] <;> omega
    · rw [e]
      cases t <;> simp [Wrong, hn]
  · intro ha
    replace ha : anyDim env = true := by
      simp only [List.mem_cons, List.not_mem_nil, or_false, exists_eq_or_imp, exists_eq_left] at ha
      simpa [anyDim, or_assoc] using ha
    have hl : Chk.prohibitConcaveCell ∉ lastPart env t adj := by cases t <;> simp [lastPart, mem_bit]
    simp only [beginCheck, List.mem_append, mem_bit, hl, reduceCtorEq, and_false, false_or, or_false, dimPart, ha, if_true]
    rcases dimLoop_cases env adj hne with ⟨d, hu, e⟩ | ⟨hn, e⟩
    · rw [e]
      have hex : ∃ d, Uniform env adj d := ⟨d, hu⟩
      cases t <;> simp [switch, mem_bit, Wrong, hex]
    · rw [e]
      cases t <;> simp [Wrong, hn]

/-- **C149**: an element without errors is made, an existing one is returned if the check for duplicates finds it, and nothing is recorded. -/
theorem C149_clean (env : Env) (t : EType) (adj : List Nat) (st : St) (hne : adj ≠ []) (hb : beginCheck env t adj = []) :
    (∀ h, env.on (DuplicateCheck t) = true → env.shared adj = some h → create env t adj [] st = (.got (some h) false, st)) ∧
    (NotFound env t adj →
      create env t adj [] st = (.got (some st.next) true, { st with live := st.live ++ [st.next], next := st.next + 1 })) := by
  have he : adj.isEmpty = false := by cases adj <;> simp_all
  simp only [NotFound, duplicateCheck_eq]
  constructor
  · intro h h1 h2
    simp [create, he, hb, h1, h2]
  · intro h
    have : (if env.on (dupBit t) then env.shared adj else none) = none := by
      rcases h with h | h <;> simp [h]
    simp [create, he, hb, this, endCheck]

/-- **C149**: a call that returns a new element under THROW_EXCEPTION has found no error; under DELETE_ON_ERROR the only element it can add is one without
errors, however the call ends. -/
theorem C149_no_error (env : Env) (t : EType) (adj : List Nat) (late : List Chk) (st : St) (hne : adj ≠ []) :
    (env.on .throwException = true → ∀ h, (create env t adj late st).1 = .got (some h) true → beginCheck env t adj = [] ∧ late = []) ∧
    (env.on .deleteOnError = true → ∀ h ∈ (create env t adj late st).2.live, h ∈ st.live ∨ (h = st.next ∧ beginCheck env t adj = [] ∧ late = [])) := by
  have he : adj.isEmpty = false := by cases adj <;> simp_all
  constructor
  · intro ht h hc
    unfold create at hc
    simp only [he, Bool.false_eq_true, if_false] at hc
    split at hc
    · cases hc
    · rename_i hb
      have hb' : beginCheck env t adj = [] := by simpa [ht] using hb
      split at hc
      · cases hc
      · simp only [hb', List.nil_append] at hc
        refine ⟨hb', ?_⟩
        by_contra hl
        have : late.isEmpty = false := by cases late <;> simp_all
        simp [endCheck, this, ht] at hc
  · intro hd h hh
    unfold create at hh
    simp only [he, Bool.false_eq_true, if_false] at hh
    split at hh
    · exact .inl hh
    · split at hh
      · exact .inl hh
      · by_cases hl : (beginCheck env t adj ++ late).isEmpty = true
        · simp only [endCheck, hl, if_true, List.mem_append, List.mem_singleton] at hh
          rcases hh with c | c
          · exact .inl c
          · exact .inr ⟨c, by simpa using hl⟩
        · have hl' : (beginCheck env t adj ++ late).isEmpty = false := by simpa using hl
          left
          simp only [endCheck, hl', hd, Bool.false_eq_true, if_false, if_true] at hh
          have hm : h ∈ (st.live ++ [st.next]).filter (· != st.next) := by
            cases hm : env.on .markOnError <;> rw [hm] at hh <;> exact hh
          simp only [List.mem_filter, List.mem_append, List.mem_singleton, bne_iff_ne] at hm
          exact hm.1.resolve_right hm.2

/-- **C149**: under MARK_ON_ERROR without deletion, the element made has all errors of the call in its tag, and no tag if there are none; other elements keep theirs. -/
theorem C149_mark (env : Env) (t : EType) (adj : List Nat) (late : List Chk) (st : St) (hne : adj ≠ []) (hm : env.on .markOnError = true)
    (hd : env.on .deleteOnError = false) (ht : env.on .throwException = false) (hdup : NotFound env t adj)
    (hfresh : st.mark st.next = none) :
    (create env t adj late st).1 = .got (some st.next) true ∧ st.next ∈ (create env t adj late st).2.live ∧
    (∀ x, x ≠ st.next → (create env t adj late st).2.mark x = st.mark x) ∧
    (create env t adj late st).2.mark st.next = if beginCheck env t adj = [] ∧ late = [] then none else some (beginCheck env t adj ++ late) := by
  have he : adj.isEmpty = false := by cases adj <;> simp_all
  simp only [NotFound, duplicateCheck_eq] at hdup
  have hs : (if env.on (dupBit t) then env.shared adj else none) = none := by
    rcases hdup with h | h <;> simp [h]
  unfold create
  simp only [he, ht, hs, Bool.false_eq_true, if_false, Bool.and_false]
  by_cases hl : (beginCheck env t adj ++ late).isEmpty = true
  · have hl' : beginCheck env t adj = [] ∧ late = [] := by simpa using hl
    simp [endCheck, hl', hfresh]
  · have hl' : ¬ (beginCheck env t adj = [] ∧ late = []) := by simpa using hl
    have hl2 : (beginCheck env t adj ++ late).isEmpty = false := by simpa using hl
    simp only [endCheck, hl2, hm, hd, ht, Bool.false_eq_true, if_false, if_true, if_neg hl']
    refine ⟨trivial, by simp, fun x hx => if_neg hx, trivial⟩

/-- **C149**: over every history, the error state of the mesh has exactly the errors found by the calls, and those that were there. An error found before the
element was made is always there; one found after it was made is there unless the call stopped before. -/
theorem C149_errors : ∀ (calls : List Call) (st : St) (c : Chk), c ∈ (run calls st).errors ↔
    c ∈ st.errors ∨ ∃ k ∈ calls, k.adj ≠ [] ∧ (c ∈ beginCheck k.env k.t k.adj ∨
      (c ∈ k.late ∧ (beginCheck k.env k.t k.adj = [] ∨ k.env.on .throwException = false) ∧ NotFound k.env k.t k.adj))
  | [], st, c => by simp [run]
  | k :: r, st, c => by
    rw [run, C149_errors r]
    simp only [NotFound, duplicateCheck_eq]
    have key : c ∈ (create k.env k.t k.adj k.late st).2.errors ↔ c ∈ st.errors ∨ (k.adj ≠ [] ∧ (c ∈ beginCheck k.env k.t k.adj ∨
      (c ∈ k.late ∧ (beginCheck k.env k.t k.adj = [] ∨ k.env.on .throwException = false) ∧
        (k.env.on (dupBit k.t) = false ∨ k.env.shared k.adj = none)))) := by
      have hend : ∀ (h : Nat) (chk : List Chk) (st : St), (endCheck k.env h chk st).2.errors = st.errors ++ chk := by
        intro h chk st
        unfold endCheck
        cases chk.isEmpty <;> cases k.env.on .markOnError <;> cases k.env.on .deleteOnError <;> rfl
      by_cases he : k.adj = []
      · simp [create, he]
      · have he' : k.adj.isEmpty = false := by simpa using he
        unfold create
        simp only [he', Bool.false_eq_true, if_false]
        by_cases hb : beginCheck k.env k.t k.adj = []
        · simp only [hb, List.isEmpty_nil, Bool.not_true, Bool.false_and, Bool.false_eq_true, if_false, List.append_nil, List.nil_append]
          cases hs : (if k.env.on (dupBit k.t) then k.env.shared k.adj else none) with
          | none =>
            have : k.env.on (dupBit k.t) = false ∨ k.env.shared k.adj = none := by
              cases ho : k.env.on (dupBit k.t) with
              | false => exact .inl rfl
              | true => rw [ho] at hs; exact .inr (by simpa using hs)
            simp [hend, he, this]
          | some h =>
            have : ¬ (k.env.on (dupBit k.t) = false ∨ k.env.shared k.adj = none) := by
              rintro (c | c) <;> simp [c] at hs
            simp [he, this]
        · have hb' : (beginCheck k.env k.t k.adj).isEmpty = false := by simpa using hb
          cases ht : k.env.on .throwException with
          | true => simp [hb', he, hb]
          | false =>
            simp only [Bool.and_false, Bool.false_eq_true, if_false]
            cases hs : (if k.env.on (dupBit k.t) then k.env.shared k.adj else none) with
            | none =>
              have : k.env.on (dupBit k.t) = false ∨ k.env.shared k.adj = none := by
                cases ho : k.env.on (dupBit k.t) with
                | false => exact .inl rfl
                | true => rw [ho] at hs; exact .inr (by simpa using hs)
              simp [hend, he, this]
            | some h =>
              have : ¬ (k.env.on (dupBit k.t) = false ∨ k.env.shared k.adj = none) := by
                rintro (c | c) <;> simp [c] at hs
              simp [he, this]
    rw [key, or_assoc]
    simp

/-- the checks of a list are on; three nodes, elements of dimension 0 up to 9 and of dimension 2 from 10 on -/
def envOf (l : List Chk) : Env :=
  ⟨fun c => decide (c ∈ l), fun _ => true, fun _ => false, fun h => if h < 10 then some 0 else some 2, fun _ => 0, fun _ => none, fun _ => false, fun _ => false⟩

/-- Under DEGENERATE_CELL alone, elements of different dimensions are an error of ADJACENT_DIMENSION, which is not enabled. -/
theorem C149_not_enabled_fails : (envOf [.degenerateCell]).on .adjacentDimension = false ∧
    beginCheck (envOf [.degenerateCell]) .cell [1, 11, 12, 13] = [.adjacentDimension] := by decide

/-- Under PROHIBIT_CONCAVE_CELL alone, a concave cell is no error. -/
theorem C149_concave_fails : (envOf [.prohibitConcaveCell]).convex [11, 12, 13, 14] = false ∧
    beginCheck (envOf [.prohibitConcaveCell]) .cell [11, 12, 13, 14] = [] := by decide

/-- TRIPLE_SHARED_FACE does not report a face that already has three cells. -/
theorem C149_third_cell_fails : Wrong { envOf [.tripleSharedFace] with nbCells := fun _ => 3 } .cell [11, 12, 13, 14] .tripleSharedFace ∧
    beginCheck { envOf [.tripleSharedFace] with nbCells := fun _ => 3 } .cell [11, 12, 13, 14] = [] :=
  ⟨⟨rfl, ⟨11, by simp, by decide⟩, by simp [envOf]⟩, by decide⟩

/-- Under THROW_EXCEPTION alone, an error found after the element was made leaves the element in the mesh when the exception leaves the call. -/
theorem C149_exception_leaves_element_fails (st : St) : ∃ st', create (envOf [.throwException, .flattenedCell]) .cell [11, 12, 13, 14] [.flattenedCell] st
    = (.threw, st') ∧ st.next ∈ st'.live := by
  refine ⟨_, rfl, ?_⟩
  show st.next ∈ st.live ++ [st.next]
  simp

/-- Under DELETE_ON_ERROR without exceptions, the call returns, as a new element, the handle of the element it has deleted. -/
theorem C149_deleted_handle_fails (st : St) : ∃ st', create (envOf [.deleteOnError, .degenerateEdge]) .edge [1, 2, 3] [] st
    = (.got (some st.next) true, st') ∧ st.next ∉ st'.live := by
  refine ⟨_, rfl, ?_⟩
  show st.next ∉ (st.live ++ [st.next]).filter (· != st.next)
  simp

/-- A cell of three faces is an error, one of four is not: hypotheses of `C149_clean` hold. -/
example : beginCheck (envOf [.degenerateCell, .adjacentDimension, .adjacentDuplicate]) .cell [11, 12, 13] = [.degenerateCell] ∧
    beginCheck (envOf [.degenerateCell, .adjacentDimension, .adjacentDuplicate]) .cell [11, 12, 13, 14] = [] ∧
    beginCheck (envOf [.degenerateCell, .adjacentDimension, .adjacentDuplicate]) .cell [11, 12, 13, 13] = [.adjacentDuplicate] := by decide

end Verif.Topology.Checks
