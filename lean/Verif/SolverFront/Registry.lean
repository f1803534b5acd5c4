import Mathlib.Logic.Function.Basic
/-
Names of linear solvers: model and property C129.

`SolverMaster::getSolver`, `getAvailableSolvers`, `isSolverAvailable` (`Source/Solver/SolverMaster.cpp`, lines 52-142), the functions
`SolverName` of the solvers, and the constructors of `Solver` (`Source/Solver/solver.cpp`, lines 20-65).

Simplifications.  The package ANI is left out: its directory `Source/Solver/solver_ani` is not in the repository, so
`USE_SOLVER_ANI` does not compile.
-/

namespace Verif.SolverFront

/-- Classes of solvers (SolverMaster.cpp, lines 69-94). -/
inductive Kind where
  | ilu2
  | ddpqiluc2
  | mptiluc
  | mlmptiluc
  | mptilu2
  | petsc
  | aztec
  | belos
  | ml
  | ifpack
  | superlu
  | k3biilu2
  | fcbiilu2
deriving DecidableEq

/-- Options of the build: `USE_SOLVER_PETSC`, `USE_SOLVER_TRILINOS`, `USE_MPI`, `USE_SOLVER_SUPERLU`, `HAVE_SOLVER_K3BIILU2`,
`HAVE_SOLVER_FCBIILU2`. -/
structure Build where
  petsc : Bool
  trilinos : Bool
  mpi : Bool
  superlu : Bool
  k3 : Bool
  fc : Bool

/-- `SolverMaster::getSolver` (SolverMaster.cpp, lines 67-96); `none` is the exception `SolverNotFound`. -/
def getSolver (b : Build) (name : String) : Option Kind :=
  if name = "inner_ilu2" then some .ilu2
  else if name = "inner_ddpqiluc2" then some .ddpqiluc2
  else if name = "inner_mptiluc" then some .mptiluc
  else if name = "inner_mlmptiluc" then some .mlmptiluc
  else if name = "inner_mptilu2" then some .mptilu2
  else if b.petsc ∧ name = "petsc" then some .petsc
  else if b.trilinos ∧ b.mpi ∧ name = "trilinos_aztec" then some .aztec
  else if b.trilinos ∧ b.mpi ∧ name = "trilinos_belos" then some .belos
  else if b.trilinos ∧ b.mpi ∧ name = "trilinos_ml" then some .ml
  else if b.trilinos ∧ b.mpi ∧ name = "trilinos_ifpack" then some .ifpack
  else if b.superlu ∧ name = "superlu" then some .superlu
  else if b.k3 ∧ name = "k3biilu2" then some .k3biilu2
  else if b.fc ∧ name = "fcbiilu2" then some .fcbiilu2
  else none

/-- `SolverMaster::getAvailableSolvers` (SolverMaster.cpp, lines 98-128). -/
def available (b : Build) : List String :=
  ["inner_ilu2", "inner_ddpqiluc2", "inner_mptiluc", "inner_mlmptiluc", "inner_mptilu2"] ++
  (if b.petsc then ["petsc"] else []) ++
  (if b.trilinos ∧ b.mpi then ["trilinos_aztec", "trilinos_belos", "trilinos_ml", "trilinos_ifpack"] else []) ++
  (if b.superlu then ["superlu"] else []) ++
  (if b.k3 then ["k3biilu2"] else []) ++
  (if b.fc then ["fcbiilu2"] else [])

/-- `SolverMaster::isSolverAvailable` (SolverMaster.cpp, lines 130-142). -/
def isAvailable (b : Build) (name : String) : Bool :=
  match getSolver b name with
  | some _ => true
  | none => false

/-- `SolverName` of each class (SolverILU2.cpp line 66, SolverDDPQILUC2.cpp line 69, SolverMPTILUC.cpp line 68,
SolverMLMPTILUC.cpp line 79, SolverMPTILU2.cpp line 68, SolverPETSc.cpp line 273, SolverTrilinosAztec.cpp line 74,
SolverTrilinosBelos.cpp line 80, SolverTrilinosML.cpp line 82, SolverTrilinosIfpack.cpp line 97, SolverSUPERLU.cpp line 271,
SolverK3BIILU2.cpp line 207, SolverFCBIILU2.cpp line 201). -/
def Kind.name : Kind → String
  | .ilu2 => "inner_ilu2"
  | .ddpqiluc2 => "inner_ddpqiluc2"
  | .mptiluc => "inner_mptiluc"
  | .mlmptiluc => "inner_mptiluc"
  | .mptilu2 => "inner_mptilu2"
  | .petsc => "petsc"
  | .aztec => "trilinos_aztec"
  | .belos => "trilinos_belos"
  | .ml => "trilinos_ml"
  | .ifpack => "trilinos_ifpack"
  | .superlu => "superlu"
  | .k3biilu2 => "k3biilu2"
  | .fcbiilu2 => "fcbiilu2"

/-- Does `Copy` throw `SolverUnsupportedOperation` (SolverInner.cpp lines 13-17, SolverSUPERLU.cpp lines 26-29, SolverTrilinos.cpp
lines 17-20; the others copy)? -/
def Kind.copies : Kind → Bool
  | .petsc => true
  | .k3biilu2 => true
  | .fcbiilu2 => true
  | _ => false

/-- Copy constructor of `Solver`, the kind of the copy (solver.cpp, lines 46-47); `none` is an exception. -/
def copyKind (b : Build) (k : Kind) : Option Kind :=
  match getSolver b k.name with
  | none => none
  | some k' => if k'.copies then some k' else none

/-! ### Proofs -/

theorem mem_opt (c : Prop) [Decidable c] (l : List String) (x : String) : x ∈ (if c then l else []) ↔ c ∧ x ∈ l := by
  by_cases h : c <;> simp [h]

/-- All names. -/
def allNames : List String :=
  ["inner_ilu2", "inner_ddpqiluc2", "inner_mptiluc", "inner_mlmptiluc", "inner_mptilu2", "petsc", "trilinos_aztec",
   "trilinos_belos", "trilinos_ml", "trilinos_ifpack", "superlu", "k3biilu2", "fcbiilu2"]

theorem name_cases (name : String) : name ∈ allNames ∨ (∀ b, getSolver b name = none) ∧ ∀ b, name ∉ available b := by
  by_cases h : name ∈ allNames
  · exact Or.inl h
  · right
    simp only [allNames, List.mem_cons, List.not_mem_nil, or_false, not_or] at h
    refine ⟨fun b => ?_, fun b => ?_⟩
    · simp only [getSolver, h, and_false, if_false]
    · simp only [available, List.mem_append, mem_opt, List.mem_cons, List.not_mem_nil, or_false, h, and_false, or_self,
        not_false_eq_true]

theorem listed_iff (b : Build) (name : String) : name ∈ available b ↔ ∃ k, getSolver b name = some k := by
  rcases name_cases name with h | ⟨h1, h2⟩
  · simp only [available, List.mem_append, mem_opt, List.mem_cons, List.not_mem_nil, or_false]
    simp only [allNames, List.mem_cons, List.not_mem_nil, or_false] at h
    rcases h with h | h | h | h | h | h | h | h | h | h | h | h | h <;> rw [h]
    · simp [getSolver]
    · simp [getSolver]
    · simp [getSolver]
    · simp [getSolver]
    · simp [getSolver]
    · cases hc : b.petsc <;> simp [getSolver, hc]
    · cases ht : b.trilinos <;> cases hm : b.mpi <;> simp [getSolver, ht, hm]
    · cases ht : b.trilinos <;> cases hm : b.mpi <;> simp [getSolver, ht, hm]
    · cases ht : b.trilinos <;> cases hm : b.mpi <;> simp [getSolver, ht, hm]
    · cases ht : b.trilinos <;> cases hm : b.mpi <;> simp [getSolver, ht, hm]
    · cases hc : b.superlu <;> simp [getSolver, hc]
    · cases hc : b.k3 <;> simp [getSolver, hc]
    · cases hc : b.fc <;> simp [getSolver, hc]
  · simp [h1 b, h2 b]

theorem getSolver_kind (b : Build) (name : String) (k : Kind) (h : getSolver b name = some k) :
    name = (if k = .mlmptiluc then "inner_mlmptiluc" else k.name) := by
  unfold getSolver at h
  by_cases e : name = "inner_ilu2"
  · rw [if_pos e] at h; rw [← Option.some.inj h]; exact e
  rw [if_neg e] at h
  clear e
  by_cases e : name = "inner_ddpqiluc2"
  · rw [if_pos e] at h; rw [← Option.some.inj h]; exact e
  rw [if_neg e] at h
  clear e
  by_cases e : name = "inner_mptiluc"
  · rw [if_pos e] at h; rw [← Option.some.inj h]; exact e
  rw [if_neg e] at h
  clear e
  by_cases e : name = "inner_mlmptiluc"
  · rw [if_pos e] at h; rw [← Option.some.inj h]; exact e
  rw [if_neg e] at h
  clear e
  by_cases e : name = "inner_mptilu2"
  · rw [if_pos e] at h; rw [← Option.some.inj h]; exact e
  rw [if_neg e] at h
  clear e
  by_cases e : b.petsc ∧ name = "petsc"
  · rw [if_pos e] at h; rw [← Option.some.inj h]; exact e.2
  rw [if_neg e] at h
  clear e
  by_cases e : b.trilinos ∧ b.mpi ∧ name = "trilinos_aztec"
  · rw [if_pos e] at h; rw [← Option.some.inj h]; exact e.2.2
  rw [if_neg e] at h
  clear e
  by_cases e : b.trilinos ∧ b.mpi ∧ name = "trilinos_belos"
  · rw [if_pos e] at h; rw [← Option.some.inj h]; exact e.2.2
  rw [if_neg e] at h
  clear e
  by_cases e : b.trilinos ∧ b.mpi ∧ name = "trilinos_ml"
  · rw [if_pos e] at h; rw [← Option.some.inj h]; exact e.2.2
  rw [if_neg e] at h
  clear e
  by_cases e : b.trilinos ∧ b.mpi ∧ name = "trilinos_ifpack"
  · rw [if_pos e] at h; rw [← Option.some.inj h]; exact e.2.2
  rw [if_neg e] at h
  clear e
  by_cases e : b.superlu ∧ name = "superlu"
  · rw [if_pos e] at h; rw [← Option.some.inj h]; exact e.2
  rw [if_neg e] at h
  clear e
  by_cases e : b.k3 ∧ name = "k3biilu2"
  · rw [if_pos e] at h; rw [← Option.some.inj h]; exact e.2
  rw [if_neg e] at h
  clear e
  by_cases e : b.fc ∧ name = "fcbiilu2"
  · rw [if_pos e] at h; rw [← Option.some.inj h]; exact e.2
  rw [if_neg e] at h
  clear e
  exact absurd h (by simp)

/-! ### C129 -/

/-- C129.  A name can be used for a solver exactly when it is listed, and `isSolverAvailable` says so; no name is listed
twice. -/
theorem C129_listed (b : Build) (name : String) :
    (name ∈ available b ↔ ∃ k, getSolver b name = some k) ∧ (isAvailable b name = true ↔ name ∈ available b) ∧
      (available b).Nodup := by
  refine ⟨listed_iff b name, ?_, ?_⟩
  · rw [listed_iff]
    unfold isAvailable
    cases getSolver b name <;> simp
  · refine List.Nodup.sublist ?_ (show allNames.Nodup by decide)
    have hs : ∀ (c : Prop) [Decidable c] (l : List String), (if c then l else []).Sublist l := by
      intro c _ l
      by_cases h : c <;> simp [h]
    show (available b).Sublist (["inner_ilu2", "inner_ddpqiluc2", "inner_mptiluc", "inner_mlmptiluc", "inner_mptilu2"] ++
      ["petsc"] ++ ["trilinos_aztec", "trilinos_belos", "trilinos_ml", "trilinos_ifpack"] ++ ["superlu"] ++ ["k3biilu2"] ++
      ["fcbiilu2"])
    exact List.Sublist.append (List.Sublist.append (List.Sublist.append (List.Sublist.append (List.Sublist.append
      (List.Sublist.refl _) (hs _ _)) (hs _ _)) (hs _ _)) (hs _ _)) (hs _ _)

/-- C129: a solver reports the name by which it was made, except for one class. -/
theorem C129_name_partial (b : Build) (name : String) (k : Kind) (h : getSolver b name = some k)
    (hk : name ≠ "inner_mlmptiluc") : k.name = name := by
  have e := getSolver_kind b name k h
  by_cases hm : k = .mlmptiluc
  · rw [if_pos hm] at e; exact absurd e hk
  · rw [if_neg hm] at e; exact e.symm

/-- C129 fails for `inner_mlmptiluc`: the solver says that it is `inner_mptiluc`. -/
theorem C129_name_fails : ¬ ∀ (b : Build) (name : String) (k : Kind), getSolver b name = some k → k.name = name := by
  intro h
  exact absurd (h ⟨false, false, false, false, false, false⟩ "inner_mlmptiluc" .mlmptiluc (by decide)) (by decide)

/-- C129, copies: a copy of a solver, when it is made, is of the same kind. -/
theorem C129_copy_partial (b : Build) (k k' : Kind) (h : copyKind b k = some k') : k' = k := by
  unfold copyKind at h
  cases hg : getSolver b k.name with
  | none => simp only [hg] at h; exact absurd h (by simp)
  | some q =>
    simp only [hg] at h
    split at h
    · rename_i hc
      simp only [Option.some.injEq] at h
      rw [← h]
      have e := getSolver_kind b _ q hg
      cases q <;> simp [Kind.copies] at hc <;> cases k <;> first | rfl | exact absurd e (by decide)
    · exact absurd h (by simp)

/-- C129 fails for copies: none of the solvers that come with the library can be copied, although the copy constructor exists. -/
theorem C129_copy_fails : ¬ ∀ (b : Build) (name : String) (k : Kind), getSolver b name = some k →
    copyKind b k = some k := by
  intro h
  exact absurd (h ⟨false, false, false, false, false, false⟩ "inner_ilu2" .ilu2 (by decide)) (by decide)

example : available ⟨true, false, true, true, false, false⟩ =
    ["inner_ilu2", "inner_ddpqiluc2", "inner_mptiluc", "inner_mlmptiluc", "inner_mptilu2", "petsc", "superlu"] := by decide

example : getSolver ⟨true, false, true, true, false, false⟩ "superlu" = some .superlu := by decide

example : copyKind ⟨true, false, true, true, false, false⟩ .petsc = some .petsc := by decide

end Verif.SolverFront
