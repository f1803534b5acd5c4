import Mathlib.Logic.Function.Basic
/-
Parameters of solvers from the XML database: model and property C130.

`Solver::Initialize`, `Solver::Finalize`, `Solver::parseXMLDatabase` and the constructor of `Solver` (`Source/Solver/solver.cpp`, lines
20-42, 97-137, 252-325), `SolverInner::Setup`, `SetParameter`, `GetParameter` (`Source/Solver/solver_inner/SolverInner.cpp`, lines
25-34, 62-84), `SolverILU2::SetParameter` (`Source/Solver/solver_inner/solver_ilu2/SolverILU2.cpp`, lines 52-63).

Simplifications.  The XML file is given as a tree (reading XML: `Verif/Xml`).  `string_to_lower` is an arbitrary function.  A parameter
keeps its text; conversion to a number is not modelled.  A parameter file is given by the pairs that its lines contain, in
order (`SolverParameters.cpp`, lines 26-30).  The solver is `inner_ilu2`.
-/

namespace Verif.SolverFront

/-- XML element: name, attributes, children. -/
inductive Tree where
  | node (name : String) (attrs : List (String × String)) (children : List Tree)

def Tree.name : Tree → String
  | .node n _ _ => n

def Tree.attrs : Tree → List (String × String)
  | .node _ a _ => a

def Tree.children : Tree → List Tree
  | .node _ _ c => c

/-- `SolverParameters` (SolverInterface.h, lines 14-28). -/
structure Entry where
  solver : String
  pref : String
  file : String
  params : List (String × String)

/-- Is it the attribute of a parameter file (solver.cpp, lines 279, 296)? -/
def isFile (a : String) : Bool := a = "File" ∨ a = "file" ∨ a = "FILE"

/-- The last such attribute (solver.cpp, lines 277-283, 294-300). -/
def fileOf (attrs : List (String × String)) : String :=
  attrs.foldl (fun f a => if isFile a.1 then a.2 else f) ""

/-- One parameter (solver.cpp, lines 306-310). -/
def readParam (p : Tree) : Option (String × String) :=
  match p.attrs with
  | [(n, v)] => if n = "value" ∨ n = "Value" then some (p.name, v) else none
  | _ => none

/-- Entries for one solver of the database (solver.cpp, lines 274-317). -/
def solverEntries (lower : String → String) (c : Tree) : List Entry :=
  match c.children with
  | [] => [⟨lower c.name, "", fileOf c.attrs, []⟩]
  | q :: qs => (q :: qs).map fun q => ⟨lower c.name, lower q.name, fileOf q.attrs, q.children.filterMap readParam⟩

/-- `parseXMLDatabase` (solver.cpp, lines 268-319). -/
def parseDb (lower : String → String) (root : Tree) : List Entry :=
  if root.name = "SolverParameters" then root.children.flatMap (solverEntries lower) else []

/-- Calls of `Solver::Initialize` (with the tree of the database, or `none` if there is no file or it is not XML) and `Finalize`. -/
inductive Start where
  | initialize_ (db : Option Tree)
  | finalize_

/-- The static list of parameters after a history of calls (solver.cpp, lines 118, 124, 252-262, 287, 313, 321). -/
def stored (lower : String → String) : List Entry → List Start → List Entry
  | es, [] => es
  | es, .initialize_ none :: r => stored lower es r
  | es, .initialize_ (some t) :: r => stored lower (es ++ parseDb lower t) r
  | _, .finalize_ :: r => stored lower [] r

/-- Parameters that `SolverILU2` knows (SolverILU2.cpp, lines 54-61; SolverInner.cpp, lines 77-80). -/
def known : List String :=
  ["rescale_iterations", "schwartz_overlap", "gmres_substeps", "reorder_nonzeros", "fill_level", "drop_tolerance",
   "reuse_tolerance", "verbosity", "maximum_iterations", "absolute_tolerance", "relative_tolerance", "divergence_tolerance"]

/-- Values of parameters; `none` is the default. -/
abbrev Settings := String → Option String

/-- `SetParameter` (SolverILU2.cpp, lines 52-63; SolverInner.cpp, lines 75-84). -/
def setParam (σ : Settings) (nv : String × String) : Settings :=
  if nv.1 ∈ known then Function.update σ nv.1 (some nv.2) else σ

/-- `GetParameter` (SolverInner.cpp, lines 62-73): the text and whether it is the default. -/
def getParam (σ : Settings) (n : String) : Option (Option String) :=
  if n = "maximum_iterations" then some (σ n)
  else if n = "absolute_tolerance" then some (σ n)
  else if n = "relative_tolerance" then some (σ n)
  else if n = "divergence_tolerance" then some (σ n)
  else none

/-- `Setup` (SolverInner.cpp, lines 25-34). -/
def setup (files : String → Option (List (String × String))) (σ : Settings) (e : Entry) : Settings :=
  if e.file ≠ "" then
    match files e.file with
    | none => σ
    | some l => l.foldl setParam σ
  else e.params.foldl setParam σ

/-- Constructor `Solver(name, prefix)`, the parameters of the new solver (solver.cpp, lines 22-40). -/
def construct (lower : String → String) (files : String → Option (List (String × String))) (es : List Entry)
    (name pref : String) : Settings :=
  match es.reverse.find? fun e => e.solver = lower name ∧ e.pref = lower pref with
  | some e => setup files (fun _ => none) e
  | none => setup files (fun _ => none) ⟨lower name, lower pref, "", []⟩

/-! ### Proofs -/

theorem find_last {E : Type} (f : E → Bool) (a : List E) (e : E) (b : List E) (he : f e = true) (hb : ∀ x ∈ b, f x = false) :
    (a ++ e :: b).reverse.find? f = some e := by
  rw [List.reverse_append, List.reverse_cons, List.append_assoc, List.find?_append]
  have : b.reverse.find? f = none := by
    rw [List.find?_eq_none]
    intro x hx
    rw [hb x (List.mem_reverse.1 hx)]
    simp
  rw [this]
  simp [he]

theorem fold_other (p : String) : ∀ (l : List (String × String)) (σ : Settings), (∀ x ∈ l, x.1 ≠ p) →
    l.foldl setParam σ p = σ p := by
  intro l
  induction l with
  | nil => intro σ _; rfl
  | cons x l ih =>
    intro σ h
    rw [List.foldl_cons, ih _ fun y hy => h y (by simp [hy])]
    unfold setParam
    by_cases hk : x.1 ∈ known
    · rw [if_pos hk, Function.update_of_ne (Ne.symm (h x (by simp)))]
    · rw [if_neg hk]

theorem fold_last (p v : String) (hp : p ∈ known) (a b : List (String × String)) (σ : Settings)
    (hb : ∀ x ∈ b, x.1 ≠ p) : (a ++ (p, v) :: b).foldl setParam σ p = some v := by
  rw [List.foldl_append, List.foldl_cons, fold_other p b _ hb]
  simp [setParam, hp]

theorem fileOf_none (attrs : List (String × String)) (h : ∀ a ∈ attrs, isFile a.1 = false) : fileOf attrs = "" := by
  unfold fileOf
  induction attrs with
  | nil => rfl
  | cons a l ih =>
    rw [List.foldl_cons]
    simp only [h a (by simp)]
    exact ih fun x hx => h x (by simp [hx])

theorem fileOf_last (a : List (String × String)) (n f : String) (b : List (String × String)) (hn : isFile n = true)
    (hb : ∀ x ∈ b, isFile x.1 = false) : fileOf (a ++ (n, f) :: b) = f := by
  unfold fileOf
  rw [List.foldl_append, List.foldl_cons]
  simp only [hn, if_true]
  clear hn
  induction b with
  | nil => rfl
  | cons x l ih =>
    rw [List.foldl_cons]
    simp only [hb x (by simp)]
    exact ih fun y hy => hb y (by simp [hy])

/-- A later element of the database does not concern a solver and a prefix. -/
def Elsewhere (lower : String → String) (name pref : String) (c : Tree) : Prop :=
  lower c.name = lower name → (∀ q ∈ c.children, lower q.name ≠ lower pref) ∧ (c.children = [] → lower pref ≠ "")

theorem elsewhere_entries {lower : String → String} {name pref : String} {c : Tree} (h : Elsewhere lower name pref c) :
    ∀ e ∈ solverEntries lower c, ¬ (e.solver = lower name ∧ e.pref = lower pref) := by
  intro e he
  unfold solverEntries at he
  rintro ⟨h1, h2⟩
  cases hc : c.children with
  | nil =>
    simp only [hc, List.mem_singleton] at he
    rw [he] at h1 h2
    exact (h h1).2 hc h2.symm
  | cons q qs =>
    simp only [hc] at he
    obtain ⟨q', hq', e'⟩ := List.mem_map.1 he
    rw [← e'] at h1 h2
    exact (h h1).1 q' (by rw [hc]; exact hq') h2

/-- The entry that a constructor finds. -/
theorem find_entry (lower : String → String) (es : List Entry) (root c q : Tree) (name pref : String)
    {cs1 cs2 qs1 qs2 : List Tree} (hroot : root.name = "SolverParameters") (hc : root.children = cs1 ++ c :: cs2)
    (hq : c.children = qs1 ++ q :: qs2) (hname : lower c.name = lower name) (hpref : lower q.name = lower pref)
    (hq2 : ∀ q' ∈ qs2, lower q'.name ≠ lower pref) (hc2 : ∀ c' ∈ cs2, Elsewhere lower name pref c') :
    ((es ++ parseDb lower root).reverse.find? fun e => e.solver = lower name ∧ e.pref = lower pref) =
      some ⟨lower c.name, lower q.name, fileOf q.attrs, q.children.filterMap readParam⟩ := by
  have hse : solverEntries lower c = c.children.map fun q =>
      ⟨lower c.name, lower q.name, fileOf q.attrs, q.children.filterMap readParam⟩ := by
    unfold solverEntries
    cases hcc : c.children with
    | nil => rw [hcc] at hq; simp at hq
    | cons a l => rfl
  have hsplit : es ++ parseDb lower root = (es ++ (cs1.flatMap (solverEntries lower) ++ qs1.map fun q =>
      ⟨lower c.name, lower q.name, fileOf q.attrs, q.children.filterMap readParam⟩)) ++
      ⟨lower c.name, lower q.name, fileOf q.attrs, q.children.filterMap readParam⟩ ::
      ((qs2.map fun q => ⟨lower c.name, lower q.name, fileOf q.attrs, q.children.filterMap readParam⟩) ++
        cs2.flatMap (solverEntries lower)) := by
    unfold parseDb
    rw [if_pos hroot, hc, List.flatMap_append, List.flatMap_cons, hse, hq]
    simp
  rw [hsplit]
  apply find_last
  · simp [hname, hpref]
  · intro x hx
    simp only [List.mem_append] at hx
    simp only [decide_eq_false_iff_not]
    rcases hx with hx | hx
    · obtain ⟨q', hq', e⟩ := List.mem_map.1 hx
      rintro ⟨_, h2⟩
      rw [← e] at h2
      exact hq2 q' hq' h2
    · obtain ⟨c', hc', hx'⟩ := List.mem_flatMap.1 hx
      exact elsewhere_entries (hc2 c' hc') x hx'

theorem stored_snoc (lower : String → String) (root : Tree) : ∀ (hist : List Start) (es : List Entry),
    stored lower es (hist ++ [.initialize_ (some root)]) = stored lower es hist ++ parseDb lower root := by
  intro hist
  induction hist with
  | nil => intro es; rfl
  | cons s r ih =>
    intro es
    cases s with
    | initialize_ db => cases db <;> exact ih _
    | finalize_ => exact ih _

/-! ### C130 -/

/-- C130.  A solver made after reading a database has for a parameter the value given in the last element of this prefix in this
solver, when that element names no file and the parameter has just the attribute `value`; whatever was called before. -/
theorem C130_listed_partial (lower : String → String) (files : String → Option (List (String × String))) (hist : List Start)
    (root c q x : Tree) (name pref p v : String) {cs1 cs2 qs1 qs2 xs ys : List Tree}
    (hroot : root.name = "SolverParameters") (hc : root.children = cs1 ++ c :: cs2)
    (hq : c.children = qs1 ++ q :: qs2) (hname : lower c.name = lower name) (hpref : lower q.name = lower pref)
    (hq2 : ∀ q' ∈ qs2, lower q'.name ≠ lower pref) (hc2 : ∀ c' ∈ cs2, Elsewhere lower name pref c')
    (hfile : ∀ a ∈ q.attrs, a.1 ≠ "File" ∧ a.1 ≠ "file" ∧ a.1 ≠ "FILE")
    (hx : q.children = xs ++ x :: ys) (hp : p ∈ known) (hxn : x.name = p)
    (hxv : x.attrs = [("value", v)] ∨ x.attrs = [("Value", v)]) (hys : ∀ y ∈ ys, y.name ≠ p) :
    construct lower files (stored lower [] (hist ++ [.initialize_ (some root)])) name pref p = some v := by
  rw [stored_snoc]
  unfold construct
  simp only [find_entry lower (stored lower [] hist) root c q name pref hroot hc hq hname hpref hq2 hc2]
  unfold setup
  rw [if_neg (by
    simp only [ne_eq, not_not]
    apply fileOf_none
    intro a ha
    simp [isFile, hfile a ha])]
  have hr : readParam x = some (p, v) := by
    unfold readParam
    rcases hxv with e | e <;> simp [e, hxn]
  rw [hx, List.filterMap_append, List.filterMap_cons, hr]
  apply fold_last p v hp
  intro z hz
  obtain ⟨y, hy, e⟩ := List.mem_filterMap.1 hz
  have : z.1 = y.name := by
    unfold readParam at e
    split at e
    · split at e
      · rw [← Option.some.inj e]
      · exact absurd e (by simp)
    · exact absurd e (by simp)
  rw [this]
  exact hys y hy

/-- C130, parameter files: when the element names a file, the value is that of the last line of the file about this parameter, and
nothing listed in the element counts. -/
theorem C130_file (lower : String → String) (files : String → Option (List (String × String))) (hist : List Start)
    (root c q : Tree) (name pref p v n f : String) {cs1 cs2 qs1 qs2 : List Tree} {at1 at2 l1 l2 : List (String × String)}
    (hroot : root.name = "SolverParameters") (hc : root.children = cs1 ++ c :: cs2)
    (hq : c.children = qs1 ++ q :: qs2) (hname : lower c.name = lower name) (hpref : lower q.name = lower pref)
    (hq2 : ∀ q' ∈ qs2, lower q'.name ≠ lower pref) (hc2 : ∀ c' ∈ cs2, Elsewhere lower name pref c')
    (hat : q.attrs = at1 ++ (n, f) :: at2) (hn : n = "File" ∨ n = "file" ∨ n = "FILE")
    (hat2 : ∀ a ∈ at2, a.1 ≠ "File" ∧ a.1 ≠ "file" ∧ a.1 ≠ "FILE") (hf : f ≠ "")
    (hl : files f = some (l1 ++ (p, v) :: l2)) (hl2 : ∀ y ∈ l2, y.1 ≠ p) (hp : p ∈ known) :
    construct lower files (stored lower [] (hist ++ [.initialize_ (some root)])) name pref p = some v := by
  rw [stored_snoc]
  unfold construct
  simp only [find_entry lower (stored lower [] hist) root c q name pref hroot hc hq hname hpref hq2 hc2]
  unfold setup
  simp only [hat, fileOf_last at1 n f at2 (by simp [isFile, hn]) (fun a ha => by simp [isFile, hat2 a ha])]
  rw [if_pos hf, hl]
  exact fold_last p v hp l1 l2 _ hl2

/-- C130: a solver that no database mentions has all parameters at their defaults. -/
theorem C130_default (lower : String → String) (files : String → Option (List (String × String))) (hist : List Start)
    (name pref : String) (h : ∀ t, Start.initialize_ (some t) ∈ hist → ∀ c ∈ t.children, Elsewhere lower name pref c)
    (p : String) : construct lower files (stored lower [] hist) name pref p = none := by
  have key : ∀ (hist : List Start) (es : List Entry),
      (∀ t, Start.initialize_ (some t) ∈ hist → ∀ c ∈ t.children, Elsewhere lower name pref c) →
      (∀ e ∈ es, ¬ (e.solver = lower name ∧ e.pref = lower pref)) →
      ∀ e ∈ stored lower es hist, ¬ (e.solver = lower name ∧ e.pref = lower pref) := by
    intro hist
    induction hist with
    | nil => intro es _ h2; exact h2
    | cons s r ih =>
      intro es h1 h2
      cases s with
      | initialize_ db =>
        cases db with
        | none => exact ih es (fun t ht => h1 t (by simp [ht])) h2
        | some t =>
          refine ih _ (fun t ht => h1 t (by simp [ht])) ?_
          intro e he
          rcases List.mem_append.1 he with he | he
          · exact h2 e he
          · unfold parseDb at he
            split at he
            · obtain ⟨c, hc, hc'⟩ := List.mem_flatMap.1 he
              exact elsewhere_entries (h1 t (by simp) c hc) e hc'
            · exact absurd he (by simp)
      | finalize_ => exact ih [] (fun t ht => h1 t (by simp [ht])) (by simp)
  have hno := key hist [] h (by simp)
  unfold construct
  have : ((stored lower [] hist).reverse.find? fun e => e.solver = lower name ∧ e.pref = lower pref) = none := by
    rw [List.find?_eq_none]
    intro e he
    simpa using hno e (List.mem_reverse.1 he)
  simp only [this]
  rfl

/-- C130: `Finalize` forgets all databases. -/
theorem C130_finalize (lower : String → String) (before after : List Start) :
    stored lower [] (before ++ .finalize_ :: after) = stored lower [] after := by
  have : ∀ (l : List Start) (es : List Entry), stored lower es (l ++ .finalize_ :: after) = stored lower [] after := by
    intro l
    induction l with
    | nil => intro es; rfl
    | cons s r ih =>
      intro es
      cases s with
      | initialize_ db => cases db <;> exact ih _
      | finalize_ => exact ih _
  exact this before []

/-- C130 fails for parameters with a second attribute: the value is silently not used. -/
theorem C130_attribute_fails : ¬ ∀ (lower : String → String) (files : String → Option (List (String × String)))
    (root c q x : Tree) (name pref p v : String), root.name = "SolverParameters" → root.children = [c] →
    c.children = [q] → lower c.name = lower name → lower q.name = lower pref → q.attrs = [] → q.children = [x] →
    p ∈ known → x.name = p → ("value", v) ∈ x.attrs → construct lower files (parseDb lower root) name pref p = some v := by
  intro h
  have := h id (fun _ => none)
    (.node "SolverParameters" [] [.node "inner_ilu2" [] [.node "test" []
      [.node "drop_tolerance" [("value", "0.1"), ("comment", "coarse")] []]]])
    (.node "inner_ilu2" [] [.node "test" [] [.node "drop_tolerance" [("value", "0.1"), ("comment", "coarse")] []]])
    (.node "test" [] [.node "drop_tolerance" [("value", "0.1"), ("comment", "coarse")] []])
    (.node "drop_tolerance" [("value", "0.1"), ("comment", "coarse")] [])
    "inner_ilu2" "test" "drop_tolerance" "0.1" rfl rfl rfl rfl rfl rfl rfl (by decide) rfl (by decide)
  exact absurd this (by decide)

/-- C130: `GetParameter` returns what `SetParameter` set, for the four parameters of all inner solvers, and does not depend on
other parameters. -/
theorem C130_get_partial (σ : Settings) (p : String)
    (hp : p ∈ ["maximum_iterations", "absolute_tolerance", "relative_tolerance", "divergence_tolerance"]) :
    (∀ v, getParam (setParam σ (p, v)) p = some (some v)) ∧
      ∀ n v, n ≠ p → getParam (setParam σ (n, v)) p = getParam σ p := by
  have hk : p ∈ known := by
    simp only [List.mem_cons, List.not_mem_nil, or_false] at hp
    simp only [known, List.mem_cons, List.not_mem_nil, or_false]
    rcases hp with h | h | h | h <;> simp [h]
  have hg : ∀ σ, getParam σ p = some (σ p) := by
    intro σ
    simp only [List.mem_cons, List.not_mem_nil, or_false] at hp
    unfold getParam
    rcases hp with h | h | h | h <;> simp [h]
  constructor
  · intro v
    rw [hg, setParam]
    simp [hk]
  · intro n v hn
    rw [hg, hg]
    unfold setParam
    by_cases h : n ∈ known
    · rw [if_pos h]; simp only [Function.update_of_ne (Ne.symm hn)]
    · rw [if_neg h]

/-- C130 fails for the other parameters: `GetParameter` returns an empty text for a parameter that was set. -/
theorem C130_get_fails : ¬ ∀ (σ : Settings) (p v : String), p ∈ known → getParam (setParam σ (p, v)) p = some (some v) := by
  intro h
  exact absurd (h (fun _ => none) "drop_tolerance" "0.1" (by decide)) (by decide)

/-- A database with two solvers and two prefixes. -/
def demoDb : Tree :=
  .node "SolverParameters" [] [
    .node "INNER_ILU2" [] [
      .node "coarse" [] [.node "drop_tolerance" [("value", "0.1")] [], .node "drop_tolerance" [("Value", "0.2")] [],
        .node "fill_level" [("value", "4"), ("note", "no")] []],
      .node "fine" [("File", "fine.txt")] [.node "drop_tolerance" [("value", "0.3")] []]],
    .node "PETSc" [("file", "petsc.txt")] []]

/-- A function like `string_to_lower` on the names used here. -/
def demoLower (s : String) : String := if s = "INNER_ILU2" then "inner_ilu2" else if s = "PETSc" then "petsc" else s

example : construct demoLower (fun _ => none) (parseDb demoLower demoDb) "inner_ilu2" "coarse" "drop_tolerance" = some "0.2" := by
  decide

example : construct demoLower (fun _ => none) (parseDb demoLower demoDb) "inner_ilu2" "coarse" "fill_level" = none := by decide

example : construct demoLower (fun f => if f = "fine.txt" then some [("drop_tolerance", "0.5")] else none)
    (parseDb demoLower demoDb) "inner_ilu2" "fine" "drop_tolerance" = some "0.5" := by decide

example : (stored demoLower [] [.initialize_ (some demoDb), .finalize_, .initialize_ (some demoDb)]).length = 3 := by decide

/-- The hypotheses of `C130_listed_partial` can be met. -/
example : construct demoLower (fun _ => none) (stored demoLower [] [.initialize_ (some demoDb), .initialize_ (some demoDb)])
    "inner_ilu2" "coarse" "drop_tolerance" = some "0.2" :=
  C130_listed_partial demoLower (fun _ => none) [.initialize_ (some demoDb)] demoDb
    (.node "INNER_ILU2" [] [
      .node "coarse" [] [.node "drop_tolerance" [("value", "0.1")] [], .node "drop_tolerance" [("Value", "0.2")] [],
        .node "fill_level" [("value", "4"), ("note", "no")] []],
      .node "fine" [("File", "fine.txt")] [.node "drop_tolerance" [("value", "0.3")] []]])
    (.node "coarse" [] [.node "drop_tolerance" [("value", "0.1")] [], .node "drop_tolerance" [("Value", "0.2")] [],
        .node "fill_level" [("value", "4"), ("note", "no")] []])
    (.node "drop_tolerance" [("Value", "0.2")] []) "inner_ilu2" "coarse" "drop_tolerance" "0.2"
    (cs1 := []) (cs2 := [.node "PETSc" [("file", "petsc.txt")] []]) (qs1 := [])
    (qs2 := [.node "fine" [("File", "fine.txt")] [.node "drop_tolerance" [("value", "0.3")] []]])
    (xs := [.node "drop_tolerance" [("value", "0.1")] []]) (ys := [.node "fill_level" [("value", "4"), ("note", "no")] []])
    rfl rfl rfl (by decide) (by decide) (by simp [Tree.name, demoLower])
    (by
      intro c' hc' h
      simp only [List.mem_singleton] at hc'
      rw [hc'] at h
      exact absurd h (by decide))
    (by intro a ha; simp [Tree.attrs] at ha) rfl (by decide) rfl (Or.inr rfl)
    (by intro y hy; simp only [List.mem_singleton] at hy; rw [hy]; decide)

end Verif.SolverFront
