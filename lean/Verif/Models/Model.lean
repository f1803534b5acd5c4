/-
Model of the class `Model` (`Source/Autodiff/model.cpp`, `Source/Headers/inmost_model.h`).

Simplifications.  Objects of the user are known by their address, a number; what their functions
do is a parameter.  `std::map` with names for keys is a list of pairs with one pair per key;
the map of coupling terms has its keys (addresses of submodels, `none` for `NULL`) in the order of
the list.  Six vectors of pairs of name and object are one function of the kind of object; the
functions of the class are the same text for each kind, and where they are not, the definition
says so.  `asserts` tells whether the program is compiled with asserts.  Timers and printing are
left out, also `ReportErrors` and the commented functions of adaptation (lines 618-720).
-/

namespace Verif.Models

/-- The vectors of objects with names (inmost_model.h, lines 169-176). -/
inductive Kind where
  | mesh | entry | submodel | scalar | matrix | operator
  deriving DecidableEq, Repr

/-- The members of the class (inmost_model.h, lines 169-179). -/
structure Reg where
  list : Kind → List (String × Nat)
  coupling : List (Option Nat × List (String × Nat))
  activeEntries : List (String × Bool)
  activeSub : List (String × Bool)
  initialized : Bool

/-- Constructor (inmost_model.h, line 181). -/
def init : Reg := ⟨fun _ => [], [], [], [], false⟩

/-- The loop of `GetMesh`, `GetEntry`, `GetSubModel`, `GetScalarFunction`, `GetMatrixFunction`,
`GetOperator` (model.cpp, lines 80-87, 107-114, 134-141, 208-215, 237-244, 268-275; the same with
`const` after each); also of lines 176-180. -/
def find {α : Type} : List (String × α) → String → Option α
  | [], _ => none
  | e :: l, name => if e.1 = name then some e.2 else find l name

/-- `GetMesh`, `GetEntry`, … (lines as above). -/
def get (s : Reg) (k : Kind) (name : String) : Option Nat := find (s.list k) name

/-- `GetMeshesNames`, `GetEntriesNames`, `GetSubModelsNames`, `GetScalarFunctionNames`,
`GetMatrixFunctionNames`, `GetOperatorsNames` (model.cpp, lines 98-105, 125-132, 163-170, 228-235,
257-264, 286-293); the loop for scalar functions goes over the matrix functions (line 231). -/
def names (s : Reg) (k : Kind) : List String :=
  (s.list (if k = .scalar then .matrix else k)).map (·.1)

/-- One vector replaced. -/
def setList (s : Reg) (k : Kind) (l : List (String × Nat)) : Reg :=
  { s with list := fun j => if j = k then l else s.list j }

/-- The two asserts of all functions that add (model.cpp, e.g. lines 9-10). -/
def allowed (asserts : Bool) (s : Reg) (k : Kind) (name : String) : Bool :=
  !asserts || (!s.initialized && (get s k name).isNone)

/-- `AddEntry`, `AddMesh`, `AddSubModel`, `AddScalarFunction`, `AddMatrixFunction`, `AddOperator`
(model.cpp, lines 7-12, 35-47, 59-78); `none` is a failed assert. -/
def add (asserts : Bool) (s : Reg) (k : Kind) (name : String) (p : Nat) : Option Reg :=
  if allowed asserts s k name then some (setList s k (s.list k ++ [(name, p)])) else none

/-- `AddFirstEntry` (model.cpp, lines 14-19). -/
def addFirst (asserts : Bool) (s : Reg) (name : String) (p : Nat) : Option Reg :=
  if allowed asserts s .entry name then some (setList s .entry ((name, p) :: s.list .entry)) else none

/-- Search and `insert` of `AddAfterEntry` (model.cpp, lines 25-32). -/
def insertAfter (x : String × Nat) (after : String) : List (String × Nat) → List (String × Nat)
  | [] => [x]
  | e :: l => if e.1 = after then e :: x :: l else e :: insertAfter x after l

/-- `AddAfterEntry` (model.cpp, lines 21-33). -/
def addAfter (asserts : Bool) (s : Reg) (name : String) (p : Nat) (after : String) : Option Reg :=
  if allowed asserts s .entry name
  then some (setList s .entry (insertAfter (name, p) after (s.list .entry))) else none

/-- `CouplingTerms.find` (model.cpp, line 175). -/
def findTerms : List (Option Nat × List (String × Nat)) → Option Nat → Option (List (String × Nat))
  | [], _ => none
  | e :: l, key => if e.1 = key then some e.2 else findTerms l key

/-- `CouplingTerms[subm].push_back` (model.cpp, line 56).  A new key goes to the end; the
order of addresses is not modelled. -/
def pushTerm (x : String × Nat) (key : Option Nat) :
    List (Option Nat × List (String × Nat)) → List (Option Nat × List (String × Nat))
  | [] => [(key, [x])]
  | e :: l => if e.1 = key then (e.1, e.2 ++ [x]) :: l else e :: pushTerm x key l

/-- `GetCouplingTerm` (model.cpp, lines 172-192).  The result of `find` is used without a look at
`end()`: that is the outer `none`, the inner one is `NULL`. -/
def getCoupling (s : Reg) (sub name : String) : Option (Option Nat) :=
  match findTerms s.coupling (get s .submodel sub) with
  | none => none
  | some l => some (find l name)

/-- `AddCouplingTerm` (model.cpp, lines 49-57). -/
def addCoupling (asserts : Bool) (s : Reg) (sub name : String) (p : Nat) : Option Reg :=
  let t := { s with coupling := pushTerm (name, p) (get s .submodel sub) s.coupling }
  if asserts then
    if s.initialized then none
    else match getCoupling s sub name with
      | some none => some t
      | _ => none
  else some t

/-- `map[name] = b`. -/
def setFlag (name : String) (b : Bool) : List (String × Bool) → List (String × Bool)
  | [] => [(name, b)]
  | e :: l => if e.1 = name then (name, b) :: l else e :: setFlag name b l

/-- `ActivateSubModel`, `DeactivateSubModel` (inmost_model.h, lines 187-188). -/
def setSub (s : Reg) (name : String) (b : Bool) : Reg :=
  { s with activeSub := setFlag name b s.activeSub }

/-- `ActivateEntry`, `DeactivateEntry` (inmost_model.h, lines 190-191). -/
def setEntry (s : Reg) (name : String) (b : Bool) : Reg :=
  { s with activeEntries := setFlag name b s.activeEntries }

/-- The test of the loops over submodels (model.cpp, lines 379-384, 415-420, 497-502). -/
def isActive (s : Reg) (name : String) : Bool :=
  if s.activeSub.isEmpty then true
  else match find s.activeSub name with
    | some false => false
    | _ => true

/-- Calls that change the tables. -/
inductive Op where
  | add (k : Kind) (name : String) (p : Nat)
  | addFirst (name : String) (p : Nat)
  | addAfter (name : String) (p : Nat) (after : String)
  | addCoupling (sub name : String) (p : Nat)
  | setSub (name : String) (b : Bool)
  | setEntry (name : String) (b : Bool)

/-- One call. -/
def step (asserts : Bool) (s : Reg) : Op → Option Reg
  | .add k name p => add asserts s k name p
  | .addFirst name p => addFirst asserts s name p
  | .addAfter name p after => addAfter asserts s name p after
  | .addCoupling sub name p => addCoupling asserts s sub name p
  | .setSub name b => some (setSub s name b)
  | .setEntry name b => some (setEntry s name b)

/-- A history of calls. -/
def run (asserts : Bool) : List Op → Reg → Option Reg
  | [], s => some s
  | o :: l, s => match step asserts s o with
    | none => none
    | some t => run asserts l t

/-! ### Calls of the functions of the objects -/

/-- An object whose functions are called. -/
inductive Comp where
  | submodel (p : Nat)
  | operator (p : Nat)
  | entry (p : Nat)
  | term (p : Nat)
  | scalar (p : Nat)
  | matrix (p : Nat)
  deriving DecidableEq, Repr

/-- A loop `success &= it->second->Function(…)` (model.cpp, e.g. lines 430-432); `W` is all that
the functions may change. -/
def loop {W : Type} (f : Comp → W → W × Bool) : List Comp → W × Bool → W × Bool
  | [], x => x
  | c :: l, x => loop f l ((f c x.1).1, x.2 && (f c x.1).2)

/-- Objects of the loop over submodels. -/
def subs (s : Reg) : List Comp := (s.list .submodel).map fun e => .submodel e.2

/-- Objects of the loop over submodels that skips (model.cpp, lines 376-391). -/
def activeSubs (s : Reg) : List Comp :=
  ((s.list .submodel).filter fun e => isActive s e.1).map fun e => .submodel e.2

/-- Objects of the double loop over coupling terms (model.cpp, e.g. lines 392-402). -/
def terms (s : Reg) : List Comp := s.coupling.flatMap fun e => e.2.map fun x => .term x.2

/-- Objects of the loop over scalar functions. -/
def scalars (s : Reg) : List Comp := (s.list .scalar).map fun e => .scalar e.2

/-- Objects of the loop over matrix functions. -/
def matrices (s : Reg) : List Comp := (s.list .matrix).map fun e => .matrix e.2

/-- Objects of the loop over operators. -/
def operators (s : Reg) : List Comp := (s.list .operator).map fun e => .operator e.2

/-- `FillResidual` (model.cpp, lines 370-407); `clear` is `R.Clear()`. -/
def fillResidual {W : Type} (clear : W → W) (f : Comp → W → W × Bool) (s : Reg) (w : W) : W × Bool :=
  loop f (terms s) (loop f (activeSubs s) (clear w, true))

/-- `UpdateSolution` (model.cpp, lines 409-424). -/
def updateSolution {W : Type} (f : Comp → W → W × Bool) (s : Reg) (w : W) : W × Bool :=
  loop f (activeSubs s) (w, true)

/-- `UpdateTimeStep`, `SetTimeStep`, `RestoreTimeStep` (model.cpp, lines 426-489). -/
def timeStep {W : Type} (f : Comp → W → W × Bool) (s : Reg) (w : W) : W × Bool :=
  loop f (matrices s) (loop f (scalars s) (loop f (terms s) (loop f (subs s) (w, true))))

/-- `PrepareIterations` (model.cpp, lines 342-368). -/
def prepareIterations {W : Type} (f : Comp → W → W × Bool) (s : Reg) (w : W) : W × Bool :=
  loop f (matrices s) (loop f (scalars s) (loop f (terms s) (loop f (operators s)
    (loop f (subs s) (w, true)))))

/-- `std::min` (the first one if they are equal). -/
def smaller {R : Type} (lt : R → R → Bool) (a b : R) : R := if lt b a then b else a

/-- A loop `alpha = std::min(alpha,…)` (model.cpp, e.g. line 503). -/
def minLoop {R : Type} (lt : R → R → Bool) (f : Comp → R) : List Comp → R → R
  | [], a => a
  | c :: l, a => minLoop lt f l (smaller lt a (f c))

/-- `UpdateMultiplier` before the reduction (model.cpp, lines 491-517). -/
def updateMultiplier {R : Type} (lt : R → R → Bool) (one : R) (f : Comp → R) (s : Reg) : R :=
  minLoop lt f (matrices s) (minLoop lt f (scalars s) (minLoop lt f (terms s)
    (minLoop lt f (activeSubs s) one)))

/-- `AdjustTimeStep` before the reduction (model.cpp, lines 525-543). -/
def adjustTimeStep {R : Type} (lt : R → R → Bool) (f : R → Comp → R) (s : Reg) (dt : R) : R :=
  minLoop lt (f dt) (matrices s) (minLoop lt (f dt) (scalars s) (minLoop lt (f dt) (terms s)
    (minLoop lt (f dt) (subs s) dt)))

/-- `MPI_Allreduce` with `MPI_MIN` (model.cpp, lines 518-521, 544-547): what every process gets from the
values of the first process and of the others. -/
def allMin {R : Type} (lt : R → R → Bool) (x : R) : List R → R
  | [] => x
  | y :: l => allMin lt (smaller lt x y) l

/-! ### Initialization -/

/-- A loop of `Initialize` over one vector.  The object may call the functions that add: `cb`
gives its calls and its result.  If the vector of the loop itself gets longer, the iterator may be
invalid: outcome `none`.  The log has the objects in the order of their calls. -/
def initLoop (asserts : Bool) (cb : Comp → List Op × Bool) (mine : Reg → List Comp) :
    List Comp → Reg × List Comp × Bool → Option (Reg × List Comp × Bool)
  | [], x => some x
  | c :: l, x => match run asserts (cb c).1 x.1 with
    | none => none
    | some t => if mine t = mine x.1 then initLoop asserts cb mine l (t, x.2.1 ++ [c], x.2.2 && (cb c).2)
      else none

/-- Registration of the entries (model.cpp, lines 317-322). -/
def registerEntries (x : Reg × List Comp × Bool) : Reg × List Comp × Bool :=
  (x.1, x.2.1 ++ (x.1.list .entry).map (fun e => .entry e.2), x.2.2)

/-- The first two stages and the registration of entries (model.cpp, lines 307-322). -/
def initFirst (asserts : Bool) (cb : Comp → List Op × Bool) (s : Reg) : Option (Reg × List Comp × Bool) :=
  match initLoop asserts cb subs (subs s) (s, [], true) with
  | none => none
  | some x => match initLoop asserts cb operators (operators x.1) x with
    | none => none
    | some y => some (registerEntries y)

/-- The other stages (model.cpp, lines 323-337). -/
def initRest (asserts : Bool) (cb : Comp → List Op × Bool) (y : Reg × List Comp × Bool) :
    Option (Reg × List Comp × Bool) :=
  match initLoop asserts cb terms (terms y.1) y with
  | none => none
  | some z => match initLoop asserts cb scalars (scalars z.1) z with
    | none => none
    | some u => initLoop asserts cb matrices (matrices u.1) u

/-- `Initialize` (model.cpp, lines 305-340). -/
def initModel (asserts : Bool) (cb : Comp → List Op × Bool) (s : Reg) : Option (Reg × List Comp × Bool) :=
  match initFirst asserts cb s with
  | none => none
  | some y => match initRest asserts cb y with
    | none => none
    | some v => some ({ v.1 with initialized := v.2.2 }, v.2.1, v.2.2)

end Verif.Models
