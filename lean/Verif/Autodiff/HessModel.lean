import Verif.Autodiff.Model
import Verif.Sparse.RowModel
import Mathlib.Data.Prod.Lex

/-!
# Model of second derivatives

Models `GetHessian` of the expression classes of `/repo/Source/Headers/inmost_expression.h`, the class
`hessian_multivar_expression` (L387-608) and its reference (L900-1120), and `MergeJacobianHessian`,
`/repo/Source/Solver/sparse.cpp` L407-580.
-/

namespace Verif.Autodiff

open Verif.Sparse

/-- `HessianRow::index` with its lexicographic order, inmost_sparse.h L329-335. -/
abbrev HIdx := Nat ×ₗ Nat

/-- `HessianRow`. -/
abbrev HRow := RowI HIdx ℝ

/-- `HessianRow::make_index`, inmost_sparse.h L336-342. -/
def mkIdx (a b : Nat) : HIdx := toLex (if a > b then b else a, if a < b then b else a)

/-- The candidate made of one entry of `JL` and one of `JR`, sparse.cpp L427-430. -/
noncomputable def product (a : ℝ) (k l : Nat × ℝ) : HIdx × ℝ :=
  (mkIdx k.1 l.1, (if k.1 = l.1 then 0.5 else 1) * a * k.2 * l.2)

/-- The candidates 2 of the four-way merge in the order of the cursors `k1, l1` (sparse.cpp L418-419, L427-428,
L461-476; three-way: candidates 1): for each entry of `JR` the entries of `JL` from the first one that is not below it; `kk1`
only moves forward.  Cursors are represented by the remaining lists. -/
noncomputable def stream1 (a : ℝ) (JL : Row ℝ) : Row ℝ → HRow
  | [] => []
  | l :: JR =>
    let JL' := JL.dropWhile fun k => decide (k.1 < l.1)
    JL'.map (fun k => product a k l) ++ stream1 a JL' JR

/-- The candidates 3 of the four-way merge in the order of the cursors `k2, l2` (sparse.cpp L420-421, L429-430,
L477-492): for each entry of `JL` the entries of `JR` from the first one that is not below it. -/
noncomputable def stream2 (a : ℝ) : Row ℝ → Row ℝ → HRow
  | [], _ => []
  | k :: JL, JR =>
    let JR' := JR.dropWhile fun l => decide (k.1 > l.1)
    JR'.map (fun l => product a k l) ++ stream2 a JL JR'

/-- "pick smallest", sparse.cpp L433-439: the smallest head of the streams, the first one of equal heads; the stub
entry (an index greater than all others) stands for an exhausted stream. -/
noncomputable def best : List HRow → Option ((HIdx × ℝ) × List HRow)
  | [] => none
  | s :: ss =>
    match s, best ss with
    | [], none => none
    | [], some (f, ss') => some (f, [] :: ss')
    | e :: s', none => some (e, s' :: ss)
    | e :: s', some (f, ss') => if f.1 < e.1 then some (f, (e :: s') :: ss') else some (e, s' :: ss)

/-- The number of remaining candidates. -/
def total (ss : List HRow) : Nat := (ss.map List.length).sum

/-- The merge loop, sparse.cpp L431-494, with the output reversed; the fuel is the number of candidates. -/
noncomputable def kmerge : Nat → HRow → List HRow → HRow
  | 0, out, _ => out
  | n + 1, out, ss =>
    match best ss with
    | none => out
    | some (e, ss') => kmerge n (emit out e.1 e.2) ss'

/-- `MergeJacobianHessian(a, JL, JR, b, HL, c, HR, output)`, sparse.cpp L407-496, and the overload with one Hessian
(L498-580): `Hs` are the Hessian rows with their multipliers.  `none`: a failed assertion, in particular
`JR.GetIndex(0)` for an empty `JR` when `JL` is not empty (L418) and `JL.GetIndex(0)` for an empty `JL` when `JR` is not
empty (L420). -/
noncomputable def mergeJH (a : ℝ) (JL JR : Row ℝ) (Hs : List (ℝ × HRow)) : Option HRow :=
  if isSorted JL && isSorted JR && Hs.all (fun h => isSorted h.2) then
    if JL.isEmpty = JR.isEmpty then
      let ss := Hs.map (fun h => h.2.map fun e => (e.1, h.1 * e.2)) ++ [stream1 a JL JR, stream2 a JL JR]
      some (kmerge (total ss) [] ss).reverse
    else none
  else none

/-- The data of `hessian_multivar_expression`, L387-391. -/
structure HVar where
  value : ℝ
  entries : Row ℝ
  hess : HRow

/-- The first-order part of a variable. -/
def HVar.toMVar (h : HVar) : MVar := ⟨h.value, h.entries⟩

/-- Variables with second derivatives. -/
abbrev HStore := Nat → HVar

/-- Values and first derivatives of all variables. -/
def HStore.low (s : HStore) : Store := fun k => (s k).toMVar

/-- `if( !J.isSorted() ) std::sort(J.Begin(),J.End())`, L178 and L446.  Simplification: entries with the same column
keep their order (`std::sort` orders them by value). -/
def sortRow (r : Row ℝ) : Row ℝ := if isSorted r then r else r.mergeSort fun a b => decide (a.1 ≤ b.1)

/-- Scaling of all values of a row. -/
noncomputable def scale {ι : Type} (r : RowI ι ℝ) (c : ℝ) : RowI ι ℝ := r.map fun e => (e.1, e.2 * c)

/-- `GetHessian(multJ, J, multH, H)` called with empty `J` and `H` (all callers do so): the results `(J, H)`.  `none`: an
exception (`NotImplemented`) or a failed assertion.  `s` is the state at the construction of the expression, `s1` the
state at the call. -/
noncomputable def hessian (s s1 : HStore) : ℝ → ℝ → Expr → Option (Row ℝ × HRow)
  /- L81 -/
  | _, _, .const _ => some ([], [])
  /- L105 -/
  | mJ, _, .var _ i =>
    match i with
    | some i => some ([(i, mJ)], [])
    | none => some ([], [])
  /- L443-450; for a `variable` without second derivatives (L175-182) `hess` is empty -/
  | mJ, mH, .mvar k => some (scale (sortRow (s1 k).entries) mJ, scale (s1 k).hess mH)
  /- L1171-1174 -/
  | mJ, mH, .constMul e c => hessian s s1 (mJ * c) (mH * c) e
  /- L1198-1201 -/
  | mJ, mH, .variation e c => hessian s s1 (mJ * c) (mH * c) e
  /- L1227-1230 -/
  | mJ, mH, .constDiv e c => hessian s s1 (mJ * (1 / c)) (mH * (1 / c)) e
  /- L1254-1257 -/
  | mJ, mH, .constAdd e _ => hessian s s1 mJ mH e
  /- L1281-1284 -/
  | mJ, mH, .constSub e _ => hessian s s1 (-mJ) (-mH) e
  /- L1313-1321 -/
  | mJ, mH, .recip e c =>
    let rv := 1 / value s.low e
    let v := c * rv
    let coefJ := -mJ * v * rv
    let sign := if coefJ < 0 then -1 else 1
    match hessian s s1 sign (-2 * mH * v * rv) e with
    | none => none
    | some (J, A) =>
      match mergeJH (2 * v * rv * rv * sign) J J [(1, A)] with
      | none => none
      | some H => some (scale J (coefJ * sign), H)
  /- L1342-1345 -/
  | mJ, mH, .neg e => hessian s s1 (-mJ) (-mH) e
  /- L1366-1369 -/
  | mJ, mH, .pos e => hessian s s1 mJ mH e
  /- L1395-1400 -/
  | mJ, mH, .abs e =>
    let v := |value s.low e|
    let dmult := if value s.low e < 0 then -1 else 1
    let a := if v = 0 then (if mJ < 0 then -1 else 1) else 1
    let b := if v = 0 then (if mH < 0 then -1 else 1) else 1
    hessian s s1 (a * mJ * dmult) (b * mH * dmult) e
  /- L1426-1434 -/
  | mJ, mH, .exp e =>
    let v := Real.exp (value s.low e)
    let coefJ := mJ * v
    let sign := if coefJ < 0 then -1 else 1
    match hessian s s1 sign (mH * v) e with
    | none => none
    | some (J, A) =>
      match mergeJH (coefJ * sign) J J [(1, A)] with
      | none => none
      | some H => some (scale J (coefJ * sign), H)
  /- L1460-1468 -/
  | mJ, mH, .log e =>
    let d := 1 / value s.low e
    let coefJ := mJ * d
    let sign := if coefJ < 0 then -1 else 1
    match hessian s s1 sign (2 * mH * d) e with
    | none => none
    | some (J, A) =>
      match mergeJH (-coefJ * sign * d) J J [(1, A)] with
      | none => none
      | some H => some (scale J (coefJ * sign), H)
  /- L1495-1504 -/
  | mJ, mH, .sin e =>
    let v := Real.sin (value s.low e)
    let d := Real.cos (value s.low e)
    match hessian s s1 1 1 e with
    | none => none
    | some (J, A) =>
      match mergeJH (-v * mH) J J [(d * mH, A)] with
      | none => none
      | some H => some (scale J (d * mJ), H)
  /- L1530-1537 -/
  | mJ, mH, .cos e =>
    let v := Real.cos (value s.low e)
    let d := -Real.sin (value s.low e)
    match hessian s s1 1 1 e with
    | none => none
    | some (J, A) =>
      match mergeJH (-v * mH) J J [(d * mH, A)] with
      | none => none
      | some H => some (scale J (d * mJ), H)
  /- L1561-1573 -/
  | mJ, mH, .sqrt e =>
    let v := Real.sqrt (value s.low e)
    if v ≠ 0 then
      match hessian s s1 1 1 e with
      | none => none
      | some (J, A) =>
        match mergeJH (-0.25 / v ^ 3 * mH) J J [(0.5 / v * mH, A)] with
        | none => none
        | some H => some (scale J (0.5 / v * mJ), H)
    else some ([], [])
  /- L1600-1604, L1632-1636, L1670-1674, L1707-1711: `throw NotImplemented` -/
  | _, _, .softAbs _ _ => none
  | _, _, .softSign _ _ => none
  | _, _, .softMax _ _ _ => none
  | _, _, .softMin _ _ _ => none
  /- L1741-1762 -/
  | mJ, mH, .mul l r =>
    match hessian s s1 1 1 l, hessian s s1 1 1 r with
    | some (JL, HL), some (JR, HR) =>
      let lv := liveValue s.low s1.low l
      let rv := liveValue s.low s1.low r
      match mergeSortedRows (rv * mJ) JL (lv * mJ) JR, mergeJH (2 * mH) JL JR [(rv * mH, HL), (lv * mH, HR)] with
      | some J, some H => some (J, H)
      | _, _ => none
    | _, _ => none
  /- L1802-1817: `throw NotImplemented` -/
  | _, _, .div _ _ => none
  /- L1846-1860 -/
  | mJ, mH, .add l r =>
    match hessian s s1 1 1 l, hessian s s1 1 1 r with
    | some (JL, HL), some (JR, HR) =>
      match mergeSortedRows mJ JL mJ JR, mergeSortedRows mH HL mH HR with
      | some J, some H => some (J, H)
      | _, _ => none
    | _, _ => none
  /- L1889-1898 -/
  | mJ, mH, .sub l r =>
    match hessian s s1 1 1 l, hessian s s1 1 1 r with
    | some (JL, HL), some (JR, HR) =>
      match mergeSortedRows mJ JL (-mJ) JR, mergeSortedRows mH HL (-mH) HR with
      | some J, some H => some (J, H)
      | _, _ => none
    | _, _ => none
  /- L1941, L1980: `throw NotImplemented` -/
  | _, _, .pow _ _ => none
  | _, _, .atan2 _ _ => none
  /- L2017-2027: the row `J` is not touched -/
  | _, mH, .powConst e c =>
    let lval := value s.low e
    let ld := if lval ≠ 0 then lval ^ c * c / lval else 0
    let ld2 := if lval ≠ 0 then ld * (c - 1) / lval else 0
    match hessian s s1 1 1 e with
    | none => none
    | some (JL, HL) =>
      match mergeJH (mH * ld2) JL JL [(mH * ld, HL)] with
      | none => none
      | some H => some ([], H)
  /- L2058: `throw NotImplemented` -/
  | _, _, .constPow _ _ => none
  /- L2098-2104 -/
  | mJ, mH, .cond c l r => if value s.low c ≥ 0 then hessian s s1 mJ mH l else hessian s s1 mJ mH r
  /- L2144-2150 -/
  | mJ, mH, .branch b l r => if b then hessian s s1 mJ mH l else hessian s s1 mJ mH r
  /- L2194-2197, with the default `pddmult = 0` (L2169) -/
  | mJ, mH, .func e _ f' => hessian s s1 (mJ * f' (value s.low e)) (mH * 0) e

/-- Statements on hessian variables. -/
inductive HStmt where
  /-- `x = expr` for `hessian_multivar_expression`: construction (L420-424) and copy (L501-507) -/
  | assign (k : Nat) (e : Expr)
  /-- `x = expr` through a reference, L1009-1018 -/
  | assignRef (k : Nat) (e : Expr)
  /-- `x = c`, L473-479 -/
  | assignConst (k : Nat) (c : ℝ)
  /-- `x += expr`, L513-524 (reference L1051-1062) -/
  | addAssign (k : Nat) (e : Expr)
  /-- `x -= expr`, L525-536 (reference L1063-1074) -/
  | subAssign (k : Nat) (e : Expr)
  /-- `x += c`, L565-569 -/
  | addConst (k : Nat) (c : ℝ)
  /-- `x -= c`, L570-574 -/
  | subConst (k : Nat) (c : ℝ)
  /-- `x *= c`, L575-581 -/
  | mulConst (k : Nat) (c : ℝ)
  /-- `x /= c`, L582-588 -/
  | divConst (k : Nat) (c : ℝ)

/-- Change of one variable. -/
def HStore.set (s : HStore) (k : Nat) (v : HVar) : HStore := fun j => if j = k then v else s j

/-- The two merges of `+=` and `-=`. -/
noncomputable def hcombine (s : HStore) (k : Nat) (c v : ℝ) (e : Expr) : Option HStore :=
  match hessian s (s.set k ⟨v, (s k).entries, (s k).hess⟩) 1 1 e with
  | none => none
  | some (J, H) =>
    match mergeSortedRows 1 (s k).entries c J, mergeSortedRows 1 (s k).hess c H with
    | some J', some H' => some (s.set k ⟨v, J', H'⟩)
    | _, _ => none

/-- Execution of a statement. -/
noncomputable def hexec (s : HStore) : HStmt → Option HStore
  | .assign k e =>
    match hessian s s 1 1 e with
    | none => none
    | some (J, H) => some (s.set k ⟨value s.low e, J, H⟩)
  | .assignRef k e =>
    match hessian s (s.set k ⟨value s.low e, (s k).entries, (s k).hess⟩) 1 1 e with
    | none => none
    | some (J, H) => some (s.set k ⟨value s.low e, J, H⟩)
  | .assignConst k c => some (s.set k ⟨c, [], []⟩)
  | .addAssign k e => hcombine s k 1 ((s k).value + value s.low e) e
  | .subAssign k e => hcombine s k (-1) ((s k).value - value s.low e) e
  | .addConst k c => some (s.set k { s k with value := (s k).value + c })
  | .subConst k c => some (s.set k { s k with value := (s k).value - c })
  | .mulConst k c => some (s.set k ⟨(s k).value * c, scale (s k).entries c, scale (s k).hess c⟩)
  | .divConst k c =>
    some (s.set k ⟨(s k).value / c, (s k).entries.map (fun e => (e.1, e.2 / c)), (s k).hess.map fun e => (e.1, e.2 / c)⟩)

/-- Execution of a program. -/
noncomputable def hexecAll (s : HStore) : List HStmt → Option HStore
  | [] => some s
  | c :: cs =>
    match hexec s c with
    | some s' => hexecAll s' cs
    | none => none

/-- `GetVariable(index)`, L451-472: the derivative with respect to an unknown as a variable of first order. -/
noncomputable def getVariable (h : HVar) (i : Nat) : MVar :=
  match h.entries.find? (fun e => e.1 = i) with
  | none => ⟨0, []⟩
  | some e =>
    ⟨e.2, h.hess.filterMap fun q =>
      let p := ofLex q.1
      if p.1 = i then some (p.2, q.2 * (if p.1 = p.2 then 1 else 0.5))
      else if p.2 = i then some (p.1, q.2 * (if p.1 = p.2 then 1 else 0.5))
      else none⟩

end Verif.Autodiff
