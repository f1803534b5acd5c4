import Mathlib.Algebra.TrivSqZeroExt.Basic
import Mathlib.Analysis.Calculus.Deriv.Mul
import Mathlib.Analysis.Calculus.Deriv.Add
import Mathlib.Analysis.Calculus.Deriv.Comp
import Mathlib.Data.Matrix.Mul

/-!
# Block variables: formulas of matrices on elements (C143)

Models `/repo/Source/Headers/inmost_block_variable.h`. Every class has two functions: `Value(e)`, a matrix of numbers, and
`Variable(e)`, a matrix of values with derivatives; both are modelled as they are written. The unknowns hold the values `x`.

Simplifications: real numbers for floating point; a matrix is its sizes and a function of the indices (C106 relates the loops of
inmost_dense.h to these elements); values with derivatives are `TrivSqZeroExt ℝ (Nat → ℝ)` as there. A failed assertion on sizes and an access outside of an array are
`none`. The coefficients of a stencil come in pairs with the elements (the assertion L203, L213). The variables of a
`stored_block_variable` are functions of the unknowns given from outside. Scalars are given by their `Value` and
`Variable` (C139). Not modelled: `inverse_block_variable`, `pseudo_inverse_block_variable`, `division_block_variable`;
ownership is that of C140 (L66-86 repeat inmost_variable.h L208-229).
-/

namespace Verif.Dynamic.Block

open TrivSqZeroExt Filter Topology

abbrev Var : Type := TrivSqZeroExt ℝ (Nat → ℝ)

/-- a matrix -/
structure M (R : Type) where
  n : Nat
  m : Nat
  at_ : Nat → Nat → R

section ops
variable {R : Type}

/-- `MatrixSum`, inmost_dense.h L2247-2262: assertions on the sizes L2250-2251, elements L2261. -/
def M.add [Add R] (A B : M R) : Option (M R) :=
  if A.n = B.n ∧ A.m = B.m then some ⟨A.n, A.m, fun i j => A.at_ i j + B.at_ i j⟩ else none

/-- `MatrixDifference`, inmost_dense.h L2290-2304: assertions L2293-2294, elements L2304. -/
def M.sub [Sub R] (A B : M R) : Option (M R) :=
  if A.n = B.n ∧ A.m = B.m then some ⟨A.n, A.m, fun i j => A.at_ i j - B.at_ i j⟩ else none

/-- `MatrixMul`, inmost_dense.h L2838-2864: assertion L2840; L2859 reads column 0 of the first matrix and row 0 of the second, so with no
columns in the first matrix the access is outside of the array when the result has an element. -/
def M.mul [AddCommMonoid R] [Mul R] (A B : M R) : Option (M R) :=
  if A.m = B.n ∧ (0 < A.m ∨ A.n = 0 ∨ B.m = 0) then
    some ⟨A.n, B.m, fun i j => ∑ k ∈ Finset.range A.m, A.at_ i k * B.at_ k j⟩
  else none

/-- `MatrixMulCoef`, inmost_dense.h L3151-3172: elements L3171. -/
def M.scale [Mul R] (A : M R) (c : R) : M R := ⟨A.n, A.m, fun i j => A.at_ i j * c⟩

/-- `Transpose()`, inmost_dense.h L267; elements as at L2391, L2394, L2409. -/
def M.transpose (A : M R) : M R := ⟨A.m, A.n, fun i j => A.at_ j i⟩

/-- `ConstMatrixConcatCols`, inmost_dense.h L2584-2606: assertion L2596, elements L2606. -/
def M.concatCols (A B : M R) : Option (M R) :=
  if A.n = B.n then some ⟨A.n, A.m + B.m, fun i j => if j < A.m then A.at_ i j else B.at_ i (j - A.m)⟩ else none

/-- `ConstMatrixConcatRows`, inmost_dense.h L2442-2464: assertion L2454, elements L2464. -/
def M.concatRows (A B : M R) : Option (M R) :=
  if A.m = B.m then some ⟨A.n + B.n, A.m, fun i j => if i < A.n then A.at_ i j else B.at_ (i - A.n) j⟩ else none

/-- `operator()` with four numbers, inmost_dense.h L498, L763; `ConstSubMatrix` L1912-1937: sizes L1912, L1915, elements L1936 (`SubMatrix`
L1792 has the same elements). Rows and columns outside of the matrix are `none`
(simplification: so is an empty range outside of it, which reads nothing). -/
def M.submatrix (A : M R) (r1 r2 c1 c2 : Nat) : Option (M R) :=
  if r1 ≤ r2 ∧ r2 ≤ A.n ∧ c1 ≤ c2 ∧ c2 ≤ A.m then some ⟨r2 - r1, c2 - c1, fun i j => A.at_ (i + r1) (j + c1)⟩ else none

end ops

/-- The product of two matrices of variables, inmost_dense.h L3071-3120. With an automatizator (L3089) the inner loop ends at the number of columns of
the product (L3097), not of the first matrix: elements outside of the matrices are read if there are more of them (see also C106).
Without an automatizator L3111-3118 are the loops of `M.mul`. -/
noncomputable def mulVariables (aut : Bool) (A B : M Var) : Option (M Var) :=
  match aut with
  | true =>
    if A.m = B.n ∧ (B.m ≤ A.m ∨ A.n = 0) then
      some ⟨A.n, B.m, fun i j => ∑ k ∈ Finset.range B.m, A.at_ i k * B.at_ k j⟩
    else none
  | false => A.mul B

/-- A scalar `abstract_dynamic_variable` as functions of the unknowns. -/
structure Scalar (E : Type) where
  val : (Nat → ℝ) → E → ℝ
  var : (Nat → ℝ) → E → Var

inductive Blk (E : Type) where
  /-- `dynamic_block_variable`, L89-108: size, indices (`none`: not valid on the element) and the value there -/
  | unknown (size : E → Nat) (index : E → Nat → Option Nat) (val : E → Nat → ℝ)
  /-- `const_block_variable`, L110-125 -/
  | const (A : M ℝ)
  /-- `static_block_variable`, L127-151 -/
  | static_ (n m : Nat) (val : E → Nat → Nat → ℝ)
  /-- `stored_block_variable`, L153-177, of variables that are functions of the unknowns -/
  | stored (n m : Nat) (s : Nat → Nat → Scalar E)
  /-- `stencil_block_variable`, L181-220: elements with their coefficients -/
  | stencil (elems : E → List (E × ℝ)) (a : Blk E)
  /-- `table_block_variable`, L223-248: values and derivatives of the table -/
  | table (a : Blk E) (f f' : ℝ → ℝ)
  /-- `etype_branch_block_variable`, L252-282 (`test`: the type of the element is among the types) -/
  | etypeBranch (test : E → Bool) (a b : Blk E)
  /-- `marker_branch_block_variable`, L287-315 -/
  | markerBranch (marked : E → Bool) (a b : Blk E)
  /-- L318-347 -/
  | add (a b : Blk E)
  /-- L350-379 -/
  | sub (a b : Blk E)
  /-- L382-411 -/
  | mul (a b : Blk E)
  /-- L446-475 -/
  | concatCols (a b : Blk E)
  /-- L478-507 -/
  | concatRows (a b : Blk E)
  /-- L512-538 -/
  | transpose (a : Blk E)
  /-- L541-576 -/
  | submatrix (a : Blk E) (r1 r2 c1 c2 : Nat)
  /-- `multiply_const_block_variable`, L579-608 -/
  | mulConst (a : Blk E) (c : ℝ)
  /-- `condition_block_variable`, L611-643 -/
  | condition (c : Scalar E) (a b : Blk E)
  /-- `multiply_variable_block_variable`, L646-675 -/
  | mulVar (a : Blk E) (s : Scalar E)

/-- The loop of `stencil_block_variable`, L205-206 and L215-216, after the first term -/
def accum {E R : Type} [Add R] (term : E × ℝ → Option (M R)) (acc : M R) : List (E × ℝ) → Option (M R)
  | [] => some acc
  | p :: r => (term p).bind fun A => (acc.add A).bind fun acc' => accum term acc' r

/-- L204, L214: the first term is read without a test -/
def stencilSum {E R : Type} [Add R] (term : E × ℝ → Option (M R)) : List (E × ℝ) → Option (M R)
  | [] => none
  | p :: r => (term p).bind fun A => accum term A r

/-- a number as a value without derivatives -/
def lift (c : ℝ) : Var := inl c

/-- `Value(e)` of all classes -/
noncomputable def value {E : Type} (x : Nat → ℝ) : Blk E → E → Option (M ℝ)
  -- L103
  | .unknown size index val, e => some ⟨size e, 1, fun k _ => match index e k with | none => val e k | some i => x i⟩
  -- L122
  | .const A, _ => some A
  -- L146
  | .static_ n m val, e => some ⟨n, m, val e⟩
  -- L172
  | .stored n m s, e => some ⟨n, m, fun i j => (s i j).val x e⟩
  -- L199-208
  | .stencil elems a, e => stencilSum (fun p => (value x a p.1).map fun A => A.scale p.2) (elems e)
  -- L231-238
  | .table a f _, e => (value x a e).map fun A => ⟨A.n, A.m, fun i j => f (A.at_ i j)⟩
  -- L274-275
  | .etypeBranch test a b, e => if test e then value x a e else value x b e
  -- L307-308
  | .markerBranch marked a b, e => if marked e then value x a e else value x b e
  -- L339-340
  | .add a b, e => (value x a e).bind fun A => (value x b e).bind fun B => A.add B
  -- L371-372
  | .sub a b, e => (value x a e).bind fun A => (value x b e).bind fun B => A.sub B
  -- L403-404
  | .mul a b, e => (value x a e).bind fun A => (value x b e).bind fun B => A.mul B
  -- L467-468
  | .concatCols a b, e => (value x a e).bind fun A => (value x b e).bind fun B => A.concatCols B
  -- L499-500
  | .concatRows a b, e => (value x a e).bind fun A => (value x b e).bind fun B => A.concatRows B
  -- L530-531
  | .transpose a, e => (value x a e).map M.transpose
  -- L568-569
  | .submatrix a r1 r2 c1 c2, e => (value x a e).bind fun A => A.submatrix r1 r2 c1 c2
  -- L600-601
  | .mulConst a c, e => (value x a e).map fun A => A.scale c
  -- L635-636
  | .condition c a b, e => if c.val x e > 0 then value x a e else value x b e
  -- L667-668
  | .mulVar a s, e => (value x a e).map fun A => A.scale (s.val x e)

/-- `Variable(e)` of all classes; `aut`: there is a current automatizator -/
noncomputable def variable_ {E : Type} (aut : Bool) (x : Nat → ℝ) : Blk E → E → Option (M Var)
  -- L105, inmost_autodiff.h L139-151
  | .unknown size index val, e => some ⟨size e, 1, fun k _ =>
      match index e k with
      | none => lift (val e k)
      | some i => (x i, fun j => if j = i then 1 else 0)⟩
  -- L123
  | .const A, _ => some ⟨A.n, A.m, fun i j => lift (A.at_ i j)⟩
  -- L147
  | .static_ n m val, e => some ⟨n, m, fun i j => lift (val e i j)⟩
  -- L173
  | .stored n m s, e => some ⟨n, m, fun i j => (s i j).var x e⟩
  -- L209-218
  | .stencil elems a, e => stencilSum (fun p => (variable_ aut x a p.1).map fun A => A.scale (lift p.2)) (elems e)
  -- L239-246
  | .table a f f', e => (variable_ aut x a e).map fun A => ⟨A.n, A.m, fun i j =>
      (f (A.at_ i j).fst, fun k => f' (A.at_ i j).fst * (A.at_ i j).snd k)⟩
  -- L278-279
  | .etypeBranch test a b, e => if test e then variable_ aut x a e else variable_ aut x b e
  -- L311-312
  | .markerBranch marked a b, e => if marked e then variable_ aut x a e else variable_ aut x b e
  -- L343-344
  | .add a b, e => (variable_ aut x a e).bind fun A => (variable_ aut x b e).bind fun B => A.add B
  -- L375-376
  | .sub a b, e => (variable_ aut x a e).bind fun A => (variable_ aut x b e).bind fun B => A.sub B
  -- L407-408
  | .mul a b, e => (variable_ aut x a e).bind fun A => (variable_ aut x b e).bind fun B => mulVariables aut A B
  -- L471-472
  | .concatCols a b, e => (variable_ aut x a e).bind fun A => (variable_ aut x b e).bind fun B => A.concatCols B
  -- L503-504
  | .concatRows a b, e => (variable_ aut x a e).bind fun A => (variable_ aut x b e).bind fun B => A.concatRows B
  -- L534-535
  | .transpose a, e => (variable_ aut x a e).map M.transpose
  -- L572-573
  | .submatrix a r1 r2 c1 c2, e => (variable_ aut x a e).bind fun A => A.submatrix r1 r2 c1 c2
  -- L604-605
  | .mulConst a c, e => (variable_ aut x a e).map fun A => A.scale (lift c)
  -- L639-640
  | .condition c a b, e => if c.val x e > 0 then variable_ aut x a e else variable_ aut x b e
  -- L671-672
  | .mulVar a s, e => (variable_ aut x a e).map fun A => A.scale (s.var x e)

/-- A scalar is regular: `Variable` has the value of `Value`, and its derivatives are the partial derivatives (C139). -/
def Scalar.Regular {E : Type} (s : Scalar E) (x : Nat → ℝ) (e : E) : Prop :=
  (s.var x e).fst = s.val x e ∧
    ∀ i, HasDerivAt (fun t => s.val (Function.update x i t) e) ((s.var x e).snd i) (x i)

/-- The arguments of a formula are regular at `x`: its scalars, the tables at the values they meet, no condition is exactly zero,
and with an automatizator the second matrix of a product has as many columns as the first one. -/
def Regular {E : Type} (aut : Bool) (x : Nat → ℝ) : Blk E → E → Prop
  | .unknown _ _ _, _ => True
  | .const _, _ => True
  | .static_ _ _ _, _ => True
  | .stored _ _ s, e => ∀ i j, (s i j).Regular x e
  | .stencil elems a, e => ∀ p ∈ elems e, Regular aut x a p.1
  | .table a f f', e => Regular aut x a e ∧ ∀ A, value x a e = some A → ∀ i j, HasDerivAt f (f' (A.at_ i j)) (A.at_ i j)
  | .etypeBranch test a b, e => if test e then Regular aut x a e else Regular aut x b e
  | .markerBranch marked a b, e => if marked e then Regular aut x a e else Regular aut x b e
  | .add a b, e => Regular aut x a e ∧ Regular aut x b e
  | .sub a b, e => Regular aut x a e ∧ Regular aut x b e
  | .mul a b, e => Regular aut x a e ∧ Regular aut x b e ∧
      (aut = true → ∀ A B, value x a e = some A → value x b e = some B → B.m = A.m)
  | .concatCols a b, e => Regular aut x a e ∧ Regular aut x b e
  | .concatRows a b, e => Regular aut x a e ∧ Regular aut x b e
  | .transpose a, e => Regular aut x a e
  | .submatrix a _ _ _ _, e => Regular aut x a e
  | .mulConst a _, e => Regular aut x a e
  | .condition c a b, e => c.Regular x e ∧ c.val x e ≠ 0 ∧ (if 0 < c.val x e then Regular aut x a e else Regular aut x b e)
  | .mulVar a s, e => Regular aut x a e ∧ s.Regular x e

/-- `V` at the point `x i`, `ev` the matrix as the unknown `i` moves, `D` the matrix with derivatives. -/
def Rel (i : Nat) (t0 : ℝ) (ev : ℝ → Option (M ℝ)) (V : M ℝ) (oD : Option (M Var)) : Prop :=
  ∃ (F : ℝ → M ℝ) (D : M Var), oD = some D ∧ D.n = V.n ∧ D.m = V.m ∧ (∀ p q, (D.at_ p q).fst = V.at_ p q) ∧
    F t0 = V ∧ (∀ᶠ t in 𝓝 t0, ev t = some (F t)) ∧ (∀ t, (F t).n = V.n ∧ (F t).m = V.m) ∧
    ∀ p q, HasDerivAt (fun t => (F t).at_ p q) ((D.at_ p q).snd i) t0

section rel
variable {i : Nat} {t0 : ℝ}

theorem Rel.const {A : M ℝ} {ev : ℝ → Option (M ℝ)} (h : ∀ t, ev t = some A) {D : M Var} (hn : D.n = A.n) (hm : D.m = A.m)
    (hD : ∀ p q, D.at_ p q = lift (A.at_ p q)) : Rel i t0 ev A (some D) := by
  refine ⟨fun _ => A, D, rfl, hn, hm, fun p q => by simp [hD, lift], rfl, Eventually.of_forall h, fun _ => ⟨rfl, rfl⟩, fun p q => ?_⟩
  simpa [hD, lift] using hasDerivAt_const t0 (A.at_ p q)

theorem Rel.map {ev : ℝ → Option (M ℝ)} {V : M ℝ} {oD : Option (M Var)} (h : Rel i t0 ev V oD)
    (f : ℝ → M ℝ → M ℝ) (g : M Var → M Var)
    (hn : ∀ t A, A.n = V.n → A.m = V.m → (f t A).n = (f t0 V).n ∧ (f t A).m = (f t0 V).m)
    (hg : ∀ D : M Var, D.n = V.n → D.m = V.m → (∀ p q, (D.at_ p q).fst = V.at_ p q) →
      (g D).n = (f t0 V).n ∧ (g D).m = (f t0 V).m ∧ ∀ p q, ((g D).at_ p q).fst = (f t0 V).at_ p q)
    (hd : ∀ (F : ℝ → M ℝ) (D : M Var), F t0 = V → (∀ t, (F t).n = V.n ∧ (F t).m = V.m) → D.n = V.n → D.m = V.m →
      (∀ p q, (D.at_ p q).fst = V.at_ p q) →
      (∀ p q, HasDerivAt (fun t => (F t).at_ p q) ((D.at_ p q).snd i) t0) →
      ∀ p q, HasDerivAt (fun t => (f t (F t)).at_ p q) (((g D).at_ p q).snd i) t0) :
    Rel i t0 (fun t => (ev t).map (f t)) (f t0 V) (oD.map g) := by
  obtain ⟨F, D, rfl, h1, h2, h3, h4, h5, h6, h7⟩ := h
  obtain ⟨g1, g2, g3⟩ := hg D h1 h2 h3
  refine ⟨fun t => f t (F t), g D, rfl, g1, g2, g3, by simp [h4], ?_, fun t => hn t _ (h6 t).1 (h6 t).2, hd F D h4 h6 h1 h2 h3 h7⟩
  filter_upwards [h5] with t ht
  simp [ht]

theorem Rel.bin {ev1 ev2 : ℝ → Option (M ℝ)} {V1 V2 W : M ℝ} {o1 o2 : Option (M Var)}
    (h1 : Rel i t0 ev1 V1 o1) (h2 : Rel i t0 ev2 V2 o2)
    (op : M ℝ → M ℝ → Option (M ℝ)) (opD : M Var → M Var → Option (M Var)) (g : M ℝ → M ℝ → M ℝ) (gD : M Var → M Var → M Var)
    (hW : op V1 V2 = some W)
    (hop : ∀ A B, A.n = V1.n → A.m = V1.m → B.n = V2.n → B.m = V2.m → op A B = some (g A B) ∧ (g A B).n = W.n ∧ (g A B).m = W.m)
    (hopD : ∀ A B, A.n = V1.n → A.m = V1.m → B.n = V2.n → B.m = V2.m →
      opD A B = some (gD A B) ∧ (gD A B).n = W.n ∧ (gD A B).m = W.m)
    (hf : ∀ A B, A.n = V1.n → A.m = V1.m → B.n = V2.n → B.m = V2.m → (∀ p q, (A.at_ p q).fst = V1.at_ p q) →
      (∀ p q, (B.at_ p q).fst = V2.at_ p q) → ∀ p q, ((gD A B).at_ p q).fst = (g V1 V2).at_ p q)
    (hd : ∀ (F1 F2 : ℝ → M ℝ) (A B : M Var), F1 t0 = V1 → F2 t0 = V2 → (∀ t, (F1 t).n = V1.n ∧ (F1 t).m = V1.m) →
      A.n = V1.n → A.m = V1.m →
      (∀ p q, (A.at_ p q).fst = V1.at_ p q) → (∀ p q, (B.at_ p q).fst = V2.at_ p q) →
      (∀ p q, HasDerivAt (fun t => (F1 t).at_ p q) ((A.at_ p q).snd i) t0) →
      (∀ p q, HasDerivAt (fun t => (F2 t).at_ p q) ((B.at_ p q).snd i) t0) →
      ∀ p q, HasDerivAt (fun t => (g (F1 t) (F2 t)).at_ p q) (((gD A B).at_ p q).snd i) t0) :
    Rel i t0 (fun t => (ev1 t).bind fun A => (ev2 t).bind fun B => op A B) W (o1.bind fun A => o2.bind fun B => opD A B) := by
  obtain ⟨F, A, rfl, a1, a2, a3, a4, a5, a6, a7⟩ := h1
  obtain ⟨G, B, rfl, b1, b2, b3, b4, b5, b6, b7⟩ := h2
  have e := (hop V1 V2 rfl rfl rfl rfl).1
  rw [hW] at e
  have e := Option.some.inj e
  obtain ⟨d1, d2, d3⟩ := hopD A B a1 a2 b1 b2
  refine ⟨fun t => g (F t) (G t), gD A B, by simp [d1], d2, d3, fun p q => by rw [hf A B a1 a2 b1 b2 a3 b3, e],
    by simp [a4, b4, e], ?_, fun t => (hop _ _ (a6 t).1 (a6 t).2 (b6 t).1 (b6 t).2).2, hd F G A B a4 b4 a6 a1 a2 a3 b3 a7 b7⟩
  filter_upwards [a5, b5] with t h h'
  simp [h, h', (hop _ _ (a6 t).1 (a6 t).2 (b6 t).1 (b6 t).2).1]

theorem Rel.add {ev1 ev2 : ℝ → Option (M ℝ)} {V1 V2 W : M ℝ} {o1 o2 : Option (M Var)}
    (h1 : Rel i t0 ev1 V1 o1) (h2 : Rel i t0 ev2 V2 o2) (hW : V1.add V2 = some W) :
    Rel i t0 (fun t => (ev1 t).bind fun A => (ev2 t).bind fun B => A.add B) W (o1.bind fun A => o2.bind fun B => A.add B) := by
  have hW' := hW
  unfold M.add at hW'
  split at hW' <;> simp at hW'
  rename_i hc
  subst hW'
  refine Rel.bin h1 h2 M.add M.add (fun A B => ⟨A.n, A.m, fun i j => A.at_ i j + B.at_ i j⟩)
    (fun A B => ⟨A.n, A.m, fun i j => A.at_ i j + B.at_ i j⟩) hW ?_ ?_ ?_ ?_
  · intro A B e1 e2 e3 e4; simp [M.add, e1, e2, e3, e4, hc]
  · intro A B e1 e2 e3 e4; simp [M.add, e1, e2, e3, e4, hc]
  · intro A B _ _ _ _ e e' p q; simp [e, e']
  · intro F1 F2 A B _ _ _ _ _ _ _ d d' p q; exact (d p q).fun_add (d' p q)

theorem Rel.sub {ev1 ev2 : ℝ → Option (M ℝ)} {V1 V2 W : M ℝ} {o1 o2 : Option (M Var)}
    (h1 : Rel i t0 ev1 V1 o1) (h2 : Rel i t0 ev2 V2 o2) (hW : V1.sub V2 = some W) :
    Rel i t0 (fun t => (ev1 t).bind fun A => (ev2 t).bind fun B => A.sub B) W (o1.bind fun A => o2.bind fun B => A.sub B) := by
  have hW' := hW
  unfold M.sub at hW'
  split at hW' <;> simp at hW'
  rename_i hc
  subst hW'
  refine Rel.bin h1 h2 M.sub M.sub (fun A B => ⟨A.n, A.m, fun i j => A.at_ i j - B.at_ i j⟩)
    (fun A B => ⟨A.n, A.m, fun i j => A.at_ i j - B.at_ i j⟩) hW ?_ ?_ ?_ ?_
  · intro A B e1 e2 e3 e4; simp [M.sub, e1, e2, e3, e4, hc]
  · intro A B e1 e2 e3 e4; simp [M.sub, e1, e2, e3, e4, hc]
  · intro A B _ _ _ _ e e' p q; simp [e, e']
  · intro F1 F2 A B _ _ _ _ _ _ _ d d' p q; exact (d p q).fun_sub (d' p q)

theorem Rel.mul {ev1 ev2 : ℝ → Option (M ℝ)} {V1 V2 W : M ℝ} {o1 o2 : Option (M Var)}
    (h1 : Rel i t0 ev1 V1 o1) (h2 : Rel i t0 ev2 V2 o2) (hW : V1.mul V2 = some W)
    (aut : Bool) (haut : aut = true → V2.m = V1.m) :
    Rel i t0 (fun t => (ev1 t).bind fun A => (ev2 t).bind fun B => A.mul B) W
      (o1.bind fun A => o2.bind fun B => mulVariables aut A B) := by
  have hW' := hW
  unfold M.mul at hW'
  split at hW' <;> simp at hW'
  rename_i hc
  subst hW'
  refine Rel.bin h1 h2 M.mul (mulVariables aut) (fun A B => ⟨A.n, B.m, fun i j => ∑ k ∈ Finset.range A.m, A.at_ i k * B.at_ k j⟩)
    (fun A B => ⟨A.n, B.m, fun i j => ∑ k ∈ Finset.range A.m, A.at_ i k * B.at_ k j⟩) hW ?_ ?_ ?_ ?_
  · intro A B e1 e2 e3 e4
    exact ⟨if_pos (by rw [e1, e2, e3, e4]; exact hc), e1, e4⟩
  · intro A B e1 e2 e3 e4
    refine ⟨?_, e1, e4⟩
    cases aut with
    | false => exact if_pos (by rw [e1, e2, e3, e4]; exact hc)
    | true =>
      have hm : B.m = A.m := by rw [e2, e4, haut rfl]
      simp only [mulVariables]
      rw [if_pos ⟨by rw [e2, e3]; exact hc.1, Or.inl hm.le⟩, hm]
  · intro A B _ e2 _ _ e e' p q; simp [fst_sum, e, e', e2]
  · intro F1 F2 A B f1 f2 hF _ e2 e e' d d' p q
    have : (fun t => (⟨(F1 t).n, (F2 t).m, fun i j => ∑ k ∈ Finset.range (F1 t).m, (F1 t).at_ i k * (F2 t).at_ k j⟩ : M ℝ).at_ p q)
        = fun t => ∑ k ∈ Finset.range V1.m, (F1 t).at_ p k * (F2 t).at_ k q := by
      funext t; simp [(hF t).2]
    rw [this]
    have := HasDerivAt.fun_sum (u := Finset.range V1.m) (fun k _ => (d p k).fun_mul (d' k q))
    refine this.congr_deriv ?_
    show _ = (∑ k ∈ Finset.range A.m, A.at_ p k * B.at_ k q).snd i
    rw [snd_sum, e2, Finset.sum_apply]
    refine Finset.sum_congr rfl fun k _ => ?_
    simp [e, e', f1, f2, add_comm, mul_comm]

theorem Rel.concatCols {ev1 ev2 : ℝ → Option (M ℝ)} {V1 V2 W : M ℝ} {o1 o2 : Option (M Var)}
    (h1 : Rel i t0 ev1 V1 o1) (h2 : Rel i t0 ev2 V2 o2) (hW : V1.concatCols V2 = some W) :
    Rel i t0 (fun t => (ev1 t).bind fun A => (ev2 t).bind fun B => A.concatCols B) W
      (o1.bind fun A => o2.bind fun B => A.concatCols B) := by
  have hW' := hW
  unfold M.concatCols at hW'
  split at hW' <;> simp at hW'
  rename_i hc
  subst hW'
  refine Rel.bin h1 h2 M.concatCols M.concatCols
    (fun A B => ⟨A.n, A.m + B.m, fun i j => if j < A.m then A.at_ i j else B.at_ i (j - A.m)⟩)
    (fun A B => ⟨A.n, A.m + B.m, fun i j => if j < A.m then A.at_ i j else B.at_ i (j - A.m)⟩) hW ?_ ?_ ?_ ?_
  · intro A B e1 e2 e3 e4; simp [M.concatCols, e1, e2, e3, e4, hc]
  · intro A B e1 e2 e3 e4; simp [M.concatCols, e1, e2, e3, e4, hc]
  · intro A B _ e2 _ _ e e' p q; simp only [e2]; split <;> simp [e, e']
  · intro F1 F2 A B _ _ hF _ e2 _ _ d d' p q
    simp only [(hF _).2, e2]
    split
    · exact d p q
    · exact d' p _

theorem Rel.concatRows {ev1 ev2 : ℝ → Option (M ℝ)} {V1 V2 W : M ℝ} {o1 o2 : Option (M Var)}
    (h1 : Rel i t0 ev1 V1 o1) (h2 : Rel i t0 ev2 V2 o2) (hW : V1.concatRows V2 = some W) :
    Rel i t0 (fun t => (ev1 t).bind fun A => (ev2 t).bind fun B => A.concatRows B) W
      (o1.bind fun A => o2.bind fun B => A.concatRows B) := by
  have hW' := hW
  unfold M.concatRows at hW'
  split at hW' <;> simp at hW'
  rename_i hc
  subst hW'
  refine Rel.bin h1 h2 M.concatRows M.concatRows
    (fun A B => ⟨A.n + B.n, A.m, fun i j => if i < A.n then A.at_ i j else B.at_ (i - A.n) j⟩)
    (fun A B => ⟨A.n + B.n, A.m, fun i j => if i < A.n then A.at_ i j else B.at_ (i - A.n) j⟩) hW ?_ ?_ ?_ ?_
  · intro A B e1 e2 e3 e4; simp [M.concatRows, e1, e2, e3, e4, hc]
  · intro A B e1 e2 e3 e4; simp [M.concatRows, e1, e2, e3, e4, hc]
  · intro A B e1 _ _ _ e e' p q; simp only [e1]; split <;> simp [e, e']
  · intro F1 F2 A B _ _ hF e1 _ _ _ d d' p q
    simp only [(hF _).1, e1]
    split
    · exact d p q
    · exact d' _ q

/-- multiplication by a coefficient that moves with the unknown -/
theorem Rel.scale {ev : ℝ → Option (M ℝ)} {V : M ℝ} {o : Option (M Var)} (h : Rel i t0 ev V o) (c : ℝ → ℝ) (cD : Var)
    (hc : cD.fst = c t0) (hc' : HasDerivAt c (cD.snd i) t0) :
    Rel i t0 (fun t => (ev t).map fun A => A.scale (c t)) (V.scale (c t0)) (o.map fun A => A.scale cD) := by
  refine Rel.map h (fun t A => A.scale (c t)) (fun A => A.scale cD) ?_ ?_ ?_
  · intro t A e1 e2; exact ⟨e1, e2⟩
  · intro D e1 e2 e; exact ⟨e1, e2, fun p q => by simp [M.scale, e, hc]⟩
  · intro F D f _ _ _ e d p q
    refine ((d p q).fun_mul hc').congr_deriv ?_
    show _ = (D.at_ p q * cD).snd i
    simp [e, hc, f, add_comm, mul_comm]

theorem Rel.accum {E : Type} (tm : ℝ → E × ℝ → Option (M ℝ)) (tD : E × ℝ → Option (M Var)) :
    ∀ (l : List (E × ℝ)) (ev : ℝ → Option (M ℝ)) (V W : M ℝ) (o : Option (M Var)), Rel i t0 ev V o →
      (∀ p ∈ l, ∀ A, tm t0 p = some A → Rel i t0 (fun t => tm t p) A (tD p)) →
      accum (tm t0) V l = some W →
      Rel i t0 (fun t => (ev t).bind fun A => accum (tm t) A l) W (o.bind fun A => accum tD A l)
  | [], ev, V, W, o, h, _, hW => by
    simp only [Block.accum, Option.some.injEq] at hW
    subst hW
    simpa [Block.accum] using h
  | p :: r, ev, V, W, o, h, ht, hW => by
    simp only [Block.accum] at hW
    cases hp : tm t0 p with
    | none => simp [hp] at hW
    | some A =>
      cases ha : V.add A with
      | none => simp [hp, ha] at hW
      | some V' =>
        simp only [hp, ha, Option.bind_some] at hW
        have := Rel.accum tm tD r _ V' W _ (Rel.add h (ht p (by simp) A hp) ha) (fun q hq => ht q (by simp [hq])) hW
        simpa [Block.accum, Option.bind_assoc] using this

end rel

theorem rel_main {E : Type} (aut : Bool) (x : Nat → ℝ) (i : Nat) : ∀ (b : Blk E) (e : E) (V : M ℝ), Regular aut x b e → value x b e = some V →
    Rel i (x i) (fun t => value (Function.update x i t) b e) V (variable_ aut x b e) := by
  intro b
  induction b with
  | unknown size index val =>
    intro e V _ hV
    simp only [value, Option.some.injEq] at hV
    subst hV
    refine ⟨fun t => ⟨size e, 1, fun k _ => match index e k with | none => val e k | some j => Function.update x i t j⟩, _, rfl, rfl,
      rfl, ?_, by simp, Eventually.of_forall fun t => rfl, fun _ => ⟨rfl, rfl⟩, ?_⟩
    · intro p q
      cases h : index e p with
      | none => simp only [h]; rfl
      | some j => simp only [h]; rfl
    · intro p q
      cases h : index e p with
      | none => simp only [h]; exact hasDerivAt_const (x i) (val e p)
      | some j =>
        simp only [h]
        by_cases hj : i = j
        · subst hj
          simp only [Function.update_self]
          exact (hasDerivAt_id' (x i)).congr_deriv (by show _ = (if i = i then (1 : ℝ) else 0); simp)
        · have hj' : j ≠ i := fun h => hj h.symm
          simp only [Function.update_of_ne hj']
          exact (hasDerivAt_const (x i) (x j)).congr_deriv (by show _ = (if i = j then (1 : ℝ) else 0); simp [hj])
  | const A =>
    intro e V _ hV
    simp only [value, Option.some.injEq] at hV
    subst hV
    exact Rel.const (fun t => rfl) rfl rfl (fun p q => rfl)
  | static_ n m val =>
    intro e V _ hV
    simp only [value, Option.some.injEq] at hV
    subst hV
    exact Rel.const (fun t => rfl) rfl rfl (fun p q => rfl)
  | stored n m s =>
    intro e V hr hV
    simp only [value, Option.some.injEq] at hV
    subst hV
    exact ⟨fun t => ⟨n, m, fun p q => (s p q).val (Function.update x i t) e⟩, _, rfl, rfl, rfl, fun p q => (hr p q).1, by simp,
      Eventually.of_forall fun t => rfl, fun _ => ⟨rfl, rfl⟩, fun p q => (hr p q).2 i⟩
  | stencil elems a ih =>
    intro e V hr hV
    simp only [value, variable_, Regular] at hr hV ⊢
    have key : ∀ p ∈ elems e, ∀ A, (value x a p.1).map (fun A => A.scale p.2) = some A →
        Rel i (x i) (fun t => (value (Function.update x i t) a p.1).map fun A => A.scale p.2) A
          ((variable_ aut x a p.1).map fun A => A.scale (lift p.2)) := by
      intro p hp A hA
      cases hv : value x a p.1 with
      | none => simp [hv] at hA
      | some B =>
        simp only [hv, Option.map_some, Option.some.injEq] at hA
        subst hA
        exact Rel.scale (ih p.1 B (hr p hp) hv) (fun _ => p.2) (lift p.2) (by simp [lift]) (by
          simpa [lift] using hasDerivAt_const (x i) p.2)
    cases hl : elems e with
    | nil => simp [hl, stencilSum] at hV
    | cons p r =>
      rw [hl] at hV key
      simp only [stencilSum] at hV ⊢
      cases hA : (value x a p.1).map (fun A => A.scale p.2) with
      | none => simp [hA] at hV
      | some A =>
        simp only [hA, Option.bind_some] at hV
        refine Rel.accum (fun t p => (value (Function.update x i t) a p.1).map fun A => A.scale p.2) _ r _ A V _
          (key p (by simp) A hA) ?_ (by simpa using hV)
        intro q hq B hB
        exact key q (by simp [hq]) B (by simpa using hB)
  | table a f f' ih =>
    intro e V hr hV
    obtain ⟨hr, hf⟩ := hr
    cases hv : value x a e with
    | none => simp [value, hv] at hV
    | some A =>
      simp only [value, hv, Option.map_some, Option.some.injEq] at hV
      subst hV
      refine Rel.map (ih e A hr hv) (fun _ A => ⟨A.n, A.m, fun i j => f (A.at_ i j)⟩) _ ?_ ?_ ?_
      · intro t B e1 e2; exact ⟨e1, e2⟩
      · intro D e1 e2 h; exact ⟨e1, e2, fun p q => by simp [TrivSqZeroExt.fst] at h ⊢; rw [h]⟩
      · intro F D hF _ _ _ h d p q
        have h0 : HasDerivAt f (f' (A.at_ p q)) ((F (x i)).at_ p q) := by rw [hF]; exact hf A hv p q
        refine (HasDerivAt.comp (x i) h0 (d p q)).congr_deriv ?_
        show _ = f' (D.at_ p q).fst * (D.at_ p q).snd i
        rw [h]
  | etypeBranch test a b iha ihb =>
    intro e V hr hV
    cases ht : test e <;> simp only [Regular, value, variable_, ht, if_true, Bool.false_eq_true, if_false] at hr hV ⊢
    · exact ihb e V hr hV
    · exact iha e V hr hV
  | markerBranch test a b iha ihb =>
    intro e V hr hV
    cases ht : test e <;> simp only [Regular, value, variable_, ht, if_true, Bool.false_eq_true, if_false] at hr hV ⊢
    · exact ihb e V hr hV
    · exact iha e V hr hV
  | add a b iha ihb =>
    intro e V hr hV
    simp only [value, Option.bind_eq_some_iff] at hV
    obtain ⟨A, hA, B, hB, hV⟩ := hV
    exact Rel.add (iha e A hr.1 hA) (ihb e B hr.2 hB) hV
  | sub a b iha ihb =>
    intro e V hr hV
    simp only [value, Option.bind_eq_some_iff] at hV
    obtain ⟨A, hA, B, hB, hV⟩ := hV
    exact Rel.sub (iha e A hr.1 hA) (ihb e B hr.2 hB) hV
  | mul a b iha ihb =>
    intro e V hr hV
    simp only [value, Option.bind_eq_some_iff] at hV
    obtain ⟨A, hA, B, hB, hV⟩ := hV
    exact Rel.mul (iha e A hr.1 hA) (ihb e B hr.2.1 hB) hV aut (fun h => hr.2.2 h A B hA hB)
  | concatCols a b iha ihb =>
    intro e V hr hV
    simp only [value, Option.bind_eq_some_iff] at hV
    obtain ⟨A, hA, B, hB, hV⟩ := hV
    exact Rel.concatCols (iha e A hr.1 hA) (ihb e B hr.2 hB) hV
  | concatRows a b iha ihb =>
    intro e V hr hV
    simp only [value, Option.bind_eq_some_iff] at hV
    obtain ⟨A, hA, B, hB, hV⟩ := hV
    exact Rel.concatRows (iha e A hr.1 hA) (ihb e B hr.2 hB) hV
  | transpose a ih =>
    intro e V hr hV
    simp only [value, Option.map_eq_some_iff] at hV
    obtain ⟨A, hA, rfl⟩ := hV
    refine Rel.map (ih e A hr hA) (fun _ => M.transpose) M.transpose ?_ ?_ ?_
    · intro t B e1 e2; exact ⟨e2, e1⟩
    · intro D e1 e2 h; exact ⟨e2, e1, fun p q => h q p⟩
    · intro F D _ _ _ _ _ d p q; exact d q p
  | submatrix a r1 r2 c1 c2 ih =>
    intro e V hr hV
    simp only [value, Option.bind_eq_some_iff] at hV
    obtain ⟨A, hA, hV⟩ := hV
    unfold M.submatrix at hV
    split at hV <;> simp at hV
    rename_i hc
    subst hV
    obtain ⟨F, D, hD, h1, h2, h3, h4, h5, h6, h7⟩ := ih e A hr hA
    refine ⟨fun t => ⟨r2 - r1, c2 - c1, fun p q => (F t).at_ (p + r1) (q + c1)⟩,
      ⟨r2 - r1, c2 - c1, fun p q => D.at_ (p + r1) (q + c1)⟩, ?_, rfl, rfl, fun p q => h3 _ _, by simp [h4], ?_,
      fun _ => ⟨rfl, rfl⟩, fun p q => h7 _ _⟩
    · simp [variable_, hD, M.submatrix, h1, h2, hc]
    · filter_upwards [h5] with t ht
      simp [value, ht, M.submatrix, (h6 t).1, (h6 t).2, hc]
  | mulConst a c ih =>
    intro e V hr hV
    simp only [value, Option.map_eq_some_iff] at hV
    obtain ⟨A, hA, rfl⟩ := hV
    exact Rel.scale (ih e A hr hA) (fun _ => c) (lift c) (by simp [lift]) (by simpa [lift] using hasDerivAt_const (x i) c)
  | condition c a b iha ihb =>
    intro e V hr hV
    obtain ⟨⟨_, hd⟩, h0, hr⟩ := hr
    have hcont : ContinuousAt (fun t => c.val (Function.update x i t) e) (x i) := (hd i).continuousAt
    have hx : c.val (Function.update x i (x i)) e = c.val x e := by simp
    by_cases hp : 0 < c.val x e
    · simp only [value, variable_, gt_iff_lt, hp, if_true] at hV hr ⊢
      obtain ⟨F, D, hD, h1, h2, h3, h4, h5, h6, h7⟩ := iha e V hr hV
      refine ⟨F, D, hD, h1, h2, h3, h4, ?_, h6, h7⟩
      filter_upwards [h5, hcont.eventually (lt_mem_nhds (hx ▸ hp))] with t ht ht'
      simp [ht, ht']
    · have hn : c.val x e < 0 := lt_of_le_of_ne (not_lt.mp hp) h0
      simp only [value, variable_, gt_iff_lt, hp, if_false] at hV hr ⊢
      obtain ⟨F, D, hD, h1, h2, h3, h4, h5, h6, h7⟩ := ihb e V hr hV
      refine ⟨F, D, hD, h1, h2, h3, h4, ?_, h6, h7⟩
      filter_upwards [h5, hcont.eventually (gt_mem_nhds (hx ▸ hn))] with t ht ht'
      simp [ht, not_lt.mpr ht'.le]
  | mulVar a s ih =>
    intro e V hr hV
    simp only [value, Option.map_eq_some_iff] at hV
    obtain ⟨A, hA, rfl⟩ := hV
    have := Rel.scale (ih e A hr.1 hA) (fun t => s.val (Function.update x i t) e) (s.var x e) (by simpa using hr.2.1) (hr.2.2 i)
    simpa [value, variable_] using this

/-! ## The property -/

/-- an element of a computed matrix (zero when the computation fails) -/
def entry (o : Option (M ℝ)) (p q : Nat) : ℝ := match o with | some A => A.at_ p q | none => 0

/-- the matrix of Mathlib with the elements of `A` -/
def M.mat (A : M ℝ) (n m : Nat) : Matrix (Fin n) (Fin m) ℝ := Matrix.of fun p q => A.at_ p q

/-- **C143** (partial: without inverse, pseudo-inverse and division; away from zeros of conditions; products with an automatizator only
where `C143_product_fails` does not apply). Whenever `Value` of a block formula is
computed, `Variable` is computed too, has the same sizes and the same values, and the derivative stored for the unknown `i` in each element is
the partial derivative of that element of `Value` with respect to this unknown. -/
theorem C143_derivatives_partial {E : Type} (aut : Bool) (x : Nat → ℝ) (b : Blk E) (e : E) (V : M ℝ) (hr : Regular aut x b e)
    (hV : value x b e = some V) :
    ∃ D, variable_ aut x b e = some D ∧ D.n = V.n ∧ D.m = V.m ∧
      ∀ p q, (D.at_ p q).fst = V.at_ p q ∧
        ∀ i, HasDerivAt (fun t => entry (value (Function.update x i t) b e) p q) ((D.at_ p q).snd i) (x i) := by
  obtain ⟨_, D, hD, h1, h2, h3, -⟩ := rel_main aut x 0 b e V hr hV
  refine ⟨D, hD, h1, h2, fun p q => ⟨h3 p q, fun i => ?_⟩⟩
  obtain ⟨F, D', hD', -, -, -, -, h5, -, h7⟩ := rel_main aut x i b e V hr hV
  rw [hD] at hD'
  cases hD'
  refine (h7 p q).congr_of_eventuallyEq ?_
  filter_upwards [h5] with t ht
  simp [entry, ht]

/-- **C143**: `Value` of the operations on blocks is the operation on matrices (those of Mathlib). -/
theorem C143_operations {E : Type} (x : Nat → ℝ) (a b : Blk E) (e : E) (A B : M ℝ) (hA : value x a e = some A)
    (hB : value x b e = some B) :
    (∀ W, value x (.add a b) e = some W → B.n = A.n ∧ B.m = A.m ∧ W.n = A.n ∧ W.m = A.m ∧
      W.mat A.n A.m = A.mat A.n A.m + B.mat A.n A.m) ∧
    (∀ W, value x (.sub a b) e = some W → B.n = A.n ∧ B.m = A.m ∧ W.n = A.n ∧ W.m = A.m ∧
      W.mat A.n A.m = A.mat A.n A.m - B.mat A.n A.m) ∧
    (∀ W, value x (.mul a b) e = some W → B.n = A.m ∧ W.n = A.n ∧ W.m = B.m ∧
      W.mat A.n B.m = A.mat A.n A.m * B.mat A.m B.m) ∧
    (∀ W, value x (.transpose a) e = some W → W.n = A.m ∧ W.m = A.n ∧ W.mat A.m A.n = (A.mat A.n A.m).transpose) ∧
    (∀ W c, value x (.mulConst a c) e = some W → W.n = A.n ∧ W.m = A.m ∧ W.mat A.n A.m = c • A.mat A.n A.m) ∧
    (∀ W s, value x (.mulVar a s) e = some W → W.n = A.n ∧ W.m = A.m ∧ W.mat A.n A.m = s.val x e • A.mat A.n A.m) ∧
    (∀ W, value x (.concatCols a b) e = some W → B.n = A.n ∧ W.n = A.n ∧ W.m = A.m + B.m ∧
      (∀ p q, q < A.m → W.at_ p q = A.at_ p q) ∧ ∀ p q, W.at_ p (A.m + q) = B.at_ p q) ∧
    (∀ W, value x (.concatRows a b) e = some W → B.m = A.m ∧ W.n = A.n + B.n ∧ W.m = A.m ∧
      (∀ p q, p < A.n → W.at_ p q = A.at_ p q) ∧ ∀ p q, W.at_ (A.n + p) q = B.at_ p q) ∧
    (∀ W r1 r2 c1 c2, value x (.submatrix a r1 r2 c1 c2) e = some W →
      r2 ≤ A.n ∧ c2 ≤ A.m ∧ r1 + W.n = r2 ∧ c1 + W.m = c2 ∧ ∀ p q, W.at_ p q = A.at_ (r1 + p) (c1 + q)) := by
  simp only [value, hA, hB, Option.bind_some, Option.map_some, Option.some.injEq]
  refine ⟨?_, ?_, ?_, ?_, ?_, ?_, ?_, ?_, ?_⟩
  · intro W h
    unfold M.add at h
    split at h <;> simp at h
    rename_i hc; subst h
    exact ⟨hc.1.symm, hc.2.symm, rfl, rfl, by ext p q; simp [M.mat]⟩
  · intro W h
    unfold M.sub at h
    split at h <;> simp at h
    rename_i hc; subst h
    exact ⟨hc.1.symm, hc.2.symm, rfl, rfl, by ext p q; simp [M.mat]⟩
  · intro W h
    unfold M.mul at h
    split at h <;> simp at h
    rename_i hc; subst h
    refine ⟨hc.1.symm, rfl, rfl, ?_⟩
    ext p q
    simp only [M.mat, Matrix.of_apply, Matrix.mul_apply]
    exact (Fin.sum_univ_eq_sum_range (fun k => A.at_ p k * B.at_ k q) A.m).symm
  · rintro W rfl
    exact ⟨rfl, rfl, by ext p q; simp [M.mat, M.transpose]⟩
  · rintro W c rfl
    exact ⟨rfl, rfl, by ext p q; simp [M.mat, M.scale, mul_comm]⟩
  · rintro W s rfl
    exact ⟨rfl, rfl, by ext p q; simp [M.mat, M.scale, mul_comm]⟩
  · intro W h
    unfold M.concatCols at h
    split at h <;> simp at h
    rename_i hc; subst h
    exact ⟨hc.symm, rfl, rfl, fun p q hq => by simp [hq], fun p q => by simp⟩
  · intro W h
    unfold M.concatRows at h
    split at h <;> simp at h
    rename_i hc; subst h
    exact ⟨hc.symm, rfl, rfl, fun p q hq => by simp [hq], fun p q => by simp⟩
  · intro W r1 r2 c1 c2 h
    unfold M.submatrix at h
    split at h <;> simp at h
    rename_i hc; subst h
    exact ⟨hc.2.1, hc.2.2.2, by simp; omega, by simp; omega, fun p q => by simp [add_comm]⟩

/-- **C143**: formulas chosen by the type of the element, by a marker and by a condition different from zero. -/
theorem C143_branches {E : Type} (x : Nat → ℝ) (a b : Blk E) (e : E) (test : E → Bool) (c : Scalar E) :
    (value x (.etypeBranch test a b) e = if test e then value x a e else value x b e) ∧
    (value x (.markerBranch test a b) e = if test e then value x a e else value x b e) ∧
    (0 < c.val x e → value x (.condition c a b) e = value x a e) ∧
    (c.val x e < 0 → value x (.condition c a b) e = value x b e) := by
  refine ⟨rfl, rfl, fun h => by simp [value, h], fun h => by simp [value, not_lt.mpr h.le]⟩

/-- a sum with coefficients over the elements of a stencil -/
theorem accum_entries {E : Type} (term : E × ℝ → Option (M ℝ)) (T : E × ℝ → M ℝ) :
    ∀ (l : List (E × ℝ)) (acc W : M ℝ), (∀ p ∈ l, term p = some (T p)) → accum term acc l = some W →
      W.n = acc.n ∧ W.m = acc.m ∧ ∀ i j, W.at_ i j = acc.at_ i j + (l.map fun p => (T p).at_ i j).sum
  | [], acc, W, _, h => by
    simp only [accum, Option.some.injEq] at h
    subst h; simp
  | p :: r, acc, W, ht, h => by
    simp only [accum, ht p (by simp), Option.bind_some] at h
    unfold M.add at h
    split at h <;> simp at h
    obtain ⟨h1, h2, h3⟩ := accum_entries term T r _ W (fun q hq => ht q (by simp [hq])) h
    exact ⟨h1, h2, fun i j => by rw [h3]; simp [add_assoc]⟩

/-- **C143**: `Value` of a stencil is the sum of the values on its elements with their coefficients. -/
theorem C143_stencil {E : Type} (x : Nat → ℝ) (a : Blk E) (e : E) (elems : E → List (E × ℝ)) (T : E → M ℝ) (W : M ℝ)
    (hT : ∀ p ∈ elems e, value x a p.1 = some (T p.1)) (hW : value x (.stencil elems a) e = some W) :
    elems e ≠ [] ∧ ∀ i j, W.at_ i j = ((elems e).map fun p => p.2 * (T p.1).at_ i j).sum := by
  simp only [value] at hW
  cases hl : elems e with
  | nil => simp [hl, stencilSum] at hW
  | cons p r =>
    rw [hl] at hT hW
    simp only [stencilSum, hT p (by simp), Option.map_some, Option.bind_some] at hW
    refine ⟨by simp, fun i j => ?_⟩
    have := (accum_entries _ (fun p => (T p.1).scale p.2) r _ W (fun q hq => by simp [hT q (by simp [hq])]) hW).2.2 i j
    rw [this]
    simp [M.scale, mul_comm]

/-- The comment L743 promises the first argument for a non-negative control (also its name, L747), and numbers are treated so
(inmost_expression.h L2321), but a block with control zero gets the second argument. -/
theorem C143_condition_fails : ∃ (x : Nat → ℝ) (c : Scalar Unit) (a b : Blk Unit), c.val x () ≥ 0 ∧
    value x (.condition c a b) () = value x b () ∧ value x (.condition c a b) () ≠ value x a () := by
  refine ⟨fun _ => 0, ⟨fun _ _ => 0, fun _ _ => 0⟩, .const ⟨1, 1, fun _ _ => 1⟩, .const ⟨1, 1, fun _ _ => 2⟩, le_refl _, by simp [value], ?_⟩
  simp only [value, gt_iff_lt, lt_self_iff_false, if_false, ne_eq, Option.some.injEq]
  intro h
  have := congrArg (fun A => M.at_ A 0 0) h
  norm_num at this

/-- A stencil without elements (the empty sum) reads outside of the arrays, L204 and L214. -/
theorem C143_empty_stencil_fails {E : Type} (aut : Bool) (x : Nat → ℝ) (a : Blk E) (e : E) (elems : E → List (E × ℝ)) (h : elems e = []) :
    value x (.stencil elems a) e = none ∧ variable_ aut x (.stencil elems a) e = none := by
  simp [value, variable_, h, stencilSum]

/-- The product of the row `(1 1)` and the column of two unknowns with values 3 and 5, on an element with an automatizator: `Value` is 8, `Variable` has
the value 3 and no derivative with respect to the second unknown. -/
theorem C143_product_fails : ∃ (x : Nat → ℝ) (b : Blk Unit) (V : M ℝ) (D : M Var), value x b () = some V ∧
    variable_ true x b () = some D ∧ V.at_ 0 0 = 8 ∧ (D.at_ 0 0).fst = 3 ∧ (D.at_ 0 0).snd 1 = 0 := by
  refine ⟨fun k => if k = 0 then 3 else 5, .mul (.const ⟨1, 2, fun _ _ => 1⟩) (.unknown (fun _ => 2) (fun _ k => some k) fun _ _ => 0),
    _, _, by simp [value, M.mul]; rfl, by simp [variable_, mulVariables]; rfl, ?_, ?_, ?_⟩
  · simp [Finset.sum_range_succ]; norm_num
  · simp only [Finset.sum_range_one, TrivSqZeroExt.fst_mul]
    show (1 : ℝ) * 3 = 3
    norm_num
  · simp only [Finset.sum_range_one, TrivSqZeroExt.snd_mul, Pi.add_apply, Pi.smul_apply]
    show (1 : ℝ) * (if (1 : Nat) = 0 then 1 else 0) + 0 * 3 = 0
    norm_num

/-- Two unknowns on an element: `(u ⬝ uᵀ) * s` with a scalar `s = x 0` and a condition. -/
example : Regular false (fun _ => 3) (E := Unit)
      (.condition ⟨fun x _ => x 0, fun x _ => (x 0, fun j => if j = 0 then 1 else 0)⟩
        (.mulVar (.mul (.unknown (fun _ => 2) (fun _ k => some k) fun _ _ => 0)
            (.transpose (.unknown (fun _ => 2) (fun _ k => some k) fun _ _ => 0)))
          ⟨fun x _ => x 0, fun x _ => (x 0, fun j => if j = 0 then 1 else 0)⟩)
        (.const ⟨1, 1, fun _ _ => 1⟩)) () ∧
    (value (fun _ => 3) (E := Unit)
      (.condition ⟨fun x _ => x 0, fun x _ => (x 0, fun j => if j = 0 then 1 else 0)⟩
        (.mulVar (.mul (.unknown (fun _ => 2) (fun _ k => some k) fun _ _ => 0)
            (.transpose (.unknown (fun _ => 2) (fun _ k => some k) fun _ _ => 0)))
          ⟨fun x _ => x 0, fun x _ => (x 0, fun j => if j = 0 then 1 else 0)⟩)
        (.const ⟨1, 1, fun _ _ => 1⟩)) ()).isSome := by
  have hs : Scalar.Regular (E := Unit) ⟨fun x _ => x 0, fun x _ => (x 0, fun j => if j = 0 then 1 else 0)⟩ (fun _ => 3) () := by
    refine ⟨rfl, fun i => ?_⟩
    by_cases hi : i = 0
    · subst hi
      simp only [Function.update_self]
      exact (hasDerivAt_id' _).congr_deriv (by show _ = (if 0 = 0 then (1 : ℝ) else 0); simp)
    · have : (0 : Nat) ≠ i := fun h => hi h.symm
      simp only [Function.update_of_ne this]
      exact (hasDerivAt_const _ _).congr_deriv (by show _ = (if i = 0 then (1 : ℝ) else 0); simp [hi])
  constructor
  · refine ⟨hs, by norm_num, ?_⟩
    simp only [Nat.ofNat_pos, if_true, Regular]
    exact ⟨⟨trivial, trivial, by simp⟩, hs⟩
  · simp [value, M.mul, M.transpose]

/-- With an automatizator: the product of a square matrix and the unknown of an element as a matrix of one element. -/
example : Regular true (fun _ => 3) (E := Unit) (.mul (.const ⟨1, 1, fun _ _ => 2⟩) (.unknown (fun _ => 1) (fun _ k => some k) fun _ _ => 0)) () ∧
    (value (fun _ => 3) (E := Unit) (.mul (.const ⟨1, 1, fun _ _ => 2⟩) (.unknown (fun _ => 1) (fun _ k => some k) fun _ _ => 0)) ()).isSome := by
  refine ⟨⟨trivial, trivial, ?_⟩, by simp [value, M.mul]⟩
  intro _ A B hA hB
  simp only [value, Option.some.injEq] at hA hB
  subst hA hB
  rfl

/-- A stencil of two elements. -/
example : ∃ W, value (fun k => (k : ℝ)) (.stencil (fun _ => [(0, 2), (1, -1)])
    (.unknown (fun _ => 1) (fun e _ => some e) fun _ _ => 0)) (0 : Nat) = some W ∧ W.at_ 0 0 = -1 := by
  refine ⟨_, rfl, ?_⟩
  simp [M.scale]

end Verif.Dynamic.Block
