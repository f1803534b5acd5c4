import Verif.Residual.Lemmas

/-!
# C109: systems of equations of the class `Residual`
-/

namespace Verif.Residual

open Verif.Sparse Verif.Autodiff

/-- **C109, rescaling.**  For every norm but `p = 0`, `Rescale` multiplies the value, the row of the Jacobian and the row of
the Hessian of each equation by the same positive number, after which the row of the Jacobian has norm one; equations
whose row is zero and equations of other processes are not changed. -/
theorem C109_rescale_partial (r : Res) (hf : r.Fits) (p : Option Nat) (hp : p ≠ some 0) :
    ∃ r', r.rescale p = some r' ∧ r'.first = r.first ∧ r'.last = r.last ∧
      (∀ k, ¬ r.Has k → r'.res k = r.res k ∧ r'.jac k = r.jac k ∧ r'.hess k = r.hess k) ∧
      (∀ k, r.Has k → (∀ e ∈ r.jac k, e.2 = 0) → r'.res k = r.res k ∧ r'.jac k = r.jac k ∧ r'.hess k = r.hess k) ∧
      (∀ k, r.Has k → (∃ e ∈ r.jac k, e.2 ≠ 0) → ∃ c : ℝ, 0 < c ∧ r'.res k = r.res k * c ∧
        r'.jac k = (r.jac k).map (fun e => (e.1, e.2 * c)) ∧
        (r.hfirst ≠ r.hlast → r'.hess k = (r.hess k).map (fun e => (e.1, e.2 * c))) ∧ UnitNorm p (r'.jac k)) := by
  obtain ⟨r', h⟩ := each_fits r hf (rescaleRow p)
  obtain ⟨h1, h2, -, -, -, -, h3⟩ := each_spec h
  refine ⟨r', h, h1, h2, fun k hk => (h3 k).2 hk, fun k hk hz => ?_, fun k hk hz => ?_⟩
  · obtain ⟨g1, g2, g3⟩ := (h3 k).1 hk
    rcases rescaleRow_spec p hp (r.res k, r.jac k, r.hess k) with ⟨_, he⟩ | ⟨⟨e, he, h0⟩, _⟩
    · rw [he] at g1 g2 g3
      exact ⟨g1, g2, by rw [g3]; split <;> rfl⟩
    · exact absurd (hz e he) h0
  · obtain ⟨g1, g2, g3⟩ := (h3 k).1 hk
    rcases rescaleRow_spec p hp (r.res k, r.jac k, r.hess k) with ⟨ha, _⟩ | ⟨_, c, hc, he, hu⟩
    · obtain ⟨e, he, h0⟩ := hz
      exact absurd (ha e he) h0
    · rw [he] at g1 g2 g3
      exact ⟨c, hc, g1, g2, fun hn => by rw [g3, if_neg hn]; rfl, by rw [g2]; exact hu⟩

/-- **C109, solutions.**  Rescaling does not change the solutions of the linear system. -/
theorem C109_rescale_solutions (r r' : Res) (p : Option Nat) (hp : p ≠ some 0) (h : r.rescale p = some r') (x : Nat → ℝ)
    (k : Nat) : r'.Solves x k ↔ r.Solves x k := by
  obtain ⟨-, -, -, -, -, -, h3⟩ := each_spec h
  unfold Res.Solves
  by_cases hk : r.Has k
  · obtain ⟨g1, g2, -⟩ := (h3 k).1 hk
    rcases rescaleRow_spec p hp (r.res k, r.jac k, r.hess k) with ⟨_, he⟩ | ⟨_, c, hc, he, _⟩
    · rw [he] at g1 g2
      rw [g1, g2]
    · rw [he] at g1 g2
      simp only at g1 g2
      rw [g1, g2, show scale (r.jac k) c = (r.jac k).map fun e => (e.1, e.2 * c) from rfl, dot_scale, mul_comm]
      exact ⟨fun h => mul_right_cancel₀ hc.ne' h, fun h => by rw [h]⟩
  · obtain ⟨g1, g2, -⟩ := (h3 k).2 hk
    rw [g1, g2]

/-- **C109, repeated rescaling.**  A rescaled system is not changed by another rescaling. -/
theorem C109_rescale_idempotent (r r' : Res) (p : Option Nat) (hp : p ≠ some 0) (h : r.rescale p = some r') :
    r'.rescale p = some r' := by
  obtain ⟨e1, e2, e3, e4, e5, e6, e7⟩ := each_spec h
  have hn : ¬ (r.first < r.last ∧ ¬ r.hempty ∧ ¬ (r.hfirst ≤ r.first ∧ r.last ≤ r.hlast)) := by
    intro hn
    unfold Res.rescale Res.each at h
    rw [if_pos hn] at h
    cases h
  obtain ⟨r2, h2⟩ : ∃ r2, r'.rescale p = some r2 := by
    unfold Res.rescale Res.each
    rw [if_neg]
    · exact ⟨_, rfl⟩
    · rw [e1, e2, e3, e4, show r'.hempty = r.hempty by simp [Res.hempty, e3, e4]]
      exact hn
  rw [h2]
  obtain ⟨d1, d2, d3, d4, d5, d6, d7⟩ := each_spec h2
  have hall : ∀ k, r2.res k = r'.res k ∧ r2.jac k = r'.jac k ∧ r2.hess k = r'.hess k := by
    intro k
    by_cases hk : r.Has k
    · have hk' : r'.Has k := by unfold Res.Has at hk ⊢; omega
      obtain ⟨f1, f2, f3⟩ := (d7 k).1 hk'
      obtain ⟨g1, g2, g3⟩ := (e7 k).1 hk
      rw [f1, f2, f3, e3, e4]
      rcases rescaleRow_spec p hp (r.res k, r.jac k, r.hess k) with ⟨hz, hs⟩ | ⟨_, c, _, hs, hu⟩
      · rw [hs] at g1 g2 g3
        have : rescaleRow p (r'.res k, r'.jac k, r'.hess k) = (r'.res k, r'.jac k, r'.hess k) := by
          rw [rescaleRow]
          simp only [g2, factor_zero p hp _ hz]
        rw [this]
        exact ⟨rfl, rfl, by split <;> rfl⟩
      · rw [hs] at g1 g2 g3
        have : rescaleRow p (r'.res k, r'.jac k, r'.hess k) = (r'.res k, r'.jac k, r'.hess k) := by
          rw [rescaleRow]
          simp only [g2, factor_unit p hp _ hu, scale_one, mul_one]
        rw [this]
        exact ⟨rfl, rfl, by split <;> rfl⟩
    · exact (d7 k).2 (by unfold Res.Has at hk ⊢; omega)
  congr 1
  cases r2
  cases r'
  simp only at d1 d2 d3 d4 d5 d6 hall
  simp only [Res.mk.injEq]
  exact ⟨d1, d2, funext fun k => (hall k).1, funext fun k => (hall k).2.1, d3, d4, funext fun k => (hall k).2.2, d5, d6⟩

/-- `Rescale(0)` replaces an equation with two or more entries by `0 = 0`. -/
theorem C109_rescale_zero_fails (r : Res) (hf : r.Fits) (k : Nat) (hk : r.Has k) (h2 : 2 ≤ (r.jac k).length) :
    ∃ r', r.rescale (some 0) = some r' ∧ r'.res k = 0 ∧ ∀ x, r'.Solves x k := by
  obtain ⟨r', h⟩ := each_fits r hf (rescaleRow (some 0))
  obtain ⟨-, -, -, -, -, -, h3⟩ := each_spec h
  obtain ⟨g1, g2, -⟩ := (h3 k).1 hk
  have hs : powLoop 0 0 (r.jac k) = (r.jac k).length := by rw [powLoop_eq]; simp
  have h2' : (2 : ℝ) ≤ (r.jac k).length := by exact_mod_cast h2
  have hr : rescaleRow (some 0) (r.res k, r.jac k, r.hess k) = (r.res k * 0, scale (r.jac k) 0, scale (r.hess k) 0) := by
    have : factor (norm (some 0) (r.jac k)) = some 0 := by
      simp only [norm, root, if_true, hs]
      rw [if_neg (by linarith), if_neg (by intro h; linarith)]
      rfl
    rw [rescaleRow]; simp only [this]
  rw [hr] at g1 g2
  refine ⟨r', h, by rw [g1, mul_zero], fun x => ?_⟩
  unfold Res.Solves
  rw [g1, g2]
  simp only
  rw [show scale (r.jac k) 0 = (r.jac k).map fun e => (e.1, e.2 * 0) from rfl, dot_scale, zero_mul, mul_zero]

/-- **C109, norm.**  On any number of processes, however the equations are distributed, `Norm` is the root of the sum of the
squares of the values of all equations. -/
theorem C109_norm (rs : List Res) (v : Nat → ℝ) (a b : Nat) (h : Tile a rs b) (hv : Global rs v) :
    normAll rs = Real.sqrt (((List.range (b - a)).map fun i => v (a + i) ^ 2).sum) := by
  rw [normAll, tile_sum rs v a b h hv]

/-- **C109, norm zero.**  The norm is zero if and only if all values are. -/
theorem C109_norm_zero (rs : List Res) (v : Nat → ℝ) (a b : Nat) (h : Tile a rs b) (hv : Global rs v) :
    normAll rs = 0 ↔ ∀ k, a ≤ k → k < b → v k = 0 := by
  rw [C109_norm rs v a b h hv, Real.sqrt_eq_zero']
  constructor
  · intro hs k h1 h2
    by_contra hne
    have hge : ∀ l : List Nat, 0 ≤ (l.map fun i => v (a + i) ^ 2).sum := fun l =>
      List.sum_nonneg fun x hx => by obtain ⟨i, _, rfl⟩ := List.mem_map.1 hx; positivity
    have hpos : ∀ l : List Nat, k - a ∈ l → 0 < (l.map fun i => v (a + i) ^ 2).sum := by
      intro l
      induction l with
      | nil => simp
      | cons i l ih =>
        intro hm
        rw [List.map_cons, List.sum_cons]
        have := hge l
        rcases List.mem_cons.1 hm with rfl | hm
        · have : 0 < v (a + (k - a)) ^ 2 := by
            rw [show a + (k - a) = k by omega]; positivity
          linarith
        · have := ih hm
          have : 0 ≤ v (a + i) ^ 2 := by positivity
          linarith
    have := hpos (List.range (b - a)) (List.mem_range.2 (by omega))
    linarith
  · intro hz
    apply le_of_eq
    apply List.sum_eq_zero
    intro x hx
    obtain ⟨i, hi, rfl⟩ := List.mem_map.1 hx
    have := List.mem_range.1 hi
    rw [hz (a + i) (by omega) (by omega)]
    norm_num

/-- **C109, clearing.**  After `Clear` the equations of the process are `0 = 0` with empty rows. -/
theorem C109_clear (r : Res) (hf : r.Fits) :
    ∃ r', r.clear = some r' ∧ r'.first = r.first ∧ r'.last = r.last ∧
      (∀ k, r.Has k → r'.res k = 0 ∧ r'.jac k = [] ∧ (r.hfirst ≠ r.hlast → r'.hess k = [])) ∧
      ∀ k, ¬ r.Has k → r'.res k = r.res k ∧ r'.jac k = r.jac k ∧ r'.hess k = r.hess k := by
  obtain ⟨r', h⟩ := each_fits r hf (fun _ => (0, [], []))
  obtain ⟨h1, h2, -, -, -, -, h3⟩ := each_spec h
  refine ⟨r', h, h1, h2, fun k hk => ?_, fun k hk => (h3 k).2 hk⟩
  obtain ⟨g1, g2, g3⟩ := (h3 k).1 hk
  exact ⟨g1, g2, fun hn => by rw [g3, if_neg hn]⟩

/-- With a Hessian whose interval does not contain the equations, `Clear` and `Rescale` access rows that do not
exist: this happens after `SetInterval`, which moves the Jacobian and leaves the Hessian. -/
theorem C109_hessian_fails : ∃ r r' : Res, r.Fits ∧ r.setInterval 0 3 = some r' ∧ r'.clear = none ∧
    ∀ p, r'.rescale p = none :=
  ⟨⟨0, 2, fun _ => 0, fun _ => [], 0, 2, fun _ => [], 0, 0⟩, _, Or.inr ⟨by decide, by decide⟩, rfl,
    by simp [Res.clear, Res.each, Res.hempty],
    fun p => by simp [Res.rescale, Res.each, Res.hempty]⟩

/-- **C109, intervals.**  `SetInterval` with the old beginning keeps the equations that are in both intervals; new
equations are `0 = 0`. -/
theorem C109_setInterval_partial (r : Res) (stop : Nat) (h : r.first ≤ stop) :
    ∃ r', r.setInterval r.first stop = some r' ∧ r'.first = r.first ∧ r'.last = stop ∧
      ∀ k, r'.Has k → (r.Has k → r'.res k = r.res k ∧ r'.jac k = r.jac k) ∧
        (¬ r.Has k → r'.res k = 0 ∧ r'.jac k = []) := by
  unfold Res.setInterval
  rw [if_neg (by omega)]
  refine ⟨_, rfl, rfl, rfl, fun k hk => ?_⟩
  obtain ⟨h1, h2⟩ := hk
  simp only at h1 h2
  constructor
  · rintro ⟨g1, g2⟩
    have : r.first ≤ k ∧ k - r.first < r.last - r.first := ⟨g1, by omega⟩
    simp only [this, and_self, if_true, show r.first + (k - r.first) = k by omega]
  · intro hn
    have : ¬ (r.first ≤ k ∧ k - r.first < r.last - r.first) := fun g => hn ⟨g.1, by omega⟩
    simp only [this, if_false, and_self]

/-- With another beginning the equations are renumbered: the equation 1 of the interval `[0,2)` becomes the equation 2 of
`[1,3)`, and the new equation 1 has the values of the old equation 0. -/
theorem C109_setInterval_fails : ∃ r r' : Res, r.setInterval 1 3 = some r' ∧ r.Has 1 ∧ r'.Has 1 ∧
    r'.res 1 = r.res 0 ∧ r'.res 1 ≠ r.res 1 :=
  ⟨⟨0, 2, fun k => k, fun _ => [], 0, 0, fun _ => [], 0, 0⟩, _, rfl, ⟨by decide, by decide⟩, ⟨by decide, by decide⟩,
    by simp, by simp⟩

/-- **C109, locks.**  After `InitLocks` every equation of the process can be locked. -/
theorem C109_locks_partial (r : Res) (k : Nat) (hk : r.Has k) : r.initLocks.lock k = some true := by
  obtain ⟨h1, h2⟩ := hk
  unfold Res.initLocks
  rw [if_neg (by omega)]
  unfold Res.lock
  simp only
  rw [if_neg (by omega), if_pos ⟨h1, h2⟩]

/-- A copy has no locks: `Lock` returns at once and takes nothing. -/
theorem C109_locks_copy_fails (r : Res) (k : Nat) : r.initLocks.copy.lock k = some false := by
  simp [Res.lock, Res.copy]

/-- After `SetInterval` the locks are still those of the old equations, and locking a new one fails. -/
theorem C109_locks_interval_fails : ∃ r r' : Res, r.initLocks.setInterval 0 3 = some r' ∧ r'.Has 2 ∧ r'.lock 2 = none :=
  ⟨Res.new 0 2, _, rfl, ⟨by decide, by decide⟩, by simp [Res.initLocks, Res.new, Res.lock]⟩

theorem add_spec (r : Res) (m : Option (Merger ℝ))
    (hm : ∀ a, m = some a → ∃ b e, b ≤ e ∧ e < EOL ∧ a = Merger.init b e false)
    (s : Store) (G : Nat → (Nat → ℝ) → ℝ) (x : Nat → ℝ) (hs : Represents s G x) (k : Nat) (e : Expr) (hk : r.Has k)
    (hr : Regular G x e) (F : Nat → (Nat → ℝ) → ℝ) (hF : Holds r F x) :
    ∃ r', r.add m s k e = some (r', m) ∧ r'.first = r.first ∧ r'.last = r.last ∧
      Holds r' (fun j y => if j = k then F k y + den G e y else F j y) x := by
  have key : ∀ row : Row ℝ, Distinct row → (∀ v, dot row v = dot (r.jac k) v + dot (flat (contrib s s 1 e)) v) →
      Holds { r with res := fun j => if j = k then r.res k + value s e else r.res j
                     jac := fun j => if j = k then row else r.jac j }
        (fun j y => if j = k then F k y + den G e y else F j y) x := by
    intro row hd hrow j
    by_cases hj : j = k
    · subst hj
      simp only [if_true]
      refine ⟨by rw [(hF j).1, C29_value s G x hs e hr], ?_, hd⟩
      intro γ v t0 h0 hγ
      obtain ⟨D, hD, hc⟩ := contrib_spec s s G x (ctx_of s G x hs) e hr (fun _ _ => rfl) γ v t0 h0 hγ
      rw [hrow, hc, one_mul]
      exact ((hF j).2.1 γ v t0 h0 hγ).add hD
    · simp only [hj, if_false]
      exact hF j
  unfold Res.add
  rw [if_pos (show r.first ≤ k ∧ k < r.last from hk)]
  cases hmm : m with
  | none =>
    obtain ⟨h1, h2⟩ := applyAll_spec (contrib s s 1 e) (r.jac k) (hF k).2.2
    exact ⟨_, rfl, rfl, rfl, key _ h1 h2⟩
  | some a =>
    obtain ⟨b, e', hb, he, rfl⟩ := hm a hmm
    obtain ⟨row, g1, g2, g3⟩ := addBasic_spec b e' ⟨hb, he⟩ s s e (r.jac k) (hF k).2.2 1 1
    simp only [g1]
    exact ⟨_, rfl, rfl, rfl, key _ g2 (fun v => by rw [g3, one_mul])⟩

/-- **C109, assembly.**  Contributions `R[k] += expr` to any equations of the process, in any order and number, add up:
afterwards the value of each equation is that of the sum of its contributions at the point and its row is
the gradient of this sum, with one entry per unknown. -/
theorem C109_assemble_partial (cs : List (Nat × Expr)) (r : Res) (m : Option (Merger ℝ))
    (hm : ∀ a, m = some a → ∃ b e, b ≤ e ∧ e < EOL ∧ a = Merger.init b e false)
    (s : Store) (G : Nat → (Nat → ℝ) → ℝ) (x : Nat → ℝ) (hs : Represents s G x)
    (hc : ∀ c ∈ cs, r.Has c.1 ∧ Regular G x c.2) (F : Nat → (Nat → ℝ) → ℝ) (hF : Holds r F x) :
    ∃ r', r.assemble m s cs = some (r', m) ∧ r'.first = r.first ∧ r'.last = r.last ∧
      Holds r' (fun k y => F k y + total G cs k y) x := by
  induction cs generalizing r F with
  | nil =>
    refine ⟨r, rfl, rfl, rfl, ?_⟩
    simpa [total] using hF
  | cons c cs ih =>
    obtain ⟨k, e⟩ := c
    obtain ⟨r1, h1, h2, h3, h4⟩ := add_spec r m hm s G x hs k e (hc (k, e) (by simp)).1 (hc (k, e) (by simp)).2 F hF
    obtain ⟨r2, g1, g2, g3, g4⟩ := ih r1 (fun c hcm => by
      obtain ⟨⟨a1, a2⟩, a3⟩ := hc c (by simp [hcm])
      exact ⟨⟨by omega, by omega⟩, a3⟩) _ h4
    refine ⟨r2, ?_, by omega, by omega, ?_⟩
    · rw [Res.assemble, h1]; exact g1
    · have : (fun (j : Nat) (y : Nat → ℝ) => F j y + total G ((k, e) :: cs) j y) =
          fun j y => (if j = k then F k y + den G e y else F j y) + total G cs j y := by
        funext j y
        unfold total
        by_cases hj : j = k
        · subst hj; simp [add_assoc]
        · have : ¬ k = j := fun h => hj h.symm
          simp [hj, this]
      rw [this]; exact g4

/-- **C109, order.**  The order of the contributions does not matter: values and derivatives are the same. -/
theorem C109_assemble_order (cs cs' : List (Nat × Expr)) (hp : cs.Perm cs') (r : Res) (m m' : Option (Merger ℝ))
    (hm : ∀ a, m = some a → ∃ b e, b ≤ e ∧ e < EOL ∧ a = Merger.init b e false)
    (hm' : ∀ a, m' = some a → ∃ b e, b ≤ e ∧ e < EOL ∧ a = Merger.init b e false)
    (s : Store) (G : Nat → (Nat → ℝ) → ℝ) (x : Nat → ℝ) (hs : Represents s G x)
    (hc : ∀ c ∈ cs, r.Has c.1 ∧ Regular G x c.2) (F : Nat → (Nat → ℝ) → ℝ) (hF : Holds r F x) :
    ∃ r1 r2, r.assemble m s cs = some (r1, m) ∧ r.assemble m' s cs' = some (r2, m') ∧
      ∀ k, r1.res k = r2.res k ∧ ∀ i, getSafe (r1.jac k) i = getSafe (r2.jac k) i := by
  obtain ⟨r1, h1, -, -, h2⟩ := C109_assemble_partial cs r m hm s G x hs hc F hF
  obtain ⟨r2, g1, -, -, g2⟩ := C109_assemble_partial cs' r m' hm' s G x hs
    (fun c hcm => hc c (hp.mem_iff.2 hcm)) F hF
  have ht : ∀ k y, total G cs k y = total G cs' k y := fun k y =>
    ((hp.filter _).map _).sum_eq
  refine ⟨r1, r2, h1, g1, fun k => ⟨?_, fun i => ?_⟩⟩
  · rw [(h2 k).1, (g2 k).1]
    simp only [ht]
  · have d1 := C29_partial_derivatives _ x _ (h2 k).2.1 (h2 k).2.2 i
    have d2 := C29_partial_derivatives _ x _ (g2 k).2.1 (g2 k).2.2 i
    simp only [ht] at d1
    exact d1.unique d2

/-! ### The hypotheses are met -/

/-- Two equations with a Hessian. -/
noncomputable def sample : Res :=
  ⟨3, 5, fun k => k, fun k => if k = 3 then [(0, 3), (7, -4)] else [(1, 2)], 3, 5, fun _ => [(mkIdx 0 1, 1)], 0, 0⟩

example : sample.Fits ∧ sample.Has 3 ∧ 2 ≤ (sample.jac 3).length ∧ (∃ e ∈ sample.jac 3, e.2 ≠ 0) :=
  ⟨Or.inr ⟨by decide, by decide⟩, ⟨by decide, by decide⟩, by simp [sample], ⟨(0, 3), by simp [sample], by norm_num⟩⟩

example : Tile 3 [sample, Res.new 5 5, Res.new 5 9] 9 :=
  ⟨rfl, by decide, rfl, by decide, rfl, by decide, rfl⟩

/-- Contributions to two equations of an empty system at the point `x = (1, 1, ...)`. -/
example : ∃ r', (Res.new 0 2).assemble none (fun _ => ⟨0, []⟩)
      [(0, .mul (.var 1 (some 4)) (.var 1 (some 5))), (1, .var 1 (some 4)), (0, .const 2)] = some (r', none) ∧
    r'.res 0 = 3 := by
  obtain ⟨r', h1, -, -, h2⟩ := C109_assemble_partial
    [(0, .mul (.var 1 (some 4)) (.var 1 (some 5))), (1, .var 1 (some 4)), (0, .const 2)] (Res.new 0 2) none
    (by simp) (fun _ => ⟨0, []⟩) (fun _ _ => 0) (fun _ => 1)
    (fun k => ⟨rfl, fun _ _ _ _ _ => by rw [dot_nil]; exact hasDerivAt_const _ _, by simp [Distinct]⟩)
    (by
      intro c hc
      simp only [List.mem_cons, List.not_mem_nil, or_false] at hc
      rcases hc with rfl | rfl | rfl
      · exact ⟨⟨by decide, by decide⟩, rfl, rfl⟩
      · exact ⟨⟨by decide, by decide⟩, rfl⟩
      · exact ⟨⟨by decide, by decide⟩, trivial⟩)
    (fun _ _ => 0)
    (fun k => ⟨rfl, fun _ _ _ _ _ => by
      change HasDerivAt _ (dot [] _) _
      rw [dot_nil]; exact hasDerivAt_const _ _, by simp [Res.new, Distinct]⟩)
  refine ⟨r', h1, ?_⟩
  rw [(h2 0).1]
  simp [total, den]
  norm_num

end Verif.Residual
