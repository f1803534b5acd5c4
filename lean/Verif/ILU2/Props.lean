import Verif.ILU2.Lemmas
import Mathlib.Tactic.NormNum

/-!
# C54, C55: the ILU2 preconditioner
-/

namespace Verif.ILU2

open Verif.Dense

/-! ### Specification -/

/-- The product of the matrix with a vector, row `k`. -/
noncomputable def mulRow (A : List SRow) (k : Nat) (x : Nat → ℝ) : ℝ := dotl (A[k]?.getD []) x

/-- Every row has at most one entry in a column. -/
def Proper (A : List SRow) : Prop := ∀ row ∈ A, (row.map Prod.fst).Nodup

/-! ### Scaling -/

theorem invert_pos {d : ℝ} (h : 0 ≤ d) : 0 < invert d := by
  unfold invert
  have he : (0 : ℝ) < eps := by unfold eps; positivity
  split
  · norm_num
  · have : 0 < d := by linarith
    positivity

theorem sum_nonneg' {l : List ℝ} (h : ∀ a ∈ l, 0 ≤ a) : 0 ≤ l.sum := List.sum_nonneg h

theorem rowScale_pos {A : List SRow} {DR : Nat → ℝ} (h : ∀ c, 0 ≤ DR c) (k : Nat) : 0 < rowScale A DR k := by
  refine invert_pos (sum_nonneg' ?_)
  intro a ha
  obtain ⟨e, _, rfl⟩ := List.mem_map.mp ha
  exact mul_nonneg (h _) (mul_self_nonneg _)

theorem colScale_pos {A : List SRow} {DL : Nat → ℝ} (h : ∀ c, 0 ≤ DL c) (c : Nat) : 0 < colScale A DL c := by
  refine invert_pos (sum_nonneg' ?_)
  intro a ha
  obtain ⟨k, _, rfl⟩ := List.mem_map.mp ha
  refine sum_nonneg' ?_
  intro a ha
  obtain ⟨e, _, rfl⟩ := List.mem_map.mp ha
  exact mul_nonneg (h _) (mul_self_nonneg _)

theorem scaling_pos (A : List SRow) : ∀ n, (∀ k, 0 < (scaling A n).1 k) ∧ (0 < n → ∀ c, 0 < (scaling A n).2 c) := by
  intro n
  induction n with
  | zero => exact ⟨fun k => rowScale_pos (fun _ => by norm_num) k, fun h => absurd h (Nat.lt_irrefl _)⟩
  | succ n ih =>
    have hc : ∀ c, 0 < colScale A (scaling A n).1 c := colScale_pos (fun c => (ih.1 c).le)
    exact ⟨fun k => rowScale_pos (fun c => (hc c).le) k, fun _ => hc⟩

theorem scales_pos (A : List SRow) {iters : Nat} (h : 0 < iters) : (∀ k, 0 < (scales A iters).1 k) ∧ ∀ c, 0 < (scales A iters).2 c :=
  ⟨fun k => Real.sqrt_pos.mpr ((scaling_pos A iters).1 k), fun c => Real.sqrt_pos.mpr ((scaling_pos A iters).2 h c)⟩

theorem mapM_some {α β : Type} (f : α → Option β) (g : α → β) : ∀ (l : List α), (∀ a ∈ l, f a = some (g a)) → l.mapM f = some (l.map g) := by
  intro l
  induction l with
  | nil => intro _; rfl
  | cons a t ih =>
    intro h
    rw [List.mapM_cons, h a (List.mem_cons_self ..), ih (fun a ha => h a (List.mem_cons_of_mem _ ha))]
    rfl

theorem unscale_scale {D : (Nat → ℝ) × (Nat → ℝ)} (h1 : ∀ k, D.1 k ≠ 0) (h2 : ∀ c, D.2 c ≠ 0) (A : List SRow) : unscaleMat D (scaleMat D A) = some A := by
  have hrow : ∀ k (row : SRow), (scaleRow (D.1 k) D.2 row).mapM (unscaleEntry (D.1 k) D.2) = some row := by
    intro k row
    have := mapM_some (unscaleEntry (D.1 k) D.2) (fun e => (e.1, e.2 / D.1 k / D.2 e.1)) (scaleRow (D.1 k) D.2 row) (by
      intro e _
      simp [unscaleEntry, divOk, h1, h2])
    rw [this]
    congr 1
    rw [scaleRow, List.map_map]
    have : ((fun e : Nat × ℝ => (e.1, e.2 / D.1 k / D.2 e.1)) ∘ fun e : Nat × ℝ => (e.1, D.1 k * e.2 * D.2 e.1)) = id := by
      funext e
      have := h1 k
      have := h2 e.1
      simp only [Function.comp, id]
      refine Prod.ext rfl ?_
      show D.1 k * e.2 * D.2 e.1 / D.1 k / D.2 e.1 = e.2
      field_simp
    rw [this, List.map_id]
  unfold unscaleMat scaleMat
  rw [List.mapIdx_mapIdx]
  have hm : (A.mapIdx fun k row => (scaleRow (D.1 k) D.2 row).mapM (unscaleEntry (D.1 k) D.2)) = A.map some := by
    rw [List.mapIdx_eq_iff]
    intro i
    rw [List.getElem?_map]
    cases A[i]? with
    | none => rfl
    | some row => simp [hrow]
  rw [show (A.mapIdx fun i => (fun row => List.mapM (unscaleEntry (D.1 i) D.2) row) ∘ fun row => scaleRow (D.1 i) D.2 row) = A.map some from hm, List.mapM_map]
  have := mapM_some (id ∘ some) (id : SRow → SRow) A (fun _ _ => rfl)
  rw [this, List.map_id]

/-- **C55.** With at least one iteration of scaling, setting up the preconditioner leaves the matrix unchanged. -/
theorem C55_unchanged {p : Par} {iters : Nat} (hi : 0 < iters) {A B : List SRow} {F : List Fact} (h : setup p iters A = some (F, B)) : B = A := by
  unfold setup at h
  simp only [] at h
  split at h
  · cases h
  · obtain ⟨h1, h2⟩ := scales_pos A hi
    rw [unscale_scale (fun k => (h1 k).ne') (fun c => (h2 c).ne')] at h
    exact ((Prod.mk.inj (Option.some.inj h)).2).symm

theorem maxAbs_nonneg (l : SRow) : 0 ≤ maxAbs l := maxAbs_le l 0

theorem factFrom_defined {p : Par} (h2 : 0 < p.tau2) : ∀ (rows : List SRow) (F : List Fact), Proper rows →
    (∀ j f, F[j]? = some f → Good j f) → ∃ F', factFrom p F rows = some F' := by
  intro rows
  induction rows with
  | nil => intro F _ _; exact ⟨F, rfl⟩
  | cons row rows ih =>
    intro F hr hF
    obtain ⟨ms, v, tail, he, hm, ht⟩ := elim_shape p F F.length (le_refl _) hF (F.length + 1) 0 [] _ (by omega) (start_ok (k := F.length) (hr row (List.mem_cons_self ..)))
    obtain ⟨f, hf⟩ : ∃ f, factRow p F F.length row = some f := by
      rw [factRow, he]
      obtain ⟨d, hd⟩ : ∃ d, scaleOf p (maxAbs ((F.length, v) :: tail)) = some d := by
        unfold scaleOf
        have := maxAbs_nonneg ((F.length, v) :: tail)
        split
        · exact ⟨_, rfl⟩
        · rw [if_neg (by intro h0; linarith)]
          exact ⟨_, rfl⟩
      simp only [compress, hd]
      exact ⟨_, rfl⟩
    rw [factFrom, hf]
    have hg : Good F.length f := by
      rw [factRow, he] at hf
      exact compress_good h2.le (by simpa using hm) ht hf
    exact ih (F ++ [f]) (fun row h => hr row (List.mem_cons_of_mem _ h)) (by
      intro j f' hj
      by_cases hlt : j < F.length
      · rw [List.getElem?_append_left hlt] at hj; exact hF j f' hj
      · rw [List.getElem?_append_right (by omega)] at hj
        by_cases he : j = F.length
        · subst he
          simp at hj
          subst hj
          exact hg
        · rw [List.getElem?_eq_none (by simp; omega)] at hj; cases hj)

theorem proper_scale {D : (Nat → ℝ) × (Nat → ℝ)} {A : List SRow} (h : Proper A) : Proper (scaleMat D A) := by
  intro row hrow
  obtain ⟨i, hi, rfl⟩ := List.mem_mapIdx.mp hrow
  have := h A[i] (List.getElem_mem hi)
  rw [scaleRow, List.map_map]
  exact this

/-- **C55.** With a positive threshold and at least one iteration of scaling the preconditioner can be set up for every matrix, zero rows and zero pivots included. -/
theorem C55_defined {p : Par} (h2 : 0 < p.tau2) {iters : Nat} (hi : 0 < iters) {A : List SRow} (hA : Proper A) : ∃ F, setup p iters A = some (F, A) := by
  obtain ⟨F, hF⟩ := factFrom_defined h2 (scaleMat (scales A iters) A) [] (proper_scale hA) (fun j f h => by simp at h)
  obtain ⟨h1, h2⟩ := scales_pos A hi
  refine ⟨F.mapIdx fun k f => unscaleFact (scales A iters) k f, ?_⟩
  unfold setup
  simp only [hF]
  rw [unscale_scale (fun k => (h1 k).ne') (fun c => (h2 c).ne')]
  rfl

/-- **C55 fails** with `rescale_iterations` equal to zero: the right scaling vector is zero, the matrix is multiplied by it and divided again. -/
theorem C55_no_scaling_fails (p : Par) : setup p 0 [[(0, 1)]] = none := by
  unfold setup
  simp only []
  split
  · rfl
  · have : unscaleMat (scales [[(0, 1)]] 0) (scaleMat (scales [[(0, 1)]] 0) [[(0, 1)]]) = none := by
      have hz : (scales [[(0, 1)]] 0).2 0 = 0 := by simp [scales, scaling]
      simp only [unscaleMat, scaleMat, scaleRow, List.mapIdx_cons, List.mapIdx_nil, List.map_cons, List.map_nil, List.mapM_cons, List.mapM_nil, unscaleEntry, hz, divOk]
      cases hd : (if (scales [[(0, 1)]] 0).1 0 = 0 then none else some ((scales [[(0, 1)]] 0).1 0 * 1 * 0 / (scales [[(0, 1)]] 0).1 0) : Option ℝ) <;> rfl
    rw [this]
    rfl

/-! ### Solve -/

theorem unscale_good {D : (Nat → ℝ) × (Nat → ℝ)} (h1 : ∀ k, D.1 k ≠ 0) (h2 : ∀ c, D.2 c ≠ 0) {k : Nat} {f : Fact} (h : Good k f) : Good k (unscaleFact D k f) where
  l := fun e he => by
    obtain ⟨e', he', rfl⟩ := List.mem_map.mp he
    exact h.l e' he'
  u := fun e he => by
    obtain ⟨e', he', rfl⟩ := List.mem_map.mp he
    exact h.u e' he'
  u2 := h.u2
  ldiag := mul_ne_zero h.ldiag (h1 k)
  udiag := mul_ne_zero h.udiag (h2 k)

/-- The factors of a successful setup. -/
theorem setup_good {p : Par} (h2 : 0 ≤ p.tau2) {iters : Nat} (hi : 0 < iters) {A B : List SRow} (hA : Proper A) {F : List Fact} (h : setup p iters A = some (F, B)) :
    (∀ j f, F[j]? = some f → Good j f) ∧ F.length = A.length := by
  unfold setup at h
  simp only [] at h
  split at h
  · cases h
  · rename_i F0 hF0
    obtain ⟨s1, s2⟩ := scales_pos A hi
    rw [unscale_scale (fun k => (s1 k).ne') (fun c => (s2 c).ne')] at h
    obtain ⟨rfl, _⟩ := Prod.mk.inj (Option.some.inj h)
    obtain ⟨g1, g2, _⟩ := factFrom_good h2 _ [] F0 (proper_scale hA) (fun j f h => by simp at h) hF0
    refine ⟨fun j f hj => ?_, ?_⟩
    · rw [List.getElem?_mapIdx] at hj
      cases hf : F0[j]? with
      | none => rw [hf] at hj; cases hj
      | some f0 =>
        rw [hf] at hj
        obtain rfl := Option.some.inj hj
        exact unscale_good (fun k => (s1 k).ne') (fun c => (s2 c).ne') (g1 j f0 hf)
    · rw [List.length_mapIdx, g2]
      simp [scaleMat]

/-- **C54.** Whatever the thresholds are, `Solve` solves the two triangular systems exactly: for the vector `y` between the two loops `L y = b` and `U x = y`. -/
theorem C54_triangular {p : Par} (h2 : 0 ≤ p.tau2) {iters : Nat} (hi : 0 < iters) {A B : List SRow} (hA : Proper A) {F : List Fact} (h : setup p iters A = some (F, B))
    (b : Nat → ℝ) : ∃ y, (∀ k f, F[k]? = some f → dotl f.l y + y k / f.ldiag = b k)
      ∧ (∀ k f, F[k]? = some f → solve F b k / f.udiag + dotl f.u (solve F b) = y k) := by
  obtain ⟨hg, _⟩ := setup_good h2 hi hA h
  refine ⟨forRange 0 F.length (forwardRow F) (fun k => if k < F.length then b k else 0), fun k f hf => ?_, (backward_ok F hg _).1⟩
  have := (forward_ok F hg (fun k => if k < F.length then b k else 0)).1 k f hf
  simp only [if_pos (List.getElem?_eq_some_iff.mp hf).1] at this
  exact this

theorem dotl_scale (d : ℝ) (DR : Nat → ℝ) (row : SRow) (x : Nat → ℝ) : dotl (scaleRow d DR row) x = d * dotl row (fun c => DR c * x c) := by
  unfold scaleRow
  induction row with
  | nil => simp
  | cons e t ih => rw [List.map_cons, dotl_cons, dotl_cons, ih]; ring

theorem dotl_div (l : SRow) (c : ℝ) (x : Nat → ℝ) : dotl (l.map fun e => (e.1, e.2 / c)) x = dotl l x / c := by
  induction l with
  | nil => simp
  | cons e t ih => rw [List.map_cons, dotl_cons, dotl_cons, ih]; ring

theorem dotl_divs (l : SRow) (d : Nat → ℝ) (x : Nat → ℝ) : dotl (l.map fun e => (e.1, e.2 / d e.1)) x = dotl l (fun c => x c / d c) := by
  induction l with
  | nil => simp
  | cons e t ih => rw [List.map_cons, dotl_cons, dotl_cons, ih]; ring

/-- **C54.** Without dropping (both thresholds zero), if no pivot was replaced and no scaled entry was neglected, `Solve` returns the solution of the system: the preconditioner is
the inverse of the matrix. -/
theorem C54_exact {p : Par} (h0 : p.tau = 0) (h2 : p.tau2 = 0) {iters : Nat} (hi : 0 < iters) {A B : List SRow} (hA : Proper A) {F : List Fact}
    (h : setup p iters A = some (F, B)) (hp : ∀ f ∈ F, f.small = false) (ht : ∀ row ∈ scaleMat (scales A iters) A, NotTiny row)
    (b : Nat → ℝ) {k : Nat} (hk : k < A.length) : mulRow A k (solve F b) = b k := by
  obtain ⟨y, hl, hu⟩ := C54_triangular h2.ge hi hA h b
  have hsg := setup_good h2.ge hi hA h
  unfold setup at h
  simp only [] at h
  split at h
  · cases h
  · rename_i F0 hF0
    obtain ⟨s1, s2⟩ := scales_pos A hi
    rw [unscale_scale (fun k => (s1 k).ne') (fun c => (s2 c).ne')] at h
    obtain ⟨hF, _⟩ := Prod.mk.inj (Option.some.inj h)
    have hFj : ∀ j : Nat, F[j]? = F0[j]?.map (unscaleFact (scales A iters) j) := by
      intro j
      rw [← hF, List.getElem?_mapIdx]
    have hlen : F0.length = A.length := by rw [← hsg.2, ← hF, List.length_mapIdx]
    have hp0 : ∀ f ∈ F0, f.small = false := by
      intro f hf
      obtain ⟨j, hj, rfl⟩ := List.getElem_of_mem hf
      have hj' : F[j]? = some (unscaleFact (scales A iters) j F0[j]) := by rw [hFj, List.getElem?_eq_getElem hj]; rfl
      have := hp _ (List.mem_of_getElem? hj')
      exact this
    have hex := factFrom_exact h0 h2 (scaleMat (scales A iters) A) [] F0 (proper_scale hA) ht (fun j f h => by simp at h) hF0 hp0
    have hk0 : k < F0.length := by omega
    have hrow : (scaleMat (scales A iters) A)[k]? = some (scaleRow ((scales A iters).1 k) (scales A iters).2 A[k]) := by
      rw [scaleMat, List.getElem?_mapIdx, List.getElem?_eq_getElem hk]
      rfl
    have hfk : F0[0 + k]? = some F0[k] := by rw [Nat.zero_add, List.getElem?_eq_getElem hk0]
    have hex := hex k _ _ hrow hfk (fun c => solve F b c / (scales A iters).2 c)
    simp only [List.length_nil, Nat.zero_add] at hex
    rw [dotl_scale] at hex
    have hx : (fun c => (scales A iters).2 c * (solve F b c / (scales A iters).2 c)) = solve F b := by
      funext c
      have := (s2 c).ne'
      field_simp
    rw [hx] at hex
    -- rows of U
    have huF : ∀ j f0, F0[j]? = some f0 → uval f0 j (fun c => solve F b c / (scales A iters).2 c) = y j := by
      intro j f0 hj
      have := hu j _ (by rw [hFj, hj]; rfl)
      rw [← this]
      simp only [uval, unscaleFact, dotl_divs]
      rw [mul_comm f0.udiag, div_mul_eq_div_div]
    have huA : ∀ e ∈ F0[k].l, uAt F0 e.1 (fun c => solve F b c / (scales A iters).2 c) = y e.1 := by
      intro e he
      have hg := (factFrom_good h2.ge _ [] F0 (proper_scale hA) (fun j f h => by simp at h) hF0).1
      have hlt : e.1 < F0.length := Nat.lt_trans ((hg k _ (List.getElem?_eq_getElem hk0)).l e he) hk0
      rw [uAt, List.getElem?_eq_getElem hlt]
      exact huF _ _ (List.getElem?_eq_getElem hlt)
    rw [huF k _ (List.getElem?_eq_getElem hk0)] at hex
    have hsum : (F0[k].l.map fun e => e.2 * uAt F0 e.1 (fun c => solve F b c / (scales A iters).2 c)).sum = dotl F0[k].l y := by
      refine congrArg List.sum (List.map_congr_left ?_)
      intro e he
      rw [huA e he]
    rw [hsum] at hex
    have hlk := hl k (unscaleFact (scales A iters) k F0[k]) (by rw [hFj, List.getElem?_eq_getElem hk0]; rfl)
    simp only [unscaleFact, dotl_div] at hlk
    have hd := (s1 k).ne'
    have hld : F0[k].ldiag ≠ 0 := ((factFrom_good h2.ge _ [] F0 (proper_scale hA) (fun j f h => by simp at h) hF0).1 k _ (List.getElem?_eq_getElem hk0)).ldiag
    rw [mulRow, List.getElem?_eq_getElem hk, Option.getD_some, ← hlk]
    have e1 : dotl A[k] (solve F b) = (dotl F0[k].l y + y k / F0[k].ldiag) / (scales A iters).1 k := by
      rw [← hex]; field_simp
    rw [e1]
    field_simp

/-- The matrix of the example. -/
def sample : List SRow := [[(0, 1), (1, 1)], [(0, 1), (1, -1)]]

theorem eps_lt (a : ℝ) (h : 1 / 4 < a) : ¬ a < eps := by
  have : eps < 1 / 4 := by unfold eps; norm_num
  linarith

theorem eps_pos : (0 : ℝ) < eps := by unfold eps; positivity

theorem sample_row : rowScale sample (fun _ => 1) = fun k => if k < 2 then 1 / 2 else 1 := by
  funext k
  match k with
  | 0 => norm_num [rowScale, sumSq, sample, invert, eps_lt]
  | 1 => norm_num [rowScale, sumSq, sample, invert, eps_lt]
  | k + 2 => simp [rowScale, sumSq, sample, invert, eps_pos]

theorem sample_col : colScale sample (fun k => if k < 2 then 1 / 2 else 1) = fun _ => 1 := by
  funext k
  match k with
  | 0 => norm_num [colScale, sample, invert, eps_lt, List.range_succ]
  | 1 => norm_num [colScale, sample, invert, eps_lt, List.range_succ]
  | k + 2 => simp [colScale, sample, invert, eps_pos, List.range_succ]

theorem sample_scales : scales sample 1 = (fun k => if k < 2 then Real.sqrt (1 / 2) else 1, fun _ => 1) := by
  have h1 : scaling sample 1 = (fun k => if k < 2 then 1 / 2 else 1, fun _ => 1) := by
    rw [scaling, scaling]
    simp only [sample_row, sample_col]
  rw [scales, h1]
  refine Prod.ext ?_ ?_
  · funext k
    simp only []
    split
    · rfl
    · simp
  · funext c
    simp

theorem sample_mat : scaleMat (scales sample 1) sample = [[(0, Real.sqrt (1 / 2)), (1, Real.sqrt (1 / 2))], [(0, Real.sqrt (1 / 2)), (1, -Real.sqrt (1 / 2))]] := by
  rw [sample_scales]
  simp [scaleMat, scaleRow, sample]

/-- The scaled matrix of the example is factored without changes of pivots. -/
theorem sample_fact (s : ℝ) (hs : 1 / 2 < s) : ∃ f g, factFrom ⟨0, 0⟩ [] [[(0, s), (1, s)], [(0, s), (1, -s)]] = some [f, g] ∧ f.small = false ∧ g.small = false := by
  have hpos : 0 < s := by linarith
  have habs : |s| = s := abs_of_pos hpos
  have heps : eps < s := by
    have : eps < 1 / 2 := by unfold eps; norm_num
    linarith
  have hst : ∀ (k : Nat) (t : ℝ), |t| = s → start k [(0, s), (1, t)] = add k 0 [(0, s), (1, t)] := by
    intro k t ht
    unfold start
    rw [List.filter_eq_self.mpr (by
      intro e he
      simp only [List.mem_cons, List.not_mem_nil, or_false] at he
      rcases he with rfl | rfl
      · simpa [habs] using heps
      · simpa [ht] using heps)]
    rw [List.mergeSort_of_pairwise]
    simp
  have htol : tolModif < 1 := by unfold tolModif; norm_num
  have h1 : (s * (1 / s)) = 1 := by field_simp
  have r0 : ∃ f, factRow ⟨0, 0⟩ [] 0 [(0, s), (1, s)] = some f ∧ f.small = false ∧ f.udiag = 1 ∧ f.u = [(1, 1)] ∧ f.u2 = [] := by
    rw [factRow, hst 0 s habs]
    simp only [add, if_true, elim, Nat.lt_irrefl, if_false]
    have hmx : maxAbs [(0, s), (1, s)] = s := by simp [maxAbs, habs, hpos.le]
    have hsc : scaleOf ⟨0, 0⟩ s = some (1 / s) := by
      unfold scaleOf
      rw [if_neg (by linarith), if_neg hpos.ne']
    simp only [compress, add_zero, hmx, hsc, h1, List.map_cons, List.map_nil]
    refine ⟨_, rfl, ?_, ?_, ?_, ?_⟩
    · simp [htol]
    · simp [htol]
    · simp
    · simp
  obtain ⟨f, hf, f1, f2, f3, f4⟩ := r0
  have r1 : ∃ g, factRow ⟨0, 0⟩ [f] 1 [(0, s), (1, -s)] = some g ∧ g.small = false := by
    rw [factRow, hst 1 (-s) (by rw [abs_neg, habs])]
    have ha : add 1 0 [(0, s), (1, -s)] = [(0, s), (1, -s)] := by simp [add]
    rw [ha]
    have he : elim ⟨0, 0⟩ [f] 1 (1 + 1) [] [(0, s), (1, -s)] = some ([(0, s)], [(1, -s + -s * 1)]) := by
      simp [elim, f2, f3, f4, subRow, add, hpos.ne']
    rw [he]
    have hmx : maxAbs [(1, -s + -s * 1)] = 2 * s := by
      simp only [maxAbs, List.foldl_cons, List.foldl_nil]
      rw [show -s + -s * 1 = -(2 * s) by ring, abs_neg, abs_of_pos (by linarith), max_eq_right (by linarith)]
    have hsc : scaleOf ⟨0, 0⟩ (2 * s) = some (1 / (2 * s)) := by
      unfold scaleOf
      rw [if_neg (by linarith), if_neg (by linarith)]
    simp only [compress, hmx, hsc]
    refine ⟨_, rfl, ?_⟩
    have : (-s + -s * 1) * (1 / (2 * s)) = -1 := by field_simp; ring
    simp only [this, abs_neg, abs_one]
    simp [htol]
  obtain ⟨g, hg, g1⟩ := r1
  refine ⟨f, g, ?_, f1, g1⟩
  rw [factFrom]
  simp only [List.length_nil, hf]
  rw [factFrom]
  simp only [List.nil_append, List.length_cons, List.length_nil, Nat.zero_add, hg]
  rfl

/-- The hypotheses of `C54_exact` hold for the matrix `1 1 / 1 -1`. -/
example : Proper sample ∧ ∃ F B, setup ⟨0, 0⟩ 1 sample = some (F, B) ∧ (∀ f ∈ F, f.small = false) ∧ (∀ row ∈ scaleMat (scales sample 1) sample, NotTiny row) := by
  have hs : 1 / 2 < Real.sqrt (1 / 2) := Real.lt_sqrt_of_sq_lt (by norm_num)
  refine ⟨?_, ?_⟩
  · intro row hrow
    simp only [sample, List.mem_cons, List.not_mem_nil, or_false] at hrow
    rcases hrow with rfl | rfl <;> simp
  · obtain ⟨f, g, hfg, h1, h2⟩ := sample_fact _ hs
    rw [← sample_mat] at hfg
    obtain ⟨s1, s2⟩ := scales_pos sample Nat.one_pos
    refine ⟨[f, g].mapIdx fun k f => unscaleFact (scales sample 1) k f, sample, ?_, ?_, ?_⟩
    · unfold setup
      simp only [hfg]
      rw [unscale_scale (fun k => (s1 k).ne') (fun c => (s2 c).ne')]
      rfl
    · intro f' hf'
      simp only [List.mapIdx_cons, List.mapIdx_nil, List.mem_cons, List.not_mem_nil, or_false] at hf'
      rcases hf' with rfl | rfl
      · exact h1
      · exact h2
    · rw [sample_mat]
      have he : eps < Real.sqrt (1 / 2) := by
        have : eps < 1 / 2 := by unfold eps; norm_num
        linarith
      have ha : |Real.sqrt (1 / 2)| = Real.sqrt (1 / 2) := abs_of_pos (by linarith)
      intro row hrow e he'
      right
      simp only [List.mem_cons, List.not_mem_nil, or_false] at hrow
      rcases hrow with rfl | rfl <;> simp only [List.mem_cons, List.not_mem_nil, or_false] at he' <;> rcases he' with rfl | rfl
      · rw [ha]; exact he
      · rw [ha]; exact he
      · rw [ha]; exact he
      · rw [abs_neg, ha]; exact he

/-! ### Linearity -/

theorem updV_lin (a : ℝ) (x z : Nat → ℝ) (k : Nat) (v w : ℝ) :
    updV (fun i => a * x i + z i) k (a * v + w) = fun i => a * updV x k v i + updV z k w i := by
  funext i
  simp only [updV]
  split <;> rfl

theorem foldl_lin (a : ℝ) (k : Nat) : ∀ (l : SRow) (x z : Nat → ℝ),
    l.foldl (fun x e => updV x k (x k - e.2 * x e.1)) (fun i => a * x i + z i)
      = fun i => a * l.foldl (fun x e => updV x k (x k - e.2 * x e.1)) x i + l.foldl (fun x e => updV x k (x k - e.2 * x e.1)) z i := by
  intro l
  induction l with
  | nil => intro x z; rfl
  | cons e t ih =>
    intro x z
    simp only [List.foldl_cons]
    have : (a * x k + z k - e.2 * (a * x e.1 + z e.1)) = a * (x k - e.2 * x e.1) + (z k - e.2 * z e.1) := by ring
    rw [this, updV_lin, ih]

theorem forwardRow_lin (F : List Fact) (a : ℝ) (k : Nat) (x z : Nat → ℝ) :
    forwardRow F k (fun i => a * x i + z i) = fun i => a * forwardRow F k x i + forwardRow F k z i := by
  unfold forwardRow
  cases F[k]? with
  | none => rfl
  | some f =>
    simp only [foldl_lin]
    rw [← updV_lin]
    congr 1
    ring

theorem backwardRow_lin (F : List Fact) (a : ℝ) (k : Nat) (x z : Nat → ℝ) :
    backwardRow F k (fun i => a * x i + z i) = fun i => a * backwardRow F k x i + backwardRow F k z i := by
  unfold backwardRow
  cases F[k]? with
  | none => rfl
  | some f =>
    simp only [foldl_lin]
    rw [← updV_lin]
    congr 1
    ring

theorem forUp_lin {g : Nat → (Nat → ℝ) → Nat → ℝ} {a : ℝ} (hg : ∀ k x z, g k (fun i => a * x i + z i) = fun i => a * g k x i + g k z i) :
    ∀ (n s : Nat) (x z : Nat → ℝ), forUp g s n (fun i => a * x i + z i) = fun i => a * forUp g s n x i + forUp g s n z i := by
  intro n
  induction n with
  | zero => intro s x z; rfl
  | succ n ih => intro s x z; rw [forUp, hg, ih]; rfl

theorem forDown_lin {g : Nat → (Nat → ℝ) → Nat → ℝ} {a : ℝ} (hg : ∀ k x z, g k (fun i => a * x i + z i) = fun i => a * g k x i + g k z i) :
    ∀ (n : Nat) (x z : Nat → ℝ), forDown g n (fun i => a * x i + z i) = fun i => a * forDown g n x i + forDown g n z i := by
  intro n
  induction n with
  | zero => intro x z; rfl
  | succ n ih => intro x z; rw [forDown, hg, ih]; rfl

/-- **C54.** For all factors the preconditioner is linear, as BiCGStab(l) requires. -/
theorem C54_linear (F : List Fact) (a : ℝ) (b c : Nat → ℝ) : solve F (fun k => a * b k + c k) = fun k => a * solve F b k + solve F c k := by
  unfold solve
  simp only []
  have : (fun k => if k < F.length then a * b k + c k else 0)
      = fun k => a * (if k < F.length then b k else 0) + (if k < F.length then c k else 0) := by
    funext k
    split
    · rfl
    · ring
  rw [this, forRange, forUp_lin (forwardRow_lin F a), forDown_lin (backwardRow_lin F a)]
  rfl

end Verif.ILU2
