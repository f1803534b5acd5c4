import Verif.Dense.SolveLemmas
import Mathlib.LinearAlgebra.Matrix.Rank
import Mathlib.Algebra.Order.Ring.Rat
import Mathlib.Tactic.NormNum

/-!
# C36: `Solve` returns a solution of the normal equations
-/

namespace Verif.Dense

open Finset

variable {K : Type} [Field K] [LinearOrder K]

/-- `X` (m by l) solves the normal equations `A^T A X = A^T B` for `A` (n by m) and `B` (n by l). -/
def NormalEq (n m l : Nat) (A B X : Nat → Nat → K) : Prop :=
  ∀ r k, r < m → k < l → ∑ j ∈ range m, (∑ q ∈ range n, A q r * A q j) * X j k = ∑ q ∈ range n, A q r * B q k

/-- `A X = B`. -/
def Solves (n m l : Nat) (A B X : Nat → Nat → K) : Prop :=
  ∀ r k, r < n → k < l → ∑ j ∈ range m, A r j * X j k = B r k

/-- Every pivot is zero or at least the threshold 1e-54 of the code. -/
def PivotsOk (ps : List K) : Prop := ∀ p ∈ ps, p = 0 ∨ 1 / 10 ^ 54 ≤ |p|

/-- What the elimination keeps: `order` is a permutation; solutions of the transformed system solve the original one; the system is
solvable or the rest of it is zero. -/
structure EInv (m l : Nat) (M0 R0 : Nat → Nat → K) (i : Nat) (s : St K) : Prop where
  perm : ∃ σ : Equiv.Perm Nat, (∀ j, s.order j = σ j) ∧ ∀ j, j < m ↔ σ j < m
  sound : ∀ k, k < l → ∀ X : Nat → K, Sol m i s.M (fun r => s.R r k) (fun r => X (s.order r)) →
    ∀ r, r < m → ∑ j ∈ range m, M0 r j * X j = R0 r k
  cons : (∀ k, k < l → ∃ x, Sol m i s.M (fun r => s.R r k) x) ∨
    ((∀ r c, i ≤ r → r < m → i ≤ c → c < m → s.M r c = 0) ∧ ∀ k, k < l → ∀ r, i ≤ r → r < m → s.R r k = 0)

theorem swapRows_self (w a : Nat) (M : Nat → Nat → K) : swapRows w a a M = M := by
  funext r c; rw [swapRows_eq, Equiv.swap_self]; simp

theorem swapCols_self (w a : Nat) (M : Nat → Nat → K) : swapCols w a a M = M := by
  funext r c; rw [swapCols_eq, Equiv.swap_self]; simp

theorem swapOrder_self (a : Nat) (o : Nat → Nat) : swapOrder a a o = o := by
  funext r; rw [swapOrder_eq, Equiv.swap_self]; simp

theorem pivoting_eq (m l i : Nat) (s : St K) : pivoting m l i s =
    ⟨swapCols m (findPivot m i s.M).2.2 i (swapRows m (findPivot m i s.M).2.1 i s.M), swapRows l (findPivot m i s.M).2.1 i s.R,
      swapOrder (findPivot m i s.M).2.2 i s.order, s.pivots⟩ := by
  unfold pivoting
  simp only
  by_cases h1 : (findPivot m i s.M).2.1 = i
  · by_cases h2 : (findPivot m i s.M).2.2 = i
    · simp [h1, h2, swapRows_self, swapCols_self, swapOrder_self]
    · simp [h1, h2, swapRows_self]
  · by_cases h2 : (findPivot m i s.M).2.2 = i
    · simp [h1, h2, swapCols_self, swapOrder_self]
    · simp [h1, h2]

theorem pivoting_spec (m l i : Nat) (hi : i < m) (M0 R0 : Nat → Nat → K) (s : St K) (h : EInv m l M0 R0 i s) :
    EInv m l M0 R0 i (pivoting m l i s) ∧ (pivoting m l i s).pivots = s.pivots ∧
      ∀ r c, i ≤ r → r < m → i ≤ c → c < m → |(pivoting m l i s).M r c| ≤ |(pivoting m l i s).M i i| := by
  obtain ⟨p1, p2, p3, p4, p5, p6⟩ := findPivot_spec m i hi s.M
  rw [pivoting_eq]
  generalize hk : (findPivot m i s.M).2.1 = mk at *
  generalize hq : (findPivot m i s.M).2.2 = mq at *
  have hM : ∀ r c, r < m → c < m → swapCols m mq i (swapRows m mk i s.M) r c = s.M (Equiv.swap mk i r) (Equiv.swap mq i c) := by
    intro r c hr hc
    rw [swapCols_eq, if_pos hr, swapRows_eq, if_pos]
    have := (swap_mem_Ico mq i 0 m c (Nat.zero_le _) p4 (Nat.zero_le _) hi).1 (mem_Ico.2 ⟨Nat.zero_le _, hc⟩)
    exact (mem_Ico.1 this).2
  have hrange : ∀ a r, i ≤ a → a < m → i ≤ r → r < m → i ≤ Equiv.swap a i r ∧ Equiv.swap a i r < m := by
    intro a r h1 h2 h3 h4
    exact mem_Ico.1 ((swap_mem_Ico a i i m r h1 h2 (le_refl i) hi).1 (mem_Ico.2 ⟨h3, h4⟩))
  have hsol : ∀ k, k < l → ∀ x : Nat → K, Sol m i (swapCols m mq i (swapRows m mk i s.M)) (fun r => swapRows l mk i s.R r k)
      (fun r => x (Equiv.swap mq i r)) ↔ Sol m i s.M (fun r => s.R r k) x := by
    intro k hk x
    rw [sol_swapCols m i mq hi p3 p4, sol_swapRows m l i mk k hi p1 p2 hk]
  refine ⟨⟨?_, ?_, ?_⟩, rfl, ?_⟩
  · obtain ⟨σ, h1, h2⟩ := h.perm
    refine ⟨(Equiv.swap mq i).trans σ, fun j => ?_, fun j => ?_⟩
    · simp only [Equiv.trans_apply]; rw [swapOrder_eq, h1]
    · simp only [Equiv.trans_apply]
      rw [← h2]
      have := swap_mem_Ico mq i 0 m j (Nat.zero_le _) p4 (Nat.zero_le _) hi
      simpa using this
  · intro k hk X hX
    simp only at hX
    refine h.sound k hk X ?_
    rw [← hsol k hk]
    simpa only [swapOrder_eq] using hX
  · rcases h.cons with hc | ⟨hc1, hc2⟩
    · left
      intro k hk
      obtain ⟨x, hx⟩ := hc k hk
      exact ⟨_, (hsol k hk x).2 hx⟩
    · right
      refine ⟨fun r c h1 h2 h3 h4 => ?_, fun k hk r h1 h2 => ?_⟩
      · simp only
        rw [hM r c h2 h4]
        have ⟨a, b⟩ := hrange mk r p1 p2 h1 h2
        have ⟨c', d⟩ := hrange mq c p3 p4 h3 h4
        exact hc1 _ _ a b c' d
      · simp only
        rw [swapRows_eq, if_pos hk]
        have ⟨a, b⟩ := hrange mk r p1 p2 h1 h2
        exact hc2 k hk _ a b
  · intro r c h1 h2 h3 h4
    simp only
    rw [hM r c h2 h4, hM i i hi hi, Equiv.swap_apply_right, Equiv.swap_apply_right, ← p5]
    have ⟨a, b⟩ := hrange mk r p1 p2 h1 h2
    have ⟨c', d⟩ := hrange mq c p3 p4 h3 h4
    exact p6 _ _ a b c' d

variable [IsStrictOrderedRing K]

theorem eps54_pos : (0 : K) < eps54 := by unfold eps54; positivity

theorem eps12_ne (p : K) : (if p < 0 then -eps12 else eps12 : K) ≠ 0 := by
  have : (0 : K) < eps12 := by unfold eps12; positivity
  split
  · exact neg_ne_zero.2 (ne_of_gt this)
  · exact ne_of_gt this

theorem elimStep_spec (m l i : Nat) (hi : i < m) (M0 R0 : Nat → Nat → K) (s : St K) (h : EInv m l M0 R0 i s) :
    ∃ p, (∀ ps, elimStep m l i s = .error ps → ps = p :: s.pivots ∧ ¬(p = 0 ∨ 1 / 10 ^ 54 ≤ |p|)) ∧
      (∀ s', elimStep m l i s = .ok s' → s'.pivots = p :: s.pivots ∧ (p = 0 ∨ 1 / 10 ^ 54 ≤ |p| → EInv m l M0 R0 (i + 1) s')) := by
  obtain ⟨hinv, hps, hmax⟩ := pivoting_spec m l i hi M0 R0 s h
  unfold elimStep
  generalize pivoting m l i s = t at hinv hps hmax ⊢
  refine ⟨t.M i i, ?_, ?_⟩
  all_goals unfold checkPivot; simp only
  · intro ps hps'
    by_cases hsm : |t.M i i| < eps54
    · rw [if_pos hsm] at hps'
      split at hps'
      · rename_i hh
        split at hh
        · cases hh
        · rename_i hno
          cases hh
          simp only [Except.error.injEq] at hps'
          refine ⟨by rw [← hps', hps], ?_⟩
          rintro (hp | hp)
          · apply hno
            have hz : ∀ r c, i ≤ r → r < m → i ≤ c → c < m → t.M r c = 0 := by
              intro r c h1 h2 h3 h4
              have := hmax r c h1 h2 h3 h4
              rw [hp, abs_zero] at this
              exact abs_nonpos_iff.1 this
            have hb : ∀ k, k < l → t.R i k = 0 := by
              intro k hk
              rcases hinv.cons with hc | ⟨_, hc⟩
              · obtain ⟨x, hx⟩ := hc k hk
                have := hx.2 i (le_refl i) hi
                simp only at this
                rw [← this]
                apply sum_eq_zero
                intro j hj
                rw [mem_Ico] at hj
                rw [hz i j (le_refl i) hi hj.1 hj.2, zero_mul]
              · exact hc k hk i (le_refl i) hi
            refine forRange_rule (fun _ ok => ok = true) 0 l (Nat.zero_le _) _ true rfl ?_
            intro k ok _ hk hok
            rw [hok, hb k hk]
            simp
          · unfold eps54 at hsm
            exact absurd hsm (not_lt.2 hp)
      · cases hps'
    · rw [if_neg hsm] at hps'
      cases hps'
  · intro s' hs'
    by_cases hsm : |t.M i i| < eps54
    · rw [if_pos hsm] at hs'
      split at hs'
      · cases hs'
      · rename_i s1 hh
        split at hh
        · cases hh
          cases hs'
          refine ⟨by rw [hps], fun hp => ?_⟩
          rcases hp with hp | hp
          · have hz : ∀ r c, i ≤ r → r < m → i ≤ c → c < m → t.M r c = 0 := by
              intro r c h1 h2 h3 h4
              have := hmax r c h1 h2 h3 h4
              rw [hp, abs_zero] at this
              exact abs_nonpos_iff.1 this
            have hb : ∀ k, k < l → ∀ r, i ≤ r → r < m → t.R r k = 0 := by
              intro k hk r hr hr'
              rcases hinv.cons with hc | ⟨_, hc⟩
              · obtain ⟨x, hx⟩ := hc k hk
                have := hx.2 r hr hr'
                simp only at this
                rw [← this]
                apply sum_eq_zero
                intro j hj
                rw [mem_Ico] at hj
                rw [hz r j hr hr' hj.1 hj.2, zero_mul]
              · exact hc k hk r hr hr'
            refine ⟨hinv.perm, fun k hk X hX => hinv.sound k hk X ?_, Or.inr ⟨?_, fun k hk => ?_⟩⟩
            · exact (sol_zero m l i k hi hk t.M t.R _ (eps12_ne _) hz (hb k hk)).1 _ hX
            · intro r c h1 h2 h3 h4
              have hd := eps12_ne (t.M i i)
              have hdd : upd t.M i i (if t.M i i < 0 then -eps12 else eps12) i i = (if t.M i i < 0 then -eps12 else eps12) := by
                simp [upd]
              show elimM m i (divide m i (upd t.M i i (if t.M i i < 0 then -eps12 else eps12))) r c = 0
              rw [elim_eq m i hi _ (by rw [hdd]; exact hd), if_neg (by omega), if_neg (by omega), if_pos (by omega)]
              have hne : ∀ r c, ¬(r = i ∧ c = i) → upd t.M i i (if t.M i i < 0 then -eps12 else eps12) r c = t.M r c :=
                fun r c h => by simp [upd, h]
              rw [hne r c (by omega), hne r i (by omega), hz r c (by omega) h2 (by omega) h4, hz r i (by omega) h2 (le_refl i) hi]
              simp
            · exact (sol_zero m l i k hi hk t.M t.R _ (eps12_ne _) hz (hb k hk)).2.2
          · unfold eps54 at hsm
            exact absurd hsm (not_lt.2 hp)
        · cases hh
    · rw [if_neg hsm] at hs'
      simp only [Except.ok.injEq] at hs'
      subst hs'
      have hne : t.M i i ≠ 0 := by
        intro h0
        apply hsm
        rw [h0, abs_zero]
        exact eps54_pos
      refine ⟨by rw [hps], fun _ => ⟨hinv.perm, fun k hk X hX => hinv.sound k hk X ?_, ?_⟩⟩
      · exact (sol_elim m l i k hi hk t.M t.R hne _).1 hX
      · left
        intro k hk
        rcases hinv.cons with hc | ⟨hc, _⟩
        · obtain ⟨x, hx⟩ := hc k hk
          exact ⟨x, (sol_elim m l i k hi hk t.M t.R hne x).2 hx⟩
        · exact absurd (hc i i (le_refl i) hi (le_refl i) hi) hne

theorem elimLoop_spec (m l i n : Nat) (hin : i + n = m) (M0 R0 : Nat → Nat → K) (s : St K) (hg : PivotsOk s.pivots)
    (h : EInv m l M0 R0 i s) :
    (∀ e ps, elimLoop m l i n s = .error (e, ps) → ¬ PivotsOk ps) ∧
    (∀ s', elimLoop m l i n s = .ok s' → PivotsOk s'.pivots → EInv m l M0 R0 m s') := by
  have suffix : ∀ n i (s : St K), (∀ e ps, elimLoop m l i n s = .error (e, ps) → s.pivots <:+ ps) ∧
      ∀ s', elimLoop m l i n s = .ok s' → s.pivots <:+ s'.pivots := by
    intro n
    induction n with
    | zero => intro i s; exact ⟨fun e ps he => (by cases he), fun s' hs' => (by cases hs'; exact List.suffix_refl _)⟩
    | succ n ih =>
      intro i s
      have hpp : (pivoting m l i s).pivots = s.pivots := by rw [pivoting_eq]
      have hst : (∀ ps, elimStep m l i s = .error ps → s.pivots <:+ ps) ∧
          ∀ s', elimStep m l i s = .ok s' → s.pivots <:+ s'.pivots := by
        unfold elimStep checkPivot
        simp only [hpp]
        constructor
        · intro ps hps
          by_cases hsm : |(pivoting m l i s).M i i| < eps54
          · rw [if_pos hsm] at hps
            split at hps
            · rename_i hh
              split at hh
              · cases hh
              · cases hh; cases hps; exact List.suffix_cons _ _
            · cases hps
          · rw [if_neg hsm] at hps; cases hps
        · intro s' hs'
          by_cases hsm : |(pivoting m l i s).M i i| < eps54
          · rw [if_pos hsm] at hs'
            split at hs'
            · cases hs'
            · rename_i hh
              split at hh
              · cases hh; cases hs'; exact List.suffix_cons _ _
              · cases hh
          · rw [if_neg hsm] at hs'; cases hs'; exact List.suffix_cons _ _
      rw [elimLoop]
      cases he : elimStep m l i s with
      | error ps => exact ⟨fun e ps' h => (by cases h; exact hst.1 _ he), fun s' h => (by cases h)⟩
      | ok s1 =>
        have := hst.2 _ he
        exact ⟨fun e ps' h => this.trans ((ih (i + 1) s1).1 e ps' h), fun s' h => this.trans ((ih (i + 1) s1).2 s' h)⟩
  induction n generalizing i s with
  | zero =>
    have : i = m := by omega
    subst this
    exact ⟨fun e ps he => (by cases he), fun s' hs' _ => (by cases hs'; exact h)⟩
  | succ n ih =>
    obtain ⟨p, h1, h2⟩ := elimStep_spec m l i (by omega) M0 R0 s h
    have hsuf := suffix n (i + 1)
    rw [elimLoop]
    cases he : elimStep m l i s with
    | error ps =>
      refine ⟨fun e ps' h' hok => ?_, fun s' h' => by cases h'⟩
      cases h'
      obtain ⟨rfl, hn⟩ := h1 _ he
      exact hn (hok p (by simp))
    | ok s1 =>
      obtain ⟨hp1, hp2⟩ := h2 _ he
      by_cases hp : p = 0 ∨ 1 / 10 ^ 54 ≤ |p|
      · have hg1 : PivotsOk s1.pivots := by
          intro q hq
          rw [hp1] at hq
          rcases List.mem_cons.1 hq with rfl | hq
          · exact hp
          · exact hg q hq
        exact ih (i + 1) (by omega) s1 hg1 (hp2 hp)
      · have hbad : ∀ ps, s1.pivots <:+ ps → ¬ PivotsOk ps := by
          intro ps hs hok
          exact hp (hok p (hs.subset (by rw [hp1]; simp)))
        exact ⟨fun e ps h' => hbad ps ((hsuf s1).1 e ps h'), fun s' h' hok => absurd hok (hbad _ ((hsuf s1).2 s' h'))⟩

theorem backSubst_spec (m l : Nat) (s : St K) (ret : Nat → Nat → K) (σ : Equiv.Perm Nat) (hσ : ∀ j, s.order j = σ j) (k : Nat)
    (hk : k < l) : Sol m m s.M (fun r => s.R r k) (fun r => (backSubst m l s ret).2 (s.order r) k) := by
  have H := forRange_rule (fun q (st : (Nat → Nat → K) × (Nat → Nat → K)) =>
      (∀ r c, q ≤ c → st.1 r c = s.R r c) ∧
      ∀ c, c < q → Sol m m s.M (fun r => s.R r c) (fun r => st.2 (s.order r) c)) 0 l (Nat.zero_le _)
    (fun k st =>
      let R := forDown (fun i R => forRange (i + 1) m (fun j R => upd R i k (R i k - R j k * s.M i j)) R) m st.1
      (R, forRange 0 m (fun i ret => upd ret (s.order i) k (R i k)) st.2)) (s.R, ret) ⟨fun _ _ _ => rfl, fun c hc => by omega⟩ ?_
  · exact H.2 k hk
  · intro q st _ hq ⟨h1, h2⟩
    simp only
    obtain ⟨b1, b2⟩ := back_col m q s.M st.1
    generalize forDown (fun i R => forRange (i + 1) m (fun j R => upd R i q (R i q - R j q * s.M i j)) R) m st.1 = R at b1 b2 ⊢
    have hret := forRange_rule (fun i (ret : Nat → Nat → K) => (∀ j, j < i → ret (s.order j) q = R j q) ∧
        ∀ r c, c ≠ q → ret r c = st.2 r c) 0 m (Nat.zero_le _) (fun i ret => upd ret (s.order i) q (R i q)) st.2
      ⟨fun j hj => by omega, fun _ _ _ => rfl⟩ ?_
    · refine ⟨fun r c hc => ?_, fun c hc => ?_⟩
      · rw [b2 r c (by omega)]; exact h1 r c (by omega)
      · by_cases hcq : c = q
        · subst hcq
          refine ⟨fun r hr => ?_, fun r hr hr' => by omega⟩
          simp only
          rw [hret.1 r hr, ← h1 r c (le_refl c), ← b1 r hr]
          congr 1
          apply sum_congr rfl
          intro j hj
          rw [mem_Ico] at hj
          rw [hret.1 j hj.2]
        · have := h2 c (by omega)
          have e : (fun r => (forRange 0 m (fun i ret => upd ret (s.order i) q (R i q)) st.2) (s.order r) c) =
              fun r => st.2 (s.order r) c := by
            funext r; exact hret.2 _ _ hcq
          rw [e]; exact this
    · intro i ret _ hi ⟨g1, g2⟩
      refine ⟨fun j hj => ?_, fun r c hc => ?_⟩
      · by_cases hji : j = i
        · subst hji; simp [upd]
        · have hne : s.order j ≠ s.order i := by
            rw [hσ, hσ]; exact fun hh => hji (σ.injective hh)
          simp only [upd, hne, false_and, if_false]
          exact g1 j (by omega)
      · simp only [upd, hc, and_false, if_false]; exact g2 r c hc

/-- The normal equations always have a solution. -/
theorem normal_consistent (n m : Nat) (A : Nat → Nat → K) (b : Nat → K) :
    ∃ x : Nat → K, ∀ r, r < m → ∑ j ∈ range m, (∑ q ∈ range n, A q r * A q j) * x j = ∑ q ∈ range n, A q r * b q := by
  let A' : Matrix (Fin n) (Fin m) K := fun q j => A q j
  have hle : LinearMap.range (A'.transpose * A').mulVecLin ≤ LinearMap.range A'.transpose.mulVecLin := by
    rintro _ ⟨x, rfl⟩
    exact ⟨A'.mulVec x, by simp [Matrix.mulVecLin_apply, Matrix.mulVec_mulVec]⟩
  have hrank : (A'.transpose * A').rank = A'.transpose.rank := by
    rw [Matrix.rank_transpose_mul_self, Matrix.rank_transpose]
  have heq := Submodule.eq_of_le_of_finrank_eq hle hrank
  have hmem : A'.transpose.mulVecLin (fun q : Fin n => b q) ∈ LinearMap.range (A'.transpose * A').mulVecLin := by
    rw [heq]; exact ⟨_, rfl⟩
  obtain ⟨y, hy⟩ := hmem
  refine ⟨fun j => if h : j < m then y ⟨j, h⟩ else 0, fun r hr => ?_⟩
  have hA' : ∀ i j, A' i j = A i j := fun _ _ => rfl
  have := congrFun hy ⟨r, hr⟩
  simp only [Matrix.mulVecLin_apply, Matrix.mulVec, dotProduct, Matrix.mul_apply, Matrix.transpose_apply, hA'] at this
  rw [sum_range, sum_range]
  simp only [sum_range]
  rw [← this]
  apply sum_congr rfl
  intro j _
  simp

/-- **C36.**  For all matrices `A` (n by m, with at least one row) and `B` (n by l): if no pivot of the elimination lies strictly
between zero and 1e-54, then `Solve` succeeds and the result satisfies the normal equations.  (Zero pivots are allowed.) -/
theorem C36_normal_equations (n m l : Nat) (hn : 0 < n) (A B : Nat → Nat → K) :
    (∀ X ps, solve n m l A B = .ok (X, ps) → PivotsOk ps → NormalEq n m l A B X) ∧
    (∀ e ps, solve n m l A B = .error (e, ps) → ¬ PivotsOk ps) := by
  have hinit : EInv m l (tmul n A A) (tmul n A B) 0 ⟨tmul n A A, tmul n A B, fun i => i, []⟩ := by
    refine ⟨⟨Equiv.refl _, fun _ => rfl, fun _ => Iff.rfl⟩, fun k hk X hX r hr => ?_, Or.inl fun k hk => ?_⟩
    · have := hX.2 r (Nat.zero_le r) hr
      rwa [← Finset.range_eq_Ico] at this
    · obtain ⟨x, hx⟩ := normal_consistent n m A (fun q => B q k)
      refine ⟨x, fun r hr => by omega, fun r _ hr => ?_⟩
      simp only [tmul_eq n hn]
      rw [← Finset.range_eq_Ico]
      exact hx r hr
  have hloop := elimLoop_spec m l 0 m (by omega) (tmul n A A) (tmul n A B) _ (fun p hp => by cases hp) hinit
  unfold solve
  rw [if_neg (by omega)]
  constructor
  · intro X ps h hps r k hr hk
    cases he : elimLoop m l 0 m ⟨tmul n A A, tmul n A B, fun i => i, []⟩ with
    | error e => rw [he] at h; cases h
    | ok s =>
      rw [he] at h
      simp only [Except.ok.injEq, Prod.mk.injEq] at h
      obtain ⟨rfl, rfl⟩ := h
      have hE := hloop.2 s he hps
      obtain ⟨σ, hσ, _⟩ := hE.perm
      have hb := backSubst_spec m l s (fun _ _ => 0) σ hσ k hk
      have := hE.sound k hk (fun j => (backSubst m l s (fun _ _ => 0)).2 j k) hb r hr
      simpa only [tmul_eq n hn] using this
  · intro e ps h
    cases he : elimLoop m l 0 m ⟨tmul n A A, tmul n A B, fun i => i, []⟩ with
    | error e' =>
      rw [he] at h
      cases h
      exact hloop.1 _ _ he
    | ok s => rw [he] at h; cases h

/-- **C36, square matrices.**  If the square matrix `A` has a left inverse `C` and no pivot lies strictly between zero and 1e-54, the
result of `Solve` satisfies `A X = B`. -/
theorem C36_square (n l : Nat) (hn : 0 < n) (A B C : Nat → Nat → K)
    (hC : ∀ r c, r < n → c < n → ∑ q ∈ range n, C r q * A q c = if r = c then 1 else 0) (X : Nat → Nat → K) (ps : List K)
    (h : solve n n l A B = .ok (X, ps)) (hps : PivotsOk ps) : Solves n n l A B X := by
  have hne := (C36_normal_equations n n l hn A B).1 X ps h hps
  let A' : Matrix (Fin n) (Fin n) K := fun i j => A i j
  let B' : Matrix (Fin n) (Fin l) K := fun i j => B i j
  let X' : Matrix (Fin n) (Fin l) K := fun i j => X i j
  let C' : Matrix (Fin n) (Fin n) K := fun i j => C i j
  have hA' : ∀ i j, A' i j = A i j := fun _ _ => rfl
  have hB' : ∀ i j, B' i j = B i j := fun _ _ => rfl
  have hX' : ∀ i j, X' i j = X i j := fun _ _ => rfl
  have hC' : ∀ i j, C' i j = C i j := fun _ _ => rfl
  have hCA : C' * A' = 1 := by
    ext i j
    have := hC i j i.2 j.2
    rw [sum_range] at this
    rw [Matrix.mul_apply, Matrix.one_apply]
    simp only [hC', hA', this, Fin.ext_iff]
  have hN : A'.transpose * A' * X' = A'.transpose * B' := by
    ext r k
    have := hne r k r.2 k.2
    rw [sum_range, sum_range] at this
    simp only [sum_range] at this
    simp only [Matrix.mul_apply, Matrix.transpose_apply, hA', hB', hX', this]
  have hAC : A' * C' = 1 := mul_eq_one_comm.1 hCA
  have hT : C'.transpose * A'.transpose = 1 := by rw [← Matrix.transpose_mul, hAC, Matrix.transpose_one]
  have hAX : A' * X' = B' := by
    have := congrArg (fun Z => C'.transpose * Z) hN
    simp only [← Matrix.mul_assoc] at this
    rwa [hT, Matrix.one_mul, Matrix.one_mul] at this
  intro r k hr hk
  have := congrFun (congrFun hAX ⟨r, hr⟩) ⟨k, hk⟩
  rw [Matrix.mul_apply] at this
  rw [sum_range]
  exact this

/-- The entries of the solution (m by l) and the pivots, as lists. -/
def listing (m l : Nat) (r : Except (Nat × List ℚ) ((Nat → Nat → ℚ) × List ℚ)) : Option (List (List ℚ) × List ℚ) :=
  match r with
  | .error _ => none
  | .ok (X, ps) => some ((List.range m).map fun i => (List.range l).map fun k => X i k, ps)

/-- A matrix given by rows. -/
def rows (L : List (List ℚ)) : Nat → Nat → ℚ := fun i j => (L.getD i []).getD j 0

/-- Outside the claim: the code violates `A X = B` for an invertible matrix whose pivot is below 1e-54: it replaces the pivot by 1e-12 and
reports success.  Here `A = (1e-30)`, `B = (1e-40)`: the solution is 1e-10, the result is 1e-58. -/
theorem C36_tiny_fails :
    listing 1 1 (solve 1 1 1 (rows [[1 / 10 ^ 30]]) (rows [[1 / 10 ^ 40]])) = some ([[1 / 10 ^ 58]], [1 / 10 ^ 60]) := by
  decide +kernel

/-- Without rows the product with the transposed matrix reads the missing row 0. -/
theorem C36_empty_fails : ∃ ps, solve 0 1 1 (rows []) (rows []) = .error (0, ps) := ⟨[], rfl⟩

/-- The hypotheses are met: an overdetermined system of full rank, whose elimination exchanges rows and columns. -/
example : listing 2 1 (solve 3 2 1 (rows [[1, 2], [0, 1], [1, 3]]) (rows [[3], [1], [5]])) = some ([[2 / 3], [4 / 3]], [3 / 14, 14]) ∧
    PivotsOk [(3 / 14 : ℚ), 14] := by
  refine ⟨by decide +kernel, fun p hp => ?_⟩
  right
  fin_cases hp <;> norm_num [abs_of_pos]

/-- The hypotheses are met: a singular system, with a zero pivot. -/
example : listing 2 1 (solve 2 2 1 (rows [[1, 2], [2, 4]]) (rows [[1], [3]])) = some ([[0], [7 / 10]], [0, 20]) ∧
    PivotsOk [(0 : ℚ), 20] := by
  refine ⟨by decide +kernel, fun p hp => ?_⟩
  rcases List.mem_cons.1 hp with h | hp
  · exact Or.inl h
  · rcases List.mem_cons.1 hp with h | hp
    · right; subst h; norm_num
    · cases hp

end Verif.Dense
