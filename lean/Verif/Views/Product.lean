import Verif.Views.Value
import Mathlib.Algebra.BigOperators.Intervals

/-!
# Copies and products
-/

namespace Verif.Views

theorem loop_rule {σ : Type} (P : Nat → σ → Prop) (f : Nat → σ → Option σ) (n a : Nat) (s : σ) (h0 : P a s)
    (hstep : ∀ i s, a ≤ i → i < a + n → P i s → ∃ s', f i s = some s' ∧ P (i + 1) s') : ∃ s', loop f a n s = some s' ∧ P (a + n) s' := by
  induction n generalizing a s with
  | zero => exact ⟨s, rfl, h0⟩
  | succ n ih =>
    obtain ⟨s1, h1, h2⟩ := hstep a s (Nat.le_refl _) (by omega) h0
    obtain ⟨s2, h3, h4⟩ := ih (a + 1) s1 h2 (fun i s hi hi' => hstep i s (by omega) (by omega))
    refine ⟨s2, ?_, ?_⟩
    · rw [loop, h1]; exact h3
    · rw [show a + (n + 1) = a + 1 + n by omega]; exact h4

theorem loop2_rule {σ : Type} (P : Nat → Nat → σ → Prop) (f : Nat → Nat → σ → Option σ) (n m : Nat) (s : σ) (h0 : P 0 0 s)
    (hstep : ∀ i < n, ∀ j < m, ∀ s, P i j s → ∃ s', f i j s = some s' ∧ P i (j + 1) s')
    (hrow : ∀ i < n, ∀ s, P i m s → P (i + 1) 0 s) : ∃ s', loop2 n m f s = some s' ∧ P n 0 s' := by
  have := loop_rule (fun i s => P i 0 s) (fun i s => loop (fun j s => f i j s) 0 m s) n 0 s h0 (by
    intro i s _ hi hp
    obtain ⟨s', h1, h2⟩ := loop_rule (fun j s => P i j s) (fun j s => f i j s) m 0 s hp
      (fun j s _ hj hp => hstep i (by omega) j (by omega) s hp)
    rw [Nat.zero_add] at h2
    exact ⟨s', h1, hrow i (by omega) s' h2⟩)
  rw [Nat.zero_add] at this
  exact this

theorem index_lt {n m i j : Nat} (hi : i < n) (hj : j < m) : i * m + j < n * m := by
  calc i * m + j < i * m + m := by omega
    _ = (i + 1) * m := by rw [Nat.add_mul, Nat.one_mul]
    _ ≤ n * m := Nat.mul_le_mul_right _ hi

theorem index_inj {m i j i' j' : Nat} (hj : j < m) (hj' : j' < m) (h : i * m + j = i' * m + j') : i = i' ∧ j = j' := by
  have h0 : 0 < m := by omega
  have h1 : (i * m + j) / m = i := by rw [Nat.mul_comm, Nat.mul_add_div h0, Nat.div_eq_of_lt hj, Nat.add_zero]
  have h2 : (i' * m + j') / m = i' := by rw [Nat.mul_comm, Nat.mul_add_div h0, Nat.div_eq_of_lt hj', Nat.add_zero]
  have : i = i' := by rw [← h1, ← h2, h]
  subst this
  exact ⟨rfl, by omega⟩

variable {R : Type}

theorem put_spec {M : Mat R} (hl : M.a.length = M.n * M.m) {i j : Nat} (hi : i < M.n) (hj : j < M.m) (x : R) :
    ∃ M', M.put i j x = some M' ∧ M'.n = M.n ∧ M'.m = M.m ∧ M'.a.length = M'.n * M'.m ∧
      ∀ i' < M.n, ∀ j' < M.m, M'.get i' j' = if i' = i ∧ j' = j then some x else M.get i' j' := by
  have hp : i * M.m + j < M.a.length := hl ▸ index_lt hi hj
  refine ⟨{ M with a := M.a.set (i * M.m + j) x }, by rw [Mat.put, if_pos ⟨hi, hj, hp⟩], rfl, rfl, ?_, ?_⟩
  · simp only [List.length_set]; exact hl
  · intro i' hi' j' hj'
    simp only [Mat.get]
    have hr : (i' < M.n ∧ j' < M.m) := ⟨hi', hj'⟩
    simp only [if_pos hr, List.getElem?_set]
    by_cases h : i' = i ∧ j' = j
    · rw [if_pos h, if_pos (by rw [h.1, h.2]), if_pos hp]
    · rw [if_neg h, if_neg]
      intro hc
      exact h ⟨(index_inj hj hj' hc).1.symm, (index_inj hj hj' hc).2.symm⟩

theorem isMat_of_get {M : Mat R} {S : Table R} (h1 : M.n = S.n) (h2 : M.m = S.m) (hl : M.a.length = M.n * M.m)
    (h : ∀ i < S.n, ∀ j < S.m, M.get i j = some (S.A i j)) : IsMat M S := by
  refine ⟨h1.symm, h2.symm, hl, fun i hi j hj => ?_⟩
  have := h i hi j hj
  rwa [Mat.get, if_pos ⟨by omega, by omega⟩] at this

/-- Filling of a matrix row by row. -/
theorem fill_spec (n m : Nat) (g : Nat → Nat → Mat R → Option R) (A : Nat → Nat → R) (M : Mat R) (hn : M.n = n) (hm : M.m = m)
    (hl : M.a.length = M.n * M.m) (hg : ∀ i < n, ∀ j < m, ∀ M : Mat R, M.m = m → g i j M = some (A i j)) :
    ∃ M', loop2 n m (fun i j M => (g i j M).bind fun x => M.put i j x) M = some M' ∧ IsMat M' ⟨n, m, A⟩ := by
  obtain ⟨M', h1, h2⟩ := loop2_rule
    (fun i j (M : Mat R) => M.n = n ∧ M.m = m ∧ M.a.length = M.n * M.m ∧
      ∀ i' < n, ∀ j' < m, (i' < i ∨ (i' = i ∧ j' < j)) → M.get i' j' = some (A i' j'))
    (fun i j M => (g i j M).bind fun x => M.put i j x) n m M ⟨hn, hm, hl, fun i' _ j' _ h => by omega⟩
    (by
      rintro i hi j hj M ⟨a1, a2, a3, a4⟩
      obtain ⟨M', b1, b2, b3, b4, b5⟩ := put_spec a3 (i := i) (j := j) (by omega) (by omega) (A i j)
      refine ⟨M', by rw [hg i hi j hj M a2]; exact b1, by omega, by omega, b4, ?_⟩
      intro i' hi' j' hj' h
      rw [b5 i' (by omega) j' (by omega)]
      by_cases hc : i' = i ∧ j' = j
      · rw [if_pos hc, hc.1, hc.2]
      · rw [if_neg hc]
        exact a4 i' hi' j' hj' (by omega))
    (by
      rintro i hi M ⟨a1, a2, a3, a4⟩
      exact ⟨a1, a2, a3, fun i' hi' j' hj' h => a4 i' hi' j' hj' (by omega)⟩)
  obtain ⟨c1, c2, c3, c4⟩ := h2
  exact ⟨M', h1, isMat_of_get c1 c2 c3 (fun i hi j hj => c4 i hi j hj (Or.inl hi))⟩

section
variable [CommRing R] [Div R]

omit [Div R] in
theorem new_length (n m : Nat) : (Mat.new n m : Mat R).a.length = (Mat.new n m : Mat R).n * (Mat.new n m : Mat R).m := by
  simp [Mat.new]

theorem copy_spec {s : State R} {e : Ex R} {T : Table R} (hz : s.zero = 0) (h : Means s e T) : ∃ M, copy s e = some M ∧ IsMat M T := by
  rw [copy, (means_size h).1, (means_size h).2]
  exact fill_spec T.n T.m (fun i j _ => e.at s i j) T.A (Mat.new T.n T.m) rfl rfl (new_length _ _) (fun i hi j hj _ _ => means_at hz h i hi j hj)

/-- The argument shows the table. -/
def ArgShows (A : Arg R) (T : Table R) : Prop := A.n = T.n ∧ A.m = T.m ∧ ∀ i < T.n, ∀ j < T.m, A.get i j = some (T.A i j)

theorem arg_spec {s : State R} {e : Ex R} {T : Table R} (hz : s.zero = 0) (h : Means s e T) : ∃ A, arg s e = some A ∧ ArgShows A T := by
  rw [arg]
  split
  · exact ⟨_, rfl, (means_size h).1, (means_size h).2, means_at hz h⟩
  · obtain ⟨M, h1, h2⟩ := copy_spec hz h
    exact ⟨_, by rw [h1]; rfl, h2.1.symm, h2.2.1.symm, mat_get h2⟩

theorem mulLoops_spec {A B : Arg R} {T U : Table R} (hA : ArgShows A T) (hB : ArgShows B U) (hTU : T.m = U.n) (h0 : 0 < T.m) :
    ∃ M, mulLoops A B (Mat.new T.n U.m) = some M ∧ IsMat M ⟨T.n, U.m, fun i j => ∑ k ∈ Finset.range T.m, T.A i k * U.A k j⟩ := by
  obtain ⟨a1, a2, a3⟩ := hA
  obtain ⟨b1, b2, b3⟩ := hB
  rw [mulLoops, a1, a2, b2]
  -- the shape of the result, the finished rows and the state of the current row
  let Sh : Mat R → Prop := fun M => M.n = T.n ∧ M.m = U.m ∧ M.a.length = M.n * M.m
  let Done : Nat → Mat R → Prop := fun i M => ∀ i' < i, i' < T.n → ∀ k < U.m, M.get i' k = some (∑ j ∈ Finset.range T.m, T.A i' j * U.A j k)
  let part : Nat → Nat → Nat → R := fun i c k => ∑ j ∈ Finset.range c, T.A i j * U.A j k
  obtain ⟨M, h1, h2⟩ := loop_rule (fun i M => Sh M ∧ Done i M) (fun i M =>
      (loop (fun k M => (A.get i 0).bind fun x => (B.get 0 k).bind fun y => M.put i k (x * y)) 0 U.m M).bind fun M =>
      loop (fun j M => loop (fun k M =>
        (A.get i j).bind fun x => (B.get j k).bind fun y => (M.get i k).bind fun z => M.put i k (z + x * y)) 0 U.m M) 1 (T.m - 1) M)
    T.n 0 (Mat.new T.n U.m) ⟨⟨rfl, rfl, new_length _ _⟩, fun i' h => by omega⟩
    (by
      rintro i M - hi ⟨hs, hd⟩
      rw [Nat.zero_add] at hi
      obtain ⟨M1, c1, c2, c3, c4⟩ := loop_rule
        (fun k M => Sh M ∧ Done i M ∧ ∀ k' < k, k' < U.m → M.get i k' = some (part i 1 k'))
        (fun k M => (A.get i 0).bind fun x => (B.get 0 k).bind fun y => M.put i k (x * y)) U.m 0 M ⟨hs, hd, fun k' h => by omega⟩
        (by
          rintro k M - hk ⟨⟨s1, s2, s3⟩, d, r⟩
          obtain ⟨M', p1, p2, p3, p4, p5⟩ := put_spec s3 (i := i) (j := k) (by omega) (by omega) (T.A i 0 * U.A 0 k)
          refine ⟨M', by rw [a3 i hi 0 h0, b3 0 (by omega) k (by omega)]; exact p1, ⟨by omega, by omega, p4⟩, ?_, ?_⟩
          · intro i' hi' hi2 k' hk'
            rw [p5 i' (by omega) k' (by omega), if_neg (by omega)]
            exact d i' hi' hi2 k' hk'
          · intro k' hk' hk2
            rw [p5 i (by omega) k' (by omega)]
            by_cases hc : k' = k
            · rw [if_pos ⟨rfl, hc⟩, hc]
              simp [part]
            · rw [if_neg (fun h => hc h.2)]
              exact r k' (by omega) hk2)
      obtain ⟨M2, e1, e2, e3, e4⟩ := loop_rule
        (fun j M => Sh M ∧ Done i M ∧ ∀ k' < U.m, M.get i k' = some (part i j k'))
        (fun j M => loop (fun k M =>
          (A.get i j).bind fun x => (B.get j k).bind fun y => (M.get i k).bind fun z => M.put i k (z + x * y)) 0 U.m M) (T.m - 1) 1 M1
        ⟨c2, c3, fun k' hk' => c4 k' (by omega) hk'⟩
        (by
          rintro j M hj hj2 ⟨hs, hd, hr⟩
          obtain ⟨M', q1, q2, q3, q4, q5⟩ := loop_rule
            (fun k M => Sh M ∧ Done i M ∧ (∀ k' < k, k' < U.m → M.get i k' = some (part i (j + 1) k')) ∧
              ∀ k', k ≤ k' → k' < U.m → M.get i k' = some (part i j k'))
            (fun k M => (A.get i j).bind fun x => (B.get j k).bind fun y => (M.get i k).bind fun z => M.put i k (z + x * y)) U.m 0 M
            ⟨hs, hd, fun k' h => by omega, fun k' _ h => hr k' h⟩
            (by
              rintro k M - hk ⟨⟨s1, s2, s3⟩, d, r1, r2⟩
              obtain ⟨M', p1, p2, p3, p4, p5⟩ := put_spec s3 (i := i) (j := k) (by omega) (by omega) (part i j k + T.A i j * U.A j k)
              refine ⟨M', by
                rw [a3 i hi j (by omega), b3 j (by omega) k (by omega)]
                simp only [Option.bind_some]
                rw [r2 k (Nat.le_refl _) (by omega)]
                exact p1, ⟨by omega, by omega, p4⟩, ?_, ?_, ?_⟩
              · intro i' hi' hi2 k' hk'
                rw [p5 i' (by omega) k' (by omega), if_neg (by omega)]
                exact d i' hi' hi2 k' hk'
              · intro k' hk' hk2
                rw [p5 i (by omega) k' (by omega)]
                by_cases hc : k' = k
                · rw [if_pos ⟨rfl, hc⟩, hc]
                  simp only [part, Finset.sum_range_succ]
                · rw [if_neg (fun h => hc h.2)]
                  exact r1 k' (by omega) hk2
              · intro k' hk' hk2
                rw [p5 i (by omega) k' (by omega), if_neg (by omega)]
                exact r2 k' (by omega) hk2)
          exact ⟨M', q1, q2, q3, fun k' hk' => q4 k' (by omega) hk'⟩)
      refine ⟨M2, ?_, e2, ?_⟩
      · show (loop _ 0 U.m M).bind _ = _
        rw [c1]
        exact e1
      · intro i' hi' hi2 k hk
        by_cases hc : i' = i
        · subst hc
          have := e4 k hk
          rw [show 1 + (T.m - 1) = T.m by omega] at this
          exact this
        · exact e3 i' (by omega) hi2 k hk)
  obtain ⟨⟨s1, s2, s3⟩, d⟩ := h2
  exact ⟨M, h1, isMat_of_get s1 s2 s3 (fun i hi j hj => d i (by simpa using hi) hi j hj)⟩

theorem mul_spec {s : State R} {a b : Ex R} {T U S : Table R} (hz : s.zero = 0) (ha : Means s a T) (hb : Means s b U) (h0 : 0 < T.m)
    (h : IsMul T U S) : ∃ M, mul s a b = some M ∧ IsMat M S := by
  obtain ⟨e1, e2, e3, e4⟩ := h
  obtain ⟨A, hA, hA'⟩ := arg_spec hz ha
  obtain ⟨B, hB, hB'⟩ := arg_spec hz hb
  obtain ⟨M, hM, m1, m2, m3, m4⟩ := mulLoops_spec hA' hB' e1 h0
  refine ⟨M, ?_, ?_⟩
  · rw [mul, if_pos (by rw [(means_size ha).2, (means_size hb).1, e1]), hA, hB, (means_size ha).1, (means_size hb).2]
    exact hM
  · refine ⟨e2.trans m1, e3.trans m2, m3, fun i hi j hj => ?_⟩
    rw [e4 i hi j hj]
    exact m4 i (e2 ▸ hi) j (e3 ▸ hj)

end

section
variable {K RA RB : Type} [CommRing K]

/-- A body of the innermost loop adds one product of variables. -/
def AddsProduct (φ : RA → Var K) (ψ : RB → Var K) (body : RA → RB → K × (Nat → K) → K × (Nat → K)) : Prop :=
  ∀ x y (acc : Var K), (body x y acc : Var K) = acc + φ x * ψ y

theorem adds_VV : AddsProduct (K := K) (fun x => x) (fun y => y) bodyVV := by
  intro x y acc
  refine TrivSqZeroExt.ext ?_ ?_
  · rw [TrivSqZeroExt.fst_add, TrivSqZeroExt.fst_mul]; rfl
  · rw [TrivSqZeroExt.snd_add, TrivSqZeroExt.snd_mul]
    funext u
    simp only [Pi.add_apply, Pi.smul_apply, op_smul_eq_smul, smul_eq_mul]
    show _ + _ + _ = _
    rw [add_assoc]
    rfl

theorem adds_RV : AddsProduct (K := K) (fun x => TrivSqZeroExt.inl x) (fun y => y) bodyRV := by
  intro x y acc
  refine TrivSqZeroExt.ext ?_ ?_
  · rw [TrivSqZeroExt.fst_add, TrivSqZeroExt.fst_mul]; rfl
  · rw [TrivSqZeroExt.snd_add, TrivSqZeroExt.snd_mul]
    funext u
    simp only [Pi.add_apply, Pi.smul_apply, op_smul_eq_smul, smul_eq_mul, TrivSqZeroExt.fst_inl, TrivSqZeroExt.snd_inl, Pi.zero_apply, mul_zero, add_zero]
    rfl

theorem adds_VR : AddsProduct (K := K) (fun x => x) (fun y => TrivSqZeroExt.inl y) bodyVR := by
  intro x y acc
  refine TrivSqZeroExt.ext ?_ ?_
  · rw [TrivSqZeroExt.fst_add, TrivSqZeroExt.fst_mul]; rfl
  · rw [TrivSqZeroExt.snd_add, TrivSqZeroExt.snd_mul]
    funext u
    simp only [Pi.add_apply, Pi.smul_apply, op_smul_eq_smul, smul_eq_mul, TrivSqZeroExt.fst_inl, TrivSqZeroExt.snd_inl, Pi.zero_apply, mul_zero, zero_add]
    rfl

variable [CommRing RA] [Div RA] [CommRing RB] [Div RB]

theorem merged_spec {φ : RA → Var K} {ψ : RB → Var K} {body : RA → RB → K × (Nat → K) → K × (Nat → K)} (hbody : AddsProduct φ ψ body)
    {sa : State RA} {sb : State RB} {a : Ex RA} {b : Ex RB} {T : Table RA} {U : Table RB} (hza : sa.zero = 0) (hzb : sb.zero = 0)
    (ha : Means sa a T) (hb : Means sb b U) (hTU : T.m = U.n) (hle : U.m ≤ T.m) :
    ∃ M, mulMerged body sa sb a b = some M ∧ IsMat M ⟨T.n, U.m, fun i j => ∑ k ∈ Finset.range U.m, φ (T.A i k) * ψ (U.A k j)⟩ := by
  obtain ⟨A, hA, a1, a2, a3⟩ := arg_spec hza ha
  obtain ⟨B, hB, b1, b2, b3⟩ := arg_spec hzb hb
  rw [mulMerged, if_pos (by rw [(means_size ha).2, (means_size hb).1, hTU]), hA, hB, (means_size ha).1, (means_size hb).2]
  simp only [Option.bind_some]
  rw [mergedLoops, a1, b2]
  let g : Nat → Nat → Mat (Var K) → Option (Var K) := fun i j M =>
    loop (fun k acc => (A.get i k).bind fun x => (B.get k j).map fun y => body x y acc) 0 M.m (0, fun _ => 0)
  refine fill_spec (R := Var K) T.n U.m g _ (Mat.new T.n U.m) rfl rfl (new_length _ _) ?_
  intro i hi j hj M hM
  obtain ⟨acc, h1, h2⟩ := loop_rule (fun k (acc : Var K) => acc = ∑ k' ∈ Finset.range k, φ (T.A i k') * ψ (U.A k' j))
    (fun k acc => (A.get i k).bind fun x => (B.get k j).map fun y => body x y acc) U.m 0 (0, fun _ => 0) rfl (by
      rintro k acc - hk hacc
      refine ⟨body (T.A i k) (U.A k j) acc, ?_, ?_⟩
      · rw [a3 i hi k (by omega), b3 k (by omega) j hj]; rfl
      · rw [Finset.sum_range_succ, ← hacc]
        exact hbody _ _ acc)
  rw [Nat.zero_add] at h2
  show loop _ 0 M.m _ = _
  rw [hM, h1, h2]

end

end Verif.Views
