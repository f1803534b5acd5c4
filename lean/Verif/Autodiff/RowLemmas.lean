import Verif.Autodiff.Lemmas
import Verif.Sparse.MergerLemmas

/-!
# Lemmas: gathering contributions in rows and accumulators
-/

namespace Verif.Autodiff

open Verif.Sparse

theorem dot_access (r : Row ℝ) (i : Nat) (m : ℝ) (v : Nat → ℝ) :
    dot (access r i (· + m)) v = dot r v + m * v i := by
  induction r with
  | nil => simp [access, dot]
  | cons e r ih =>
    obtain ⟨j, a⟩ := e
    rw [access]
    by_cases h : j = i
    · subst h; rw [if_pos rfl, dot_cons, dot_cons]; ring
    · rw [if_neg h, dot_cons, dot_cons, ih]; ring

theorem distinct_access (r : Row ℝ) (i : Nat) (f : ℝ → ℝ) (h : Distinct r) : Distinct (access r i f) := by
  unfold Distinct at h ⊢
  rw [access_cols]
  split
  · exact h
  · rename_i hc
    exact List.nodup_append'.2 ⟨h, by simp, by
      intro a ha hb
      rw [List.mem_singleton] at hb; subst hb; exact hc ha⟩

theorem dot_fold (es r : Row ℝ) (m : ℝ) (v : Nat → ℝ) :
    dot (es.foldl (fun r e => access r e.1 (· + e.2 * m)) r) v = dot r v + m * dot es v := by
  induction es generalizing r with
  | nil => simp
  | cons e es ih => rw [List.foldl_cons, ih, dot_access, dot_cons]; ring

theorem distinct_fold (es r : Row ℝ) (m : ℝ) (h : Distinct r) :
    Distinct (es.foldl (fun r e => access r e.1 (· + e.2 * m)) r) := by
  induction es generalizing r with
  | nil => exact h
  | cons e es ih => exact ih _ (distinct_access _ _ _ h)

theorem applyAll_spec (cs : List Contr) (r : Row ℝ) (hd : Distinct r) :
    Distinct (cs.foldl applyRow r) ∧ ∀ v, dot (cs.foldl applyRow r) v = dot r v + dot (flat cs) v := by
  induction cs generalizing r with
  | nil => exact ⟨hd, fun v => by simp [flat]⟩
  | cons c cs ih =>
    rw [List.foldl_cons]
    cases c with
    | inc i m =>
      obtain ⟨h1, h2⟩ := ih _ (distinct_access r i (· + m) hd)
      refine ⟨h1, fun v => ?_⟩
      rw [show applyRow r (.inc i m) = access r i (· + m) from rfl, h2, dot_access, flat, dot_cons]; ring
    | row m es =>
      obtain ⟨h1, h2⟩ := ih _ (distinct_fold es r m hd)
      refine ⟨h1, fun v => ?_⟩
      rw [show applyRow r (.row m es) = es.foldl (fun r e => access r e.1 (· + e.2 * m)) r from rfl, h2,
        dot_fold, flat, dot_append, dot_scale]; ring

theorem colVal_scale (r : Row ℝ) (m : ℝ) (c : Nat) :
    colVal (r.map fun e => (e.1, e.2 * m)) c = m * colVal r c := by
  induction r with
  | nil => simp
  | cons e r ih =>
    obtain ⟨i, a⟩ := e
    rw [List.map_cons, colVal_cons, colVal_cons, ih]
    split <;> ring

theorem accumulate_ops (cs : List Contr) (f : Nat → ℝ) (c : Nat) :
    (cs.map toOp).foldl accumulate f c = f c + colVal (flat cs) c := by
  induction cs generalizing f with
  | nil => simp [flat]
  | cons k cs ih =>
    rw [List.map_cons, List.foldl_cons, ih]
    cases k with
    | inc i m =>
      simp only [toOp, accumulate, flat, colVal_cons]
      by_cases h : c = i
      · rw [if_pos h, if_pos h.symm]; ring
      · rw [if_neg h, if_neg (Ne.symm h)]; ring
    | row m r =>
      simp only [toOp, accumulate, flat, colVal_append, colVal_scale]; ring

theorem admissible_ops (cs : List Contr) (tl : List (MOp ℝ)) (fresh : Bool)
    (h : ∀ fr, Admissible false fr tl) : Admissible false fresh (cs.map toOp ++ tl) := by
  induction cs generalizing fresh with
  | nil => exact h _
  | cons k cs ih =>
    cases k with
    | inc i m => exact ih _
    | row m r => exact ⟨fun h => (by cases h), ih _⟩

theorem no_resize (cs : List Contr) (b e : Nat) (s : Bool) : MOp.resize b e s ∉ cs.map toOp := by
  intro h
  obtain ⟨k, _, hk⟩ := List.mem_map.1 h
  cases k <;> cases hk

theorem mrun_append (m : Merger ℝ) (a b : List (MOp ℝ)) : mrun m (a ++ b) = (mrun m a).bind fun m' => mrun m' b := by
  induction a generalizing m with
  | nil => rfl
  | cons op a ih =>
    rw [List.cons_append, mrun, mrun]
    cases mstep m op with
    | none => rfl
    | some m' => exact ih m'

/-- An interval of indices that an accumulator can be made for. -/
theorem gather (b e : Nat) (hi : b ≤ e ∧ e < EOL) (ops : List (MOp ℝ)) (ha : Admissible false true ops)
    (hr : ∀ b e s, MOp.resize b e s ∉ ops) (q : Row ℝ)
    (hq : ∀ c, ops.foldl accumulate (fun _ => 0) c = colVal q c) :
    ∃ row, (mrun (Merger.init b e false) ops).bind finish = some (row, Merger.init b e false) ∧
      Distinct row ∧ ∀ v, dot row v = dot q v := by
  obtain ⟨m, L, h1, h2, h3⟩ := mrun_spec ops (Merger.init b e false) false true (fun _ => 0)
    ⟨rfl, ⟨[], init_inv b e false hi.1 hi.2, fun _ => ⟨rfl, init_sem b e false⟩⟩,
      init_sem b e false⟩ ha
  obtain ⟨row, g1, g2, g3, g4, _⟩ := retrieve_spec h2
  obtain ⟨t1, t2, t3, _⟩ := tracks_run ops _ _ hr h1
  have hc := clear_spec h2
  rw [t1, t2, t3] at hc
  refine ⟨row, ?_, g2, fun v => dot_congr _ _ (fun c => ?_) v⟩
  · rw [h1]
    show finish m = _
    unfold finish
    rw [g1, hc]; rfl
  · rw [← getSafe_colVal row g2, g4, h3, hq]

theorem fromBasic_spec (b e : Nat) (hi : b ≤ e ∧ e < EOL) (s s1 : Store) (ex : Expr) :
    ∃ row, fromBasicExpression s s1 ex (Merger.init b e false) = some (row, Merger.init b e false) ∧
      Distinct row ∧ ∀ v, dot row v = dot (flat (contrib s s1 1 ex)) v := by
  refine gather b e hi _ ?_ (no_resize _) _ (fun c => ?_)
  · have := admissible_ops (contrib s s1 1 ex) [] true (fun _ => trivial)
    rwa [List.append_nil] at this
  · rw [accumulate_ops]; ring

theorem addBasic_spec (b e : Nat) (hi : b ≤ e ∧ e < EOL) (s s1 : Store) (ex : Expr) (r : Row ℝ) (hd : Distinct r)
    (p q : ℝ) :
    ∃ row, addBasicExpression s s1 r p q ex (Merger.init b e false) = some (row, Merger.init b e false) ∧
      Distinct row ∧ ∀ v, dot row v = p * dot r v + dot (flat (contrib s s1 q ex)) v := by
  obtain ⟨row, h1, h2, h3⟩ := gather b e hi (.push p r :: (contrib s s1 q ex).map toOp)
    (by
      have := admissible_ops (contrib s s1 q ex) [] false (fun _ => trivial)
      rw [List.append_nil] at this
      exact ⟨rfl, hd, fun h => (by cases h), this⟩)
    (fun b e s h => by
      rcases List.mem_cons.1 h with h | h
      · cases h
      · exact no_resize _ _ _ _ h)
    ((r.map fun e => (e.1, e.2 * p)) ++ flat (contrib s s1 q ex))
    (fun c => by
      rw [List.foldl_cons, accumulate_ops, colVal_append, colVal_scale]; rfl)
  refine ⟨row, ?_, h2, fun v => ?_⟩
  · rw [← h1]
    unfold addBasicExpression
    rw [mrun]
    simp only [mstep]
    cases Merger.pushRow (Merger.init b e false) p r <;> rfl
  · rw [h3, dot_append, dot_scale]

theorem fromGet_spec (b e : Nat) (hi : b ≤ e ∧ e < EOL) (s s1 : Store) (ex : Expr) (r : Row ℝ) (q : ℝ) :
    ∃ row, fromGetJacobian s s1 ex q r (Merger.init b e false) = some (row, Merger.init b e false) ∧
      Distinct row ∧ ∀ v, dot row v = dot (flat (contrib s s1 q ex)) v + dot r v := by
  obtain ⟨row, h1, h2, h3⟩ := gather b e hi ((contrib s s1 q ex).map toOp ++ [.add 1 r])
    (admissible_ops _ [.add 1 r] _ (fun _ => ⟨fun h => (by cases h), trivial⟩))
    (fun b e s h => by
      rcases List.mem_append.1 h with h | h
      · exact no_resize _ _ _ _ h
      · simp at h)
    (flat (contrib s s1 q ex) ++ r)
    (fun c => by
      rw [List.foldl_append, List.foldl_cons, List.foldl_nil, accumulate, colVal_append]
      simp only [accumulate_ops]; ring)
  refine ⟨row, ?_, h2, fun v => ?_⟩
  · rw [← h1]
    unfold fromGetJacobian
    rw [mrun_append]
    congr 1
    unfold jacMerger
    cases mrun (Merger.init b e false) (List.map toOp (contrib s s1 q ex)) with
    | none => rfl
    | some m =>
      show m.addRow 1 r = mrun m [.add 1 r]
      rw [mrun]
      simp only [mstep]
      cases m.addRow 1 r <;> rfl
  · rw [h3, dot_append]

end Verif.Autodiff
