import Verif.OrderInfo.PrepareInv
import Verif.OrderInfo.ExchangeLemmas
import Mathlib.Algebra.BigOperators.Group.List.Basic
import Mathlib.Algebra.BigOperators.Group.Finset.Basic
import Mathlib.Order.Interval.Finset.Nat

/-!
# The exchanges after the preparation
-/

namespace Verif.OrderInfo

open Finset

variable {K : Type}

theorem foldOp (op : K → K → K) {α : Type} (f : α → Nat) (v : α → K) (l : List α) (x : Nat → K) (k : Nat) :
    l.foldl (fun x e => fun i => if i = f e then op (x i) (v e) else x i) x k =
      (l.filter (fun e => decide (k = f e))).foldl (fun a e => op a (v e)) (x k) := by
  induction l generalizing x with
  | nil => rfl
  | cons e l ih =>
    rw [List.foldl_cons, ih, List.filter_cons]
    by_cases he : k = f e
    · simp only [he, decide_true, if_true, List.foldl_cons]
    · simp only [he, decide_false, if_false, Bool.false_eq_true]

theorem unpackEntry_map (op : K → K → K) (x : Nat → K) (l : List Nat) (f : Nat → Nat) (v : Nat → K) :
    unpackEntry op x (l.map f) (l.map v) = l.foldl (fun x g => fun i => if i = f g then op (x i) (v g) else x i) x := by
  unfold unpackEntry
  rw [List.zip_map', List.foldl_map]

theorem unpackAll_map (op : K → K → K) (x : Nat → K) (R : List (Nat × List Nat)) (f : Nat → Nat) (v : Nat → Nat → K) :
    unpackAll op x (R.map fun e => (e.2.map f, e.2.map (v e.1))) =
      (R.flatMap fun e => e.2.map fun g => (e.1, g)).foldl (fun x e => fun i => if i = f e.2 then op (x i) (v e.1 e.2) else x i) x := by
  unfold unpackAll
  induction R generalizing x with
  | nil => rfl
  | cons e R ih =>
    rw [List.map_cons, List.foldl_cons, ih, List.flatMap_cons, List.foldl_append, unpackEntry_map, List.foldl_map]

/-- The local number of an external index. -/
abbrev loc (S : Nat → PSt K) (p g : Nat) : Nat := (lookup (S p).map g).getD 0

theorem extended_eq (N lb le : Nat) (s : PSt K) (h : MapOK N lb le s.map) (i g : Nat) :
    extended s le i = some g ↔ (s.map.map (·.1))[i]? = some g := by
  unfold extended
  have hget : ∀ j : Nat, (hj : j < s.map.length) → s.map[j].2 = le + j := by
    intro j hj
    have h2 : (s.map.map (·.2))[j]? = some (le + j) := by rw [h.vals, List.getElem?_range' hj]; simp
    rw [List.getElem?_map, List.getElem?_eq_getElem hj] at h2
    simpa using h2
  constructor
  · intro hx
    rw [Option.map_eq_some_iff] at hx
    obtain ⟨e, he, rfl⟩ := hx
    have h1 := List.find?_some he
    have h2 := List.mem_of_find?_eq_some he
    obtain ⟨j, hj, rfl⟩ := List.getElem_of_mem h2
    simp only [beq_iff_eq] at h1
    have := hget j hj
    have : j = i := by omega
    subst this
    rw [List.getElem?_map, List.getElem?_eq_getElem hj]; rfl
  · intro hi
    rw [List.getElem?_map, Option.map_eq_some_iff] at hi
    obtain ⟨e, he, rfl⟩ := hi
    have hlt : i < s.map.length := by
      rcases Nat.lt_or_ge i s.map.length with h' | h'
      · exact h'
      · rw [List.getElem?_eq_none h'] at he; cases he
    rw [List.getElem?_eq_getElem hlt] at he
    injection he with he
    cases hf : s.map.find? (fun e => e.2 == le + i) with
    | none =>
      rw [List.find?_eq_none] at hf
      exact absurd (by simp [hget i hlt]) (hf _ (List.getElem_mem hlt))
    | some e' =>
      have h1 := List.find?_some hf
      have h2 := List.mem_of_find?_eq_some hf
      obtain ⟨j, hj, rfl⟩ := List.getElem_of_mem h2
      simp only [beq_iff_eq] at h1
      have := hget j hj
      have : j = i := by omega
      subst this
      rw [← he]; rfl

section

variable {size : Nat} {gtp : Nat → Nat} {A : Nat → Row K} {R : Nat → List (Nat × List Nat)} {S : Nat → PSt K}
  (hP : ∀ p, p < size → Prepared size gtp A R S p)
include hP

theorem mem_send (p q : Nat) (l : List Nat) (hp : p < size) : (q, l) ∈ (S p).send ↔ q < size ∧ (p, l) ∈ R q := by
  rw [(hP p hp).send.mem_iff, mem_requests]

theorem send_nodup (p : Nat) (hp : p < size) : (((S p).send).map (·.1)).Nodup := by
  rw [((hP p hp).send.map _).nodup_iff]
  exact requests_nodup size R p (fun q hq => (hP q hq).recvNodup)

theorem recv_fst (p : Nat) (hp : p < size) : (S p).recv.map (·.1) = (R p).map (·.1) := by
  rw [(hP p hp).recv, List.map_map]; rfl

theorem mem_recv (p q : Nat) (pos : List Nat) (hp : p < size) : (q, pos) ∈ (S p).recv ↔ ∃ l, (q, l) ∈ R p ∧ pos = l.map (loc S p) := by
  rw [(hP p hp).recv, List.mem_map]
  constructor
  · rintro ⟨⟨a, l⟩, he, h⟩
    injection h with h1 h2
    subst h1 h2
    exact ⟨l, he, rfl⟩
  · rintro ⟨l, he, rfl⟩
    exact ⟨(q, l), he, rfl⟩

theorem matched_update (maxTag : Nat) : Matched (updateCfg size maxTag S) where
  inNodup := fun p hp => by
    show ((S p).recv.map (·.1)).Nodup
    rw [recv_fst hP p hp]; exact (hP p hp).recvNodup
  outNodup := fun p hp => send_nodup hP p hp
  recvHas := fun p q pos hp h => by
    obtain ⟨l, h1, h2⟩ := (mem_recv hP p q pos hp).1 h
    have hq := ((hP p hp).recvOwn _ h1).1
    exact ⟨hq, l, (mem_send hP q p l hq).2 ⟨hp, h1⟩, by rw [h2]; simp⟩
  sendHas := fun p q pos hq h => by
    obtain ⟨h1, h2⟩ := (mem_send hP q p pos hq).1 h
    exact ⟨h1, _, (mem_recv hP p q _ h1).2 ⟨pos, h2, rfl⟩⟩

theorem matched_accumulate [Add K] (maxTag : Nat) : Matched (accumulateCfg size maxTag S) where
  inNodup := fun p hp => send_nodup hP p hp
  outNodup := fun p hp => by
    show ((S p).recv.map (·.1)).Nodup
    rw [recv_fst hP p hp]; exact (hP p hp).recvNodup
  recvHas := fun p q pos hp h => by
    obtain ⟨h1, h2⟩ := (mem_send hP p q pos hp).1 h
    exact ⟨h1, _, (mem_recv hP q p _ h1).2 ⟨pos, h2, rfl⟩, by simp⟩
  sendHas := fun p q pos hq h => by
    obtain ⟨l, h1, h2⟩ := (mem_recv hP q p pos hq).1 h
    have hp := ((hP q hq).recvOwn _ h1).1
    exact ⟨hp, l, (mem_send hP p q l hp).2 ⟨hq, h1⟩⟩

theorem received_update (maxTag : Nat) (x : Nat → Nat → K) (p : Nat) (hp : p < size) :
    received (updateCfg size maxTag S) x p = (R p).map fun e => (e.2.map (loc S p), e.2.map (x e.1)) := by
  unfold received
  show (S p).recv.map _ = _
  rw [(hP p hp).recv, List.map_map]
  apply List.map_congr_left
  intro e he
  have hq := ((hP p hp).recvOwn e he).1
  simp only [Function.comp]
  rw [outPos_eq _ (matched_update hP maxTag) e.1 p e.2 hq ((mem_send hP e.1 p e.2 hq).2 ⟨hp, he⟩)]

theorem received_accumulate [Add K] (maxTag : Nat) (x : Nat → Nat → K) (p : Nat) (hp : p < size) :
    received (accumulateCfg size maxTag S) x p = (S p).send.map fun e => (e.2.map id, e.2.map (fun g => x e.1 (loc S e.1 g))) := by
  unfold received
  show (S p).send.map _ = _
  apply List.map_congr_left
  intro e he
  obtain ⟨hq, h2⟩ := (mem_send hP p e.1 e.2 hp).1 he
  rw [outPos_eq _ (matched_accumulate hP maxTag) e.1 p (e.2.map (loc S e.1)) hq ((mem_recv hP e.1 p _ hq).2 ⟨e.2, h2, rfl⟩), List.map_id, List.map_map]
  rfl

/-- The pairs (owner, index) of a process. -/
def pairs (L : List (Nat × List Nat)) : List (Nat × Nat) := L.flatMap fun e => e.2.map fun g => (e.1, g)

omit hP in
theorem pairs_snd (L : List (Nat × List Nat)) : (pairs L).map (·.2) = L.flatMap (·.2) := by
  unfold pairs
  rw [List.map_flatMap]
  congr 1
  funext e
  simp [Function.comp_def]

theorem update_value (maxTag : Nat) (x : Nat → Nat → K) (p : Nat) (hp : p < size) (k : Nat) :
    unpackAll (fun _ new => new) (x p) (received (updateCfg size maxTag S) x p) k =
      ((pairs (R p)).filter (fun e => decide (k = loc S p e.2))).foldl (fun _ e => x e.1 e.2) (x p k) := by
  rw [received_update hP maxTag x p hp, unpackAll_map (fun _ new => new) (x p) (R p) (loc S p) x]
  exact foldOp (fun _ new => new) (fun e : Nat × Nat => loc S p e.2) (fun e => x e.1 e.2) _ (x p) k

theorem accumulate_value [Add K] (maxTag : Nat) (x : Nat → Nat → K) (p : Nat) (hp : p < size) (k : Nat) :
    unpackAll (fun old new => old + new) (x p) (received (accumulateCfg size maxTag S) x p) k =
      ((pairs (S p).send).filter (fun e => decide (k = e.2))).foldl (fun a e => a + x e.1 (loc S e.1 e.2)) (x p k) := by
  rw [received_accumulate hP maxTag x p hp, unpackAll_map (fun old new => old + new) (x p) (S p).send id (fun q g => x q (loc S q g))]
  exact foldOp (fun old new => old + new) (fun e : Nat × Nat => e.2) (fun e => x e.1 (loc S e.1 e.2)) _ (x p) k

theorem mem_pairs_own (p : Nat) (hp : p < size) (e : Nat × Nat) (he : e ∈ pairs (R p)) : Owns size gtp e.1 e.2 ∧ e.2 ∈ (S p).map.map (·.1) := by
  constructor
  · simp only [pairs, List.mem_flatMap, List.mem_map] at he
    obtain ⟨r, hr, g, hg, rfl⟩ := he
    exact ((hP p hp).recvOwn r hr).2 g hg
  · apply ((hP p hp).recvAll.mem_iff).1
    rw [← pairs_snd]
    exact List.mem_map.2 ⟨e, he, rfl⟩

/-- External positions receive the value of the owner. -/
theorem update_ghost (h : Intervals size gtp) (x : Nat → Nat → K) (p : Nat) (hp : p < size) (i g q : Nat) (hi : ((S p).map.map (·.1))[i]? = some g)
    (hq : Owns size gtp q g) :
    ((pairs (R p)).filter (fun e => decide (gtp (p + 1) + i = loc S p e.2))).foldl (fun _ e => x e.1 e.2) (x p (gtp (p + 1) + i)) = x q g := by
  have hm := (hP p hp).map
  have hmem : g ∈ (pairs (R p)).map (·.2) := by
    rw [pairs_snd]; exact ((hP p hp).recvAll.mem_iff).2 (List.mem_of_getElem? hi)
  obtain ⟨e, he, rfl⟩ := List.mem_map.1 hmem
  have hone : ∀ e' ∈ (pairs (R p)).filter (fun e => decide (gtp (p + 1) + i = loc S p e.2)), x e'.1 e'.2 = x q e.2 := by
    intro e' he'
    rw [List.mem_filter] at he'
    obtain ⟨h1, h2⟩ := he'
    obtain ⟨o1, o2⟩ := mem_pairs_own hP p hp e' h1
    obtain ⟨j, _, hj, hj'⟩ := lookup_mem _ _ _ _ hm _ o2
    simp only [loc, hj, Option.getD_some, decide_eq_true_eq] at h2
    have : j = i := by omega
    subst this
    rw [hi] at hj'
    injection hj' with hj'
    rw [← hj'] at o1 ⊢
    rw [o1.unique h hq]
  have hne : (pairs (R p)).filter (fun e => decide (gtp (p + 1) + i = loc S p e.2)) ≠ [] := by
    intro hnil
    have : e ∈ (pairs (R p)).filter (fun e => decide (gtp (p + 1) + i = loc S p e.2)) := by
      rw [List.mem_filter]
      refine ⟨he, ?_⟩
      simp only [loc, lookup_idx _ _ _ _ hm i e.2 hi, Option.getD_some, decide_true]
    rw [hnil] at this
    cases this
  generalize hF : (pairs (R p)).filter (fun e => decide (gtp (p + 1) + i = loc S p e.2)) = F at hone hne
  have gen : ∀ (F : List (Nat × Nat)) (a : K), F ≠ [] → (∀ e' ∈ F, x e'.1 e'.2 = x q e.2) → F.foldl (fun _ e => x e.1 e.2) a = x q e.2 := by
    intro F
    induction F with
    | nil => intro a h; exact absurd rfl h
    | cons b F ih =>
      intro a _ hall
      rw [List.foldl_cons]
      by_cases hF : F = []
      · subst hF; exact hall b (by simp)
      · exact ih _ hF (fun e' he' => hall e' (by simp [he']))
  exact gen F _ hne hone

theorem update_own (x : Nat → Nat → K) (p : Nat) (hp : p < size) (k : Nat) (hk : k < gtp (p + 1) ∨ (S p).ext ≤ k) :
    ((pairs (R p)).filter (fun e => decide (k = loc S p e.2))).foldl (fun _ e => x e.1 e.2) (x p k) = x p k := by
  have : (pairs (R p)).filter (fun e => decide (k = loc S p e.2)) = [] := by
    rw [List.filter_eq_nil_iff]
    intro e he
    obtain ⟨_, o2⟩ := mem_pairs_own hP p hp e he
    obtain ⟨j, hj0, hj, _⟩ := lookup_mem _ _ _ _ (hP p hp).map _ o2
    simp only [loc, hj, Option.getD_some, decide_eq_true_eq]
    have := (hP p hp).ext
    omega
  rw [this]; rfl

omit hP in
theorem foldl_add_sum [AddCommMonoid K] {α : Type} (v : α → K) (l : List α) (a : K) : l.foldl (fun a e => a + v e) a = a + (l.map v).sum := by
  induction l generalizing a with
  | nil => simp
  | cons e l ih => rw [List.foldl_cons, ih, List.map_cons, List.sum_cons, add_assoc]

omit hP in
theorem sum_filter_eq [AddCommMonoid K] (l : List Nat) (hn : l.Nodup) (k : Nat) (v : Nat → K) :
    ((l.filter (fun g => decide (k = g))).map v).sum = if k ∈ l then v k else 0 := by
  induction l with
  | nil => simp
  | cons g l ih =>
    rw [List.nodup_cons] at hn
    rw [List.filter_cons]
    by_cases hg : k = g
    · subst hg
      have : l.filter (fun g => decide (k = g)) = [] := by
        rw [List.filter_eq_nil_iff]
        intro a ha
        simp only [decide_eq_true_eq]
        rintro rfl
        exact hn.1 ha
      simp [this]
    · rw [if_neg (by simpa using hg), ih hn.2]
      simp [hg]

/-- The sum over all copies of an owned index. -/
theorem accumulate_sum [AddCommMonoid K] (h : Intervals size gtp) (x : Nat → Nat → K) (p : Nat) (hp : p < size) (k : Nat) (hk : Owns size gtp p k) :
    (((pairs (S p).send).filter (fun e => decide (k = e.2))).map (fun e => x e.1 (loc S e.1 e.2))).sum =
      ∑ q ∈ range size, if k ∈ (S q).map.map (·.1) then x q (loc S q k) else 0 := by
  have hperm : (pairs (S p).send).Perm (pairs (requests size R p)) := by
    unfold pairs
    exact List.Perm.flatMap_right _ (hP p hp).send
  rw [((hperm.filter _).map _).sum_eq]
  have hstep : ∀ n, n ≤ size → (((pairs ((List.range n).flatMap fun p' => (R p').filterMap fun e => if e.1 = p then some (p', e.2) else none)).filter
      (fun e => decide (k = e.2))).map (fun e => x e.1 (loc S e.1 e.2))).sum =
      ∑ q ∈ range n, if k ∈ (S q).map.map (·.1) then x q (loc S q k) else 0 := by
    intro n
    induction n with
    | zero => intro _; simp [pairs]
    | succ n ih =>
      intro hn
      rw [List.range_succ, List.flatMap_append, sum_range_succ, ← ih (by omega)]
      have hpa : ∀ L1 L2 : List (Nat × List Nat), pairs (L1 ++ L2) = pairs L1 ++ pairs L2 := by
        intro L1 L2; unfold pairs; rw [List.flatMap_append]
      rw [hpa, List.filter_append, List.map_append, List.sum_append]
      congr 1
      simp only [List.flatMap_cons, List.flatMap_nil, List.append_nil]
      -- the requests of the process n
      have hPn := hP n (by omega)
      have hkeys : (if k ∈ (S n).map.map (·.1) then x n (loc S n k) else 0) =
          ((((R n).flatMap (·.2)).filter (fun g => decide (k = g))).map (fun g => x n (loc S n g))).sum := by
        rw [((hPn.recvAll.filter _).map _).sum_eq, sum_filter_eq _ hPn.map.nodup]
      rw [hkeys]
      have hown : ∀ e ∈ R n, ∀ g ∈ e.2, Owns size gtp e.1 g := fun e he => (hPn.recvOwn e he).2
      generalize R n = L at hown
      induction L with
      | nil => simp [pairs]
      | cons e L ihL =>
        have hL := ihL (fun e' he' => hown e' (by simp [he']))
        rw [List.filterMap_cons, List.flatMap_cons, List.filter_append, List.map_append, List.sum_append, ← hL]
        by_cases he : e.1 = p
        · rw [if_pos he]
          have hc : ∀ (a : Nat × List Nat) L, pairs (a :: L) = (a.2.map fun g => (a.1, g)) ++ pairs L := fun a L => rfl
          simp only
          rw [hc, List.filter_append, List.map_append, List.sum_append]
          congr 1
          rw [List.filter_map, List.map_map]
          rfl
        · rw [if_neg he]
          have : e.2.filter (fun g => decide (k = g)) = [] := by
            rw [List.filter_eq_nil_iff]
            intro g hg
            simp only [decide_eq_true_eq]
            rintro rfl
            exact he ((hown e (by simp) k hg).unique h hk)
          rw [this]; simp
  exact hstep size (le_refl _)

/-- The positions of copies. -/
theorem copies_sum [AddCommMonoid K] (x : Nat → Nat → K) (q : Nat) (hq : q < size) (k : Nat) :
    (if k ∈ (S q).map.map (·.1) then x q (loc S q k) else 0) =
      ∑ j ∈ Ico (gtp (q + 1)) (S q).ext with extended (S q) (gtp (q + 1)) (j - gtp (q + 1)) = some k, x q j := by
  have hm := (hP q hq).map
  have hext := (hP q hq).ext
  by_cases hk : k ∈ (S q).map.map (·.1)
  · rw [if_pos hk]
    obtain ⟨i, hi, hl, hi'⟩ := lookup_mem _ _ _ _ hm k hk
    have hset : (Ico (gtp (q + 1)) (S q).ext).filter (fun j => extended (S q) (gtp (q + 1)) (j - gtp (q + 1)) = some k) = {gtp (q + 1) + i} := by
      ext j
      simp only [mem_filter, mem_Ico, mem_singleton]
      rw [extended_eq _ _ _ _ hm]
      constructor
      · rintro ⟨⟨h1, h2⟩, h3⟩
        have hlt : j - gtp (q + 1) < ((S q).map.map (·.1)).length := by rw [List.length_map]; omega
        have := (List.getElem?_inj hlt hm.nodup).1 (h3.trans hi'.symm)
        omega
      · rintro rfl
        exact ⟨⟨by omega, by omega⟩, by rw [show gtp (q + 1) + i - gtp (q + 1) = i by omega]; exact hi'⟩
    rw [hset, sum_singleton, loc, hl]; rfl
  · rw [if_neg hk]
    symm
    apply sum_eq_zero
    intro j hj
    simp only [mem_filter, mem_Ico] at hj
    rw [extended_eq _ _ _ _ hm] at hj
    exact absurd (List.mem_of_getElem? hj.2) hk

theorem accumulate_other [AddCommMonoid K] (x : Nat → Nat → K) (p : Nat) (hp : p < size) (k : Nat) (hk : ¬ Owns size gtp p k) :
    (((pairs (S p).send).filter (fun e => decide (k = e.2))).map (fun e => x e.1 (loc S e.1 e.2))).sum = 0 := by
  have : (pairs (S p).send).filter (fun e => decide (k = e.2)) = [] := by
    rw [List.filter_eq_nil_iff]
    intro e he
    simp only [pairs, List.mem_flatMap, List.mem_map] at he
    obtain ⟨r, hr, g, hg, rfl⟩ := he
    obtain ⟨h1, h2⟩ := (mem_send hP p r.1 r.2 hp).1 hr
    simp only [decide_eq_true_eq]
    rintro rfl
    exact hk (((hP r.1 h1).recvOwn _ h2).2 k hg)
  rw [this]; rfl

/-- Renumbered rows refer to positions of the original columns. -/
theorem renumber_global (p : Nat) (hp : p < size) (r : Row K)
    (hr : ∀ e ∈ r, (gtp p ≤ e.1 ∧ e.1 < gtp (p + 1)) ∨ e.1 ∈ (S p).map.map (·.1)) :
    List.Forall₂ (fun e e' => Global gtp S p e.1 e'.1 ∧ e.2 = e'.2) (renumber (S p).map r) r := by
  unfold renumber
  rw [List.forall₂_map_left_iff, List.forall₂_same]
  intro e he
  refine ⟨?_, rfl⟩
  have hm := (hP p hp).map
  have hext := (hP p hp).ext
  simp only
  by_cases hk : e.1 ∈ (S p).map.map (·.1)
  · obtain ⟨i, hi, hl, hi'⟩ := lookup_mem _ _ _ _ hm _ hk
    rw [hl]
    refine Or.inr ⟨by simp, by simp; omega, ?_⟩
    rw [extended_eq _ _ _ _ hm]
    simpa using hi'
  · rw [(lookup_none _ _).2 hk]
    rcases hr e he with h' | h'
    · exact Or.inl ⟨h'.1, h'.2, rfl⟩
    · exact absurd h' hk

end

end Verif.OrderInfo
