import Verif.OrderInfo.PrepareLemmas

/-!
# The invariant of the iterations of `PrepareMatrix`
-/

namespace Verif.OrderInfo

variable {K : Type}

/-- The state of a process before an iteration. -/
structure PInv (N lb le : Nat) (A : Nat → Row K) (s : PSt K) : Prop where
  map : MapOK N lb le s.map
  ext : s.ext = le + s.map.length
  stop : s.stop = le + s.map.length
  start : lb ≤ s.start
  own : ∀ k, lb ≤ k → k < le → s.rows k = A k
  added : ∀ (i g : Nat), (s.map.map (·.1))[i]? = some g → s.rows (le + i) = A g
  cols : ∀ k, lb ≤ k → k < s.start → k < s.stop → ∀ e ∈ s.rows k, (lb ≤ e.1 ∧ e.1 < le) ∨ e.1 ∈ s.map.map (·.1)

theorem rows_global (N lb le : Nat) (A : Nat → Row K) (s : PSt K) (h : PInv N lb le A s) (hN : le ≤ N) (k : Nat) (h1 : lb ≤ k) (h2 : k < s.stop) :
    ∃ g, g < N ∧ s.rows k = A g := by
  rcases Nat.lt_or_ge k le with hk | hk
  · exact ⟨k, by omega, h.own k h1 hk⟩
  · have hlt : k - le < (s.map.map (·.1)).length := by rw [List.length_map]; have := h.stop; omega
    have hg := List.getElem?_eq_getElem hlt
    refine ⟨_, (h.map.ext _ (List.getElem_mem hlt)).2, ?_⟩
    have := h.added (k - le) _ hg
    rwa [show le + (k - le) = k by omega] at this

/-- The result of the scan. -/
theorem scan_spec (N lb le : Nat) (A : Nat → Row K) (hA : Square N A) (last : Bool) (s : PSt K) (h : PInv N lb le A s) (hN : le ≤ N) (hle : 0 < le ∨ N = 0) :
    ∃ new, MapOK N lb le (s.map ++ new) ∧ scan lb le last s = (s.map ++ new, le + (s.map ++ new).length, if last then [] else new) ∧
      ∀ k, lb ≤ k → k < s.stop → ∀ e ∈ s.rows k, (lb ≤ e.1 ∧ e.1 < le) ∨ e.1 ∈ (s.map ++ new).map (·.1) := by
  have hinds : ∀ i ∈ (List.range' s.start (s.stop - s.start)).flatMap (fun k => (s.rows k).map (·.1)), i < N := by
    intro i hi
    simp only [List.mem_flatMap, List.mem_range'_1, List.mem_map] at hi
    obtain ⟨k, hk, e, he, rfl⟩ := hi
    obtain ⟨g, hg, hr⟩ := rows_global N lb le A s h hN k (by have := h.start; omega) (by omega)
    rw [hr] at he
    exact hA g hg e he
  obtain ⟨new, h1, h2, h3⟩ := scan_fold N lb le last hle _ hinds s.map [] h.map
  refine ⟨new, h1, ?_, ?_⟩
  · unfold scan; rw [h.ext, h3]; simp
  · intro k hk1 hk2 e he
    rcases Nat.lt_or_ge k s.start with hk | hk
    · rcases h.cols k hk1 hk hk2 e he with h' | h'
      · exact Or.inl h'
      · right; rw [List.map_append]; exact List.mem_append_left _ h'
    · apply h2
      simp only [List.mem_flatMap, List.mem_range'_1, List.mem_map]
      exact ⟨k, ⟨hk, by omega⟩, e, he, rfl⟩

/-- The requested indices. -/
theorem requested_spec (N lb le : Nat) (last : Bool) (s : PSt K) (new : List (Nat × Nat)) (hm : MapOK N lb le (s.map ++ new))
    (hs : scan lb le last s = (s.map ++ new, le + (s.map ++ new).length, if last then [] else new)) :
    (requested lb le last s).Pairwise (· < ·) ∧ (requested lb le last s).Perm ((if last then s.map ++ new else new).map (·.1)) := by
  unfold requested
  rw [hs]
  simp only
  have hp : ∀ l : List Nat, (l.mergeSort (fun a b => decide (a ≤ b))).Perm l := fun l => List.mergeSort_perm l _
  have hso : ∀ l : List Nat, (l.mergeSort (fun a b => decide (a ≤ b))).Pairwise (· ≤ ·) := by
    intro l
    have := List.pairwise_mergeSort (le := fun a b : Nat => decide (a ≤ b)) (by intro a b c; simp; omega) (by intro a b; simp; omega) l
    exact this.imp (by simp)
  have hsub : (if last = true then s.map ++ new else if last = true then [] else new) = (if last = true then s.map ++ new else new) := by
    cases last <;> rfl
  rw [hsub]
  have hn : (((if last = true then s.map ++ new else new).map (·.1))).Nodup := by
    have := hm.nodup
    cases last
    · rw [List.map_append] at this; exact (List.nodup_append.1 this).2.1
    · exact this
  refine ⟨?_, hp _⟩
  have h1 := hso ((if last = true then s.map ++ new else new).map (·.1))
  have h2 : ((((if last = true then s.map ++ new else new).map (·.1))).mergeSort (fun a b => decide (a ≤ b))).Pairwise (· ≠ ·) :=
    (hp _).nodup_iff.2 hn
  exact (h1.and h2).imp (fun h => lt_of_le_of_ne h.1 h.2)

section

variable (size : Nat) (gtp : Nat → Nat) (h : Intervals size gtp) (A : Nat → Row K) (hA : Square (gtp size) A)
include h hA

theorem le_pos (p : Nat) (hp : p < size) : 0 < gtp (p + 1) ∨ gtp size = 0 := by
  rcases Nat.eq_zero_or_pos (gtp (p + 1)) with h0 | h0
  · have h1 := h.le (Nat.zero_le p) hp.le
    have h2 := h.mono p hp
    have := h.trail p hp (by omega)
    right; omega
  · exact Or.inl h0

/-- What an iteration computes on a process. -/
theorem iter_spec (last : Bool) (S : Nat → PSt K) (hS : ∀ p, p < size → PInv (gtp size) (gtp p) (gtp (p + 1)) A (S p)) (p : Nat) (hp : p < size) :
    ∃ new R, MapOK (gtp size) (gtp p) (gtp (p + 1)) ((S p).map ++ new) ∧
      scan (gtp p) (gtp (p + 1)) last (S p) = ((S p).map ++ new, gtp (p + 1) + ((S p).map ++ new).length, if last then [] else new) ∧
      (∀ k, gtp p ≤ k → k < (S p).stop → ∀ e ∈ (S p).rows k, (gtp p ≤ e.1 ∧ e.1 < gtp (p + 1)) ∨ e.1 ∈ ((S p).map ++ new).map (·.1)) ∧
      buildRecv size gtp (requested (gtp p) (gtp (p + 1)) last (S p)) = some R ∧
      RecvOK size gtp (requested (gtp p) (gtp (p + 1)) last (S p)) R ∧
      (requested (gtp p) (gtp (p + 1)) last (S p)).Pairwise (· < ·) ∧
      (requested (gtp p) (gtp (p + 1)) last (S p)).Perm ((if last then (S p).map ++ new else new).map (·.1)) := by
  obtain ⟨new, h1, h2, h3⟩ := scan_spec (gtp size) (gtp p) (gtp (p + 1)) A hA last (S p) (hS p hp) (h.le (by omega) (le_refl _)) (le_pos size gtp h A hA p hp)
  obtain ⟨h4, h5⟩ := requested_spec (gtp size) (gtp p) (gtp (p + 1)) last (S p) new h1 h2
  have h6 : ∀ g ∈ requested (gtp p) (gtp (p + 1)) last (S p), g < gtp size := by
    intro g hg
    have := (h5.mem_iff).1 hg
    apply (h1.ext g _).2
    cases last
    · rw [List.map_append]; exact List.mem_append_right _ this
    · exact this
  obtain ⟨R, h7, h8⟩ := buildRecv_spec size gtp h _ h4 h6
  exact ⟨new, R, h1, h2, h3, h7, h8, h4, h5⟩

/-- An iteration before the last one preserves the invariant. -/
theorem middle_inv (S S' : Nat → PSt K) (hS : ∀ p, p < size → PInv (gtp size) (gtp p) (gtp (p + 1)) A (S p)) (hi : Iter size gtp false S S') :
    ∀ p, p < size → PInv (gtp size) (gtp p) (gtp (p + 1)) A (S' p) := by
  obtain ⟨R, Sd, hR, hSd, hS'⟩ := hi
  intro p hp
  obtain ⟨new, R', h1, h2, h3, h4, h5, h6, h7⟩ := iter_spec size gtp h A hA false S hS p hp
  rw [hR p hp] at h4
  injection h4 with h4
  rw [← h4] at h5
  have hinv := hS p hp
  rw [hS' p hp]
  simp only [Bool.false_eq_true, if_false, finishMiddle, h2] at h7 ⊢
  -- the pairs (owner, index) of received rows
  generalize hL : ((R p).flatMap fun e => e.2.map fun r => (e.1, r)) = L
  have hLsnd : L.map (·.2) = requested (gtp p) (gtp (p + 1)) false (S p) := by
    rw [← h5.all, ← hL, List.map_flatMap]
    congr 1
    funext e
    simp [Function.comp_def]
  have hLnew : ∀ e ∈ L, e.2 ∈ new.map (·.1) := by
    intro e he
    apply (h7.mem_iff).1
    rw [← hLsnd]
    exact List.mem_map.2 ⟨e, he, rfl⟩
  have hidx : ∀ g ∈ new.map (·.1), ∃ i, i < new.length ∧ (new.map (·.1))[i]? = some g ∧
      lookup ((S p).map ++ new) g = some (gtp (p + 1) + ((S p).map.length + i)) := by
    intro g hg
    obtain ⟨i, hi⟩ := List.getElem?_of_mem hg
    have hlt : i < new.length := by
      rcases Nat.lt_or_ge i new.length with h' | h'
      · exact h'
      · rw [List.getElem?_eq_none (by simpa using h')] at hi; cases hi
    refine ⟨i, hlt, hi, lookup_idx _ _ _ _ h1 _ _ ?_⟩
    rw [List.map_append, List.getElem?_append_right (by simp)]
    simpa using hi
  have hput_old : ∀ k, k < gtp (p + 1) + (S p).map.length → putRows ((S p).map ++ new) (fun q r => (S q).rows r) (R p) (S p).rows k = (S p).rows k := by
    intro k hk
    rw [putRows_eq, hL]
    apply foldUpd_not
    intro e he
    obtain ⟨i, _, _, hi⟩ := hidx e.2 (hLnew e he)
    rw [hi]; simp; omega
  have hput_new : ∀ (i g : Nat), (new.map (·.1))[i]? = some g →
      putRows ((S p).map ++ new) (fun q r => (S q).rows r) (R p) (S p).rows (gtp (p + 1) + ((S p).map.length + i)) = A g := by
    intro i g hi
    have hg : g ∈ new.map (·.1) := List.mem_of_getElem? hi
    have hgL : g ∈ L.map (·.2) := by rw [hLsnd]; exact (h7.mem_iff).2 hg
    obtain ⟨e, he, rfl⟩ := List.mem_map.1 hgL
    have hlk : (lookup ((S p).map ++ new) e.2).getD 0 = gtp (p + 1) + ((S p).map.length + i) := by
      rw [lookup_idx _ _ _ _ h1 ((S p).map.length + i) e.2 (by
        rw [List.map_append, List.getElem?_append_right (by simp)]; simpa using hi)]
      rfl
    rw [putRows_eq, hL]
    have hnod : (L.map fun e => (lookup ((S p).map ++ new) e.2).getD 0).Nodup := by
      have hL2 : (L.map (·.2)).Nodup := by
        rw [hLsnd]; exact h6.imp (fun h => Nat.ne_of_lt h)
      have : (L.map fun e => (lookup ((S p).map ++ new) e.2).getD 0) = (L.map (·.2)).map (fun g => (lookup ((S p).map ++ new) g).getD 0) := by
        rw [List.map_map]; rfl
      rw [this]
      apply List.Nodup.map_on _ hL2
      intro a ha b hb hab
      rw [hLsnd] at ha hb
      obtain ⟨ia, _, ja, ka⟩ := hidx a ((h7.mem_iff).1 ha)
      obtain ⟨ib, _, jb, kb⟩ := hidx b ((h7.mem_iff).1 hb)
      rw [ka, kb] at hab
      simp only [Option.getD_some] at hab
      have : ia = ib := by omega
      subst this
      rw [ja] at jb
      injection jb
    have := foldUpd_mem (fun e : Nat × Nat => (lookup ((S p).map ++ new) e.2).getD 0) (fun e => (S e.1).rows e.2) L (S p).rows hnod e he
    simp only [hlk] at this
    rw [this]
    rw [← hL] at he
    simp only [List.mem_flatMap, List.mem_map] at he
    obtain ⟨r, hr, g', hg', rfl⟩ := he
    obtain ⟨_, o1, o2⟩ := h5.own r hr
    have o := o2 g' hg'
    exact (hS r.1 o1).own g' o.2.1 o.2.2
  refine ⟨h1, rfl, rfl, ?_, ?_, ?_, ?_⟩
  · have := hinv.stop
    have := h.mono p hp
    simp only; omega
  · intro k hk1 hk2
    simp only
    rw [hput_old k (by omega)]
    exact hinv.own k hk1 hk2
  · intro i g hi
    simp only at hi ⊢
    rw [List.map_append] at hi
    rcases Nat.lt_or_ge i (S p).map.length with hlt | hge
    · rw [List.getElem?_append_left (by simpa using hlt)] at hi
      rw [hput_old _ (by omega)]
      exact hinv.added i g hi
    · rw [List.getElem?_append_right (by simpa using hge)] at hi
      have := hput_new (i - (S p).map.length) g (by simpa using hi)
      rwa [show (S p).map.length + (i - (S p).map.length) = i by omega] at this
  · intro k hk1 hk2 _ e he
    simp only at hk2 he ⊢
    rw [hput_old k (by have := hinv.stop; omega)] at he
    exact h3 k hk1 hk2 e he

/-- What the last iteration leaves. -/
structure Prepared (R : Nat → List (Nat × List Nat)) (S' : Nat → PSt K) (p : Nat) : Prop where
  map : MapOK (gtp size) (gtp p) (gtp (p + 1)) (S' p).map
  ext : (S' p).ext = gtp (p + 1) + (S' p).map.length
  stop : gtp (p + 1) ≤ (S' p).stop ∧ (S' p).stop ≤ (S' p).ext
  recvAll : ((R p).flatMap (·.2)).Perm ((S' p).map.map (·.1))
  recvOwn : ∀ e ∈ R p, e.1 < size ∧ ∀ g ∈ e.2, Owns size gtp e.1 g
  recvNodup : ((R p).map (·.1)).Nodup
  recv : (S' p).recv = (R p).map fun e => (e.1, e.2.map fun g => (lookup (S' p).map g).getD 0)
  send : (S' p).send.Perm (requests size R p)
  own : ∀ k, gtp p ≤ k → k < gtp (p + 1) → (S' p).rows k = renumber (S' p).map (A k) ∧
    ∀ e ∈ A k, (gtp p ≤ e.1 ∧ e.1 < gtp (p + 1)) ∨ e.1 ∈ (S' p).map.map (·.1)
  added : ∀ (i g : Nat), ((S' p).map.map (·.1))[i]? = some g → gtp (p + 1) + i < (S' p).stop →
    (S' p).rows (gtp (p + 1) + i) = renumber (S' p).map (A g) ∧
      ∀ e ∈ A g, (gtp p ≤ e.1 ∧ e.1 < gtp (p + 1)) ∨ e.1 ∈ (S' p).map.map (·.1)

theorem last_inv (S S' : Nat → PSt K) (hS : ∀ p, p < size → PInv (gtp size) (gtp p) (gtp (p + 1)) A (S p)) (hi : Iter size gtp true S S') :
    ∃ R, ∀ p, p < size → Prepared size gtp A R S' p := by
  obtain ⟨R, Sd, hR, hSd, hS'⟩ := hi
  refine ⟨R, fun p hp => ?_⟩
  obtain ⟨new, R', h1, h2, h3, h4, h5, h6, h7⟩ := iter_spec size gtp h A hA true S hS p hp
  rw [hR p hp] at h4
  injection h4 with h4
  rw [← h4] at h5
  have hinv := hS p hp
  have hst := hinv.stop
  have hmono := h.mono p hp
  have hSp := hS' p hp
  simp only [if_true, finishLast, h2] at h7 hSp
  have e1 : (S' p).map = (S p).map ++ new := by rw [hSp]
  have e2 : (S' p).stop = (S p).stop := by rw [hSp]
  have e3 : ∀ k, (S' p).rows k = if gtp p ≤ k ∧ k < (S p).stop then renumber ((S p).map ++ new) ((S p).rows k) else (S p).rows k := by rw [hSp]; intro k; rfl
  refine ⟨by rw [e1]; exact h1, by rw [hSp], ?_, ?_, fun e he => (h5.own e he).2, h5.nodup, by rw [hSp], by rw [hSp]; exact hSd p hp, ?_, ?_⟩
  · rw [hSp]; simp only [List.length_append]; omega
  · rw [h5.all, e1]; exact h7
  · intro k hk1 hk2
    have hr := hinv.own k hk1 hk2
    have hc := h3 k hk1 (by omega)
    rw [e3, if_pos ⟨hk1, by omega⟩, e1]
    rw [hr] at hc ⊢
    exact ⟨rfl, hc⟩
  · intro i g hi hlt
    rw [e2] at hlt
    rw [e1, List.map_append, List.getElem?_append_left (by rw [List.length_map]; omega)] at hi
    have hr := hinv.added i g hi
    have hc := h3 (gtp (p + 1) + i) (by omega) hlt
    rw [e3, if_pos ⟨by omega, hlt⟩, e1]
    rw [hr] at hc ⊢
    exact ⟨rfl, hc⟩

theorem start_inv (p : Nat) (hp : p < size) : PInv (gtp size) (gtp p) (gtp (p + 1)) A (start gtp A p) := by
  refine ⟨⟨rfl, List.nodup_nil, fun g hg => (by cases hg)⟩, rfl, rfl, le_refl _, ?_, ?_, ?_⟩
  · intro k h1 h2; exact if_pos ⟨h1, h2⟩
  · intro i g hi; simp [start] at hi
  · intro k h1 h2; simp only [start] at h2; omega

theorem iters_prepared (n : Nat) (S S' : Nat → PSt K) (hS : ∀ p, p < size → PInv (gtp size) (gtp p) (gtp (p + 1)) A (S p)) (hi : Iters size gtp n S S') :
    ∃ R, ∀ p, p < size → Prepared size gtp A R S' p := by
  induction n generalizing S with
  | zero => exact last_inv size gtp h A hA S S' hS hi
  | succ n ih =>
    obtain ⟨S1, hi1, hi2⟩ := hi
    exact ih S1 (middle_inv size gtp h A hA S S1 hS hi1) hi2

theorem prepared (overlap : Nat) (S' : Nat → PSt K) (hp : Prepare size gtp A overlap S') : ∃ R, ∀ p, p < size → Prepared size gtp A R S' p :=
  iters_prepared size gtp h A hA overlap _ S' (start_inv size gtp h A hA) hp

theorem iter_exists (last : Bool) (S : Nat → PSt K) (hS : ∀ p, p < size → PInv (gtp size) (gtp p) (gtp (p + 1)) A (S p)) : ∃ S', Iter size gtp last S S' := by
  have hR : ∀ p, ∃ R, p < size → buildRecv size gtp (requested (gtp p) (gtp (p + 1)) last (S p)) = some R := by
    intro p
    by_cases hp : p < size
    · obtain ⟨_, R, _, _, _, h4, _⟩ := iter_spec size gtp h A hA last S hS p hp
      exact ⟨R, fun _ => h4⟩
    · exact ⟨[], fun h => absurd h hp⟩
  choose R hR using hR
  exact ⟨_, R, fun p => requests size R p, fun p hp => hR p hp, fun p _ => List.Perm.refl _, fun p _ => rfl⟩

/-- `PrepareMatrix` has an outcome. -/
theorem prepare_exists (overlap : Nat) : ∃ S', Prepare size gtp A overlap S' := by
  have gen : ∀ n (S : Nat → PSt K), (∀ p, p < size → PInv (gtp size) (gtp p) (gtp (p + 1)) A (S p)) → ∃ S', Iters size gtp n S S' := by
    intro n
    induction n with
    | zero => intro S hS; exact iter_exists size gtp h A hA true S hS
    | succ n ih =>
      intro S hS
      obtain ⟨S1, h1⟩ := iter_exists size gtp h A hA false S hS
      obtain ⟨S', h2⟩ := ih S1 (middle_inv size gtp h A hA S S1 hS h1)
      exact ⟨S', S1, h1, h2⟩
  exact gen overlap _ (start_inv size gtp h A hA)

end

end Verif.OrderInfo
