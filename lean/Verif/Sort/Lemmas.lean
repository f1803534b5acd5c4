import Verif.Sort.Model
import Mathlib.Data.List.Perm.Subperm
import Mathlib.Data.List.Nodup

/-! # The radix sort -/

namespace Verif.Sort

/-- The elements of `a` ordered by their keys below `n`, those with equal keys in their
order. -/
def buckets (key : Nat → Nat) (a : List Nat) (n : Nat) : List Nat :=
  (List.range n).flatMap fun k => a.filter fun x => key x = k

theorem buckets_succ (key : Nat → Nat) (a : List Nat) (n : Nat) :
    buckets key a (n + 1) = buckets key a n ++ a.filter fun x => key x = n := by
  simp [buckets, List.range_succ, List.flatMap_append]

theorem count_hist (key : Nat → Nat) (a : List Nat) (k : Nat) :
    hist key a k = BitVec.ofNat 32 (a.filter fun x => key x = k).length := by
  induction a with
  | nil => simp [hist]
  | cons x a ih =>
    rw [hist]
    by_cases h : k = key x
    · simp only [h, if_true, List.filter_cons, decide_true, List.length_cons]
      rw [← h, ih, BitVec.ofNat_add]; rfl
    · have h' : ¬ key x = k := fun e => h e.symm
      simp only [h, if_false, List.filter_cons, h', decide_false, Bool.false_eq_true]
      exact ih

theorem prefixSums_eq (key : Nat → Nat) (a : List Nat) : ∀ (n i : Nat) (sum : U32) (b : Nat → U32),
    sum = BitVec.ofNat 32 (buckets key a i).length →
    (∀ k, i ≤ k → b k = hist key a k) → ∀ k,
    prefixSums n i sum b k =
      if i ≤ k ∧ k < i + n then BitVec.ofNat 32 (buckets key a k).length - 1 else b k := by
  intro n
  induction n with
  | zero => intro i sum b _ _ k; simp [prefixSums]; omega
  | succ n ih =>
    intro i sum b hs hb k
    rw [prefixSums, ih (i + 1) _ _ ?_ ?_ k]
    · by_cases hk : k = i
      · subst hk; simp [hs]
      · by_cases h2 : i + 1 ≤ k ∧ k < i + 1 + n
        · rw [if_pos h2, if_pos (by omega)]
        · rw [if_neg h2, if_neg hk, if_neg (by omega)]
    · rw [hb i (Nat.le_refl _), count_hist, hs, buckets_succ, List.length_append,
        BitVec.ofNat_add, BitVec.add_comm]
    · intro k hk
      rw [if_neg (by omega), hb k (by omega)]

theorem buckets_length_mono (key : Nat → Nat) (a : List Nat) {i j : Nat} (h : i ≤ j) :
    (buckets key a i).length ≤ (buckets key a j).length := by
  induction h with
  | refl => exact Nat.le_refl _
  | step _ ih => rw [buckets_succ, List.length_append]; omega

theorem buckets_perm (key : Nat → Nat) (a : List Nat) (n : Nat) :
    (buckets key a n).Perm (a.filter fun x => key x < n) := by
  induction n with
  | zero => simp [buckets]
  | succ n ih =>
    rw [buckets_succ]
    refine (ih.append_right _).trans ?_
    have := List.filter_append_perm (fun x => decide (key x < n))
      (a.filter fun x => key x < n + 1)
    refine List.Perm.trans ?_ this
    rw [List.filter_filter, List.filter_filter]
    apply List.Perm.of_eq
    congr 1
    · apply List.filter_congr
      intro x _
      simp only [← Bool.decide_and]
      apply decide_eq_decide.2; omega
    · apply List.filter_congr
      intro x _
      by_cases h : key x = n
      · simp [h]
      · by_cases h2 : key x < n
        · simp [h, h2]
        · have : ¬ key x < n + 1 := by omega
          simp [h, h2, this]

theorem buckets_perm_self {key : Nat → Nat} {a : List Nat} {n : Nat} (h : ∀ x, key x < n) :
    (buckets key a n).Perm a := by
  refine (buckets_perm key a n).trans (List.Perm.of_eq ?_)
  rw [List.filter_eq_self]
  intro x _; simp [h x]

/-- What `scatter` has written after the prefix `pre`. -/
def Written (N : Nat) (key : Nat → Nat) (a pre out : List Nat) : Prop :=
  ∀ k < N, ∀ r, r < (pre.filter fun x => key x = k).length →
    out[(buckets key a k).length + r]? = (pre.filter fun x => key x = k)[r]?

theorem scatter_eq {N : Nat} (key : Nat → Nat) (a : List Nat) (hk : ∀ x, key x < N) (hlen : a.length < 2 ^ 32) :
    ∀ (suf pre : List Nat) (b : Nat → U32) (out : List Nat), (∀ k, (pre ++ suf).filter
      (fun x => key x = k) = a.filter fun x => key x = k) → (pre ++ suf).length = a.length →
    out.length = a.length →
    (∀ k < N, b k = BitVec.ofNat 32
      ((buckets key a k).length + (pre.filter fun x => key x = k).length) - 1) →
    Written N key a pre out →
    ∃ out', scatter key suf b out = some out' ∧ out'.length = a.length ∧
      Written N key a (pre ++ suf) out' := by
  intro suf
  induction suf with
  | nil =>
    intro pre b out _ _ hl _ hw
    exact ⟨out, rfl, hl, by simpa using hw⟩
  | cons x suf ih =>
    intro pre b out ha hal hl hb hw
    have hkx := hk x
    have htot : (buckets key a N).length = a.length := (buckets_perm_self hk).length_eq
    have hcnt : (pre.filter fun y => key y = key x).length + 1 ≤
        (a.filter fun y => key y = key x).length := by
      rw [← ha (key x), List.filter_append, List.length_append]
      simp
    have hroom : (buckets key a (key x)).length + (pre.filter fun y => key y = key x).length
        < a.length := by
      have h1 := buckets_length_mono key a (show key x + 1 ≤ N by omega)
      rw [buckets_succ, List.length_append] at h1
      omega
    have hpos : (b (key x) + 1).toNat =
        (buckets key a (key x)).length + (pre.filter fun y => key y = key x).length := by
      rw [hb (key x) hkx, BitVec.sub_add_cancel, BitVec.toNat_ofNat, Nat.mod_eq_of_lt (by omega)]
    rw [scatter]
    simp only [hpos]
    rw [if_pos (by omega)]
    obtain ⟨out', h1, h2, h3⟩ := ih (pre ++ [x]) _ (out.set ((buckets key a (key x)).length +
        (pre.filter fun y => key y = key x).length) x)
      (by intro k; rw [List.append_assoc]; exact ha k) (by rw [List.append_assoc]; exact hal)
      (by simpa using hl)
      (by
        intro k hk'
        show (if k = key x then b (key x) + 1 else b k) = _
        by_cases e : k = key x
        · subst e
          rw [if_pos rfl, hb _ hkx, List.filter_append, List.length_append]
          simp only [List.filter_cons, decide_true, if_true, List.filter_nil, List.length_singleton,
            ← Nat.add_assoc]
          rw [BitVec.ofNat_add _ 1]
          generalize BitVec.ofNat 32 ((buckets key a (key x)).length +
            (List.filter (fun y => decide (key y = key x)) pre).length) = c
          rw [BitVec.sub_add_cancel]
          exact (BitVec.add_sub_cancel c 1).symm
        · have e' : ¬ key x = k := fun h => e h.symm
          rw [if_neg e, hb k hk', List.filter_append]
          simp [e'])
      (by
        intro k hk' r hr
        rw [List.filter_append] at hr ⊢
        by_cases e : key x = k
        · subst e
          simp only [List.filter_cons, decide_true, if_true, List.filter_nil, List.length_append,
            List.length_singleton] at hr ⊢
          by_cases hr2 : r = (pre.filter fun y => key y = key x).length
          · subst hr2
            rw [List.getElem?_set_self (by omega), List.getElem?_append_right (Nat.le_refl _)]
            simp
          · rw [List.getElem?_set_ne (by omega), hw _ hkx r (by omega),
              List.getElem?_append_left (by omega)]
        · simp only [List.filter_cons, e, decide_false, Bool.false_eq_true, if_false,
            List.filter_nil, List.append_nil] at hr ⊢
          rw [List.getElem?_set_ne ?_, hw k hk' r hr]
          rcases Nat.lt_or_gt_of_ne e with hlt | hgt
          · have h1 := buckets_length_mono key a (show key x + 1 ≤ k by omega)
            rw [buckets_succ, List.length_append] at h1
            omega
          · have h1 := buckets_length_mono key a (show k + 1 ≤ key x by omega)
            rw [buckets_succ, List.length_append] at h1
            have h2 : (pre.filter fun y => key y = k).length ≤
                (a.filter fun y => key y = k).length := by
              rw [← ha k, List.filter_append, List.length_append]; omega
            omega)
    refine ⟨out', h1, h2, ?_⟩
    rw [List.append_assoc] at h3
    exact h3

theorem written_take {N : Nat} (key : Nat → Nat) (a src out : List Nat) (hf : ∀ k, src.filter
      (fun x => key x = k) = a.filter fun x => key x = k) (hw : Written N key a src out) :
    ∀ n ≤ N, out.take (buckets key a n).length = buckets key a n := by
  intro n
  induction n with
  | zero => intro _; simp [buckets]
  | succ n ih =>
    intro hn
    have h1 := ih (by omega)
    have h2 := hw n (by omega)
    rw [hf n] at h2
    rw [buckets_succ, List.length_append, List.take_add, h1]
    congr 1
    apply List.ext_getElem?
    intro i
    rw [List.getElem?_take, List.getElem?_drop]
    by_cases hi : i < (a.filter fun x => decide (key x = n)).length
    · rw [if_pos hi]; exact h2 i hi
    · rw [if_neg hi, List.getElem?_eq_none (by omega)]

/-- One pass is a stable bucket sort, whatever the way the positions were computed. -/
theorem pass_of {N : Nat} {key : Nat → Nat} {src dst : List Nat} {b : Nat → U32}
    (hk : ∀ x, key x < N) (hlen : src.length < 2 ^ 32) (hd : dst.length = src.length)
    (hb : ∀ k < N, b k = BitVec.ofNat 32 (buckets key src k).length - 1) :
    scatter key src b dst = some (buckets key src N) := by
  obtain ⟨out, h1, h2, h3⟩ := scatter_eq key src hk hlen src []
    b dst (fun k => by simp) (by simp) hd
    (by
      intro k hk'
      rw [hb k hk']; simp)
    (by intro k _ r hr; simp at hr)
  rw [h1]
  simp only [List.nil_append] at h3
  have h4 := written_take key src src out (fun k => rfl) h3 N (Nat.le_refl _)
  rw [(buckets_perm_self hk).length_eq, ← h2, List.take_length] at h4
  rw [h4]

/-- One pass is a stable bucket sort. -/
theorem pass_eq {N : Nat} {key : Nat → Nat} {orig src dst : List Nat} (hk : ∀ x, key x < N)
    (hp : src.Perm orig) (hlen : orig.length < 2 ^ 32) (hd : dst.length = src.length) :
    scatter key src (prefixSums N 0 0 (hist key orig)) dst = some (buckets key src N) := by
  have hh : hist key orig = hist key src := by
    funext k
    rw [count_hist, count_hist, (hp.filter _).length_eq]
  rw [hh]
  refine pass_of hk (by rw [hp.length_eq]; exact hlen) hd ?_
  intro k hk'
  rw [prefixSums_eq key src N 0 0 _ (by simp [buckets]) (fun k _ => rfl) k]
  rw [if_pos (by omega)]

/-- A stable bucket sort refines an order that holds already. -/
theorem buckets_pairwise {key : Nat → Nat} {R : Nat → Nat → Prop} {a : List Nat} (h : a.Pairwise R) :
    ∀ n, (buckets key a n).Pairwise fun x y => key x < key y ∨ (key x = key y ∧ R x y) := by
  intro n
  induction n with
  | zero => simp [buckets]
  | succ n ih =>
    rw [buckets_succ, List.pairwise_append]
    refine ⟨ih, ?_, ?_⟩
    · refine (h.filter fun x => decide (key x = n)).imp_of_mem ?_
      intro x y hx hy hr
      have h1 := of_decide_eq_true (List.mem_filter.1 hx).2
      have h2 := of_decide_eq_true (List.mem_filter.1 hy).2
      exact .inr ⟨by rw [h1, h2], hr⟩
    · intro x hx y hy
      have h1 := of_decide_eq_true (List.mem_filter.1 ((buckets_perm key a n).subset hx)).2
      have h2 := of_decide_eq_true (List.mem_filter.1 hy).2
      exact .inl (by omega)

theorem byte_lt (x j : Nat) : byte x j < 256 := Nat.mod_lt _ (by decide)

theorem mod_step (x j : Nat) : x % 256 ^ (j + 1) = x % 256 ^ j + 256 ^ j * byte x j := by
  rw [Nat.pow_succ, Nat.mod_mul, byte]

theorem mod_le {x y j : Nat}
    (h : byte x j < byte y j ∨ (byte x j = byte y j ∧ x % 256 ^ j ≤ y % 256 ^ j)) :
    x % 256 ^ (j + 1) ≤ y % 256 ^ (j + 1) := by
  rw [mod_step, mod_step]
  rcases h with h | ⟨h1, h2⟩
  · have hx : x % 256 ^ j < 256 ^ j := Nat.mod_lt _ (Nat.pow_pos (by decide))
    have : 256 ^ j * (byte x j + 1) ≤ 256 ^ j * byte y j := Nat.mul_le_mul_left _ h
    rw [Nat.mul_add, Nat.mul_one] at this
    omega
  · rw [h1]; omega

theorem passes_spec (val : Nat → Nat) (orig : List Nat) (hlen : orig.length < 2 ^ 32) :
    ∀ (n j : Nat) (src dst : List Nat), src.Perm orig → dst.length = src.length →
    (src.Pairwise fun x y => val x % 256 ^ j ≤ val y % 256 ^ j) →
    ∃ r d, passes val orig (List.range' j n) src dst = some (r, d) ∧ r.Perm orig ∧
      r.Pairwise fun x y => val x % 256 ^ (j + n) ≤ val y % 256 ^ (j + n) := by
  intro n
  induction n with
  | zero =>
    intro j src dst hp hd hs
    exact ⟨src, dst, by simp [passes], hp, hs⟩
  | succ n ih =>
    intro j src dst hp hd hs
    have hk : ∀ x, (fun x => byte (val x) j) x < 256 := fun x => byte_lt _ _
    have h1 := pass_eq (dst := dst) hk hp hlen hd
    have h2 := buckets_perm_self (a := src) hk
    obtain ⟨r, d, g1, g2, g3⟩ := ih (j + 1) (buckets (fun x => byte (val x) j) src 256) src
      (h2.trans hp) h2.length_eq.symm
      ((buckets_pairwise (key := fun x => byte (val x) j) hs 256).imp fun h => mod_le h)
    refine ⟨r, d, ?_, g2, ?_⟩
    · rw [List.range'_succ, passes]
      simp only [h1]
      exact g1
    · rw [show j + (n + 1) = j + 1 + n by omega]; exact g3

/-- The radix sort sorts by the value, for every length that fits the counters. -/
theorem radix_spec (val : Nat → Nat) (w : Nat) (a : List Nat) (hlen : a.length < 2 ^ 32)
    (hv : ∀ x ∈ a, val x < 256 ^ w) :
    ∃ r, radix val w a = some r ∧ r.Perm a ∧ r.Pairwise fun x y => val x ≤ val y := by
  obtain ⟨r, d, h1, h2, h3⟩ := passes_spec val a hlen w 0 a (List.replicate a.length 0) (.refl _)
    (by simp) (List.pairwise_of_forall (by intro x y; simp [Nat.mod_one]))
  refine ⟨r, ?_, h2, ?_⟩
  · rw [radix, List.range_eq_range', h1]
  · refine h3.imp_of_mem fun {x y} hx hy h => ?_
    rw [Nat.zero_add, Nat.mod_eq_of_lt (hv x (h2.subset hx)),
      Nat.mod_eq_of_lt (hv y (h2.subset hy))] at h
    exact h

end Verif.Sort
