import Verif.Partition.Skm
import Mathlib.Tactic.Linarith
import Mathlib.Tactic.Ring
import Mathlib.Tactic.NormNum
import Mathlib.Tactic.FieldSimp
import Mathlib.Tactic.Positivity
/-
Lemmas for the partitioner `INNER_SKMEANS`.
-/

namespace Verif.Partition

/-! ### Counts -/

/-- Every point has a cluster among the `K`. -/
def Valid (K : Nat) (cl : List (Option Nat)) : Prop := ∀ q ∈ cl, ∃ k, q = some k ∧ k < K

theorem Valid.set {K : Nat} {cl : List (Option Nat)} (h : Valid K cl) {j i : Nat} (hi : i < K) :
    Valid K (cl.set j (some i)) := by
  intro q hq
  rcases List.mem_or_eq_of_mem_set hq with hq | e
  · exact h q hq
  · exact ⟨i, e, hi⟩

theorem donorFrom_spec (cnt : List Nat) : ∀ (l : List Nat) (d : Nat),
    (donorFrom cnt l d = d ∨ donorFrom cnt l d ∈ l) ∧ cnt.getD d 0 ≤ cnt.getD (donorFrom cnt l d) 0 ∧
      ∀ j ∈ l, cnt.getD j 0 ≤ cnt.getD (donorFrom cnt l d) 0 := by
  intro l
  induction l with
  | nil => intro d; simp [donorFrom]
  | cons j l ih =>
    intro d
    rw [donorFrom]
    obtain ⟨h1, h2, h3⟩ := ih (if cnt.getD d 0 < cnt.getD j 0 then j else d)
    split at h1 <;> rename_i hlt
    · simp only [if_pos hlt] at h2 h3 ⊢
      refine ⟨?_, by omega, ?_⟩
      · right; rcases h1 with e | h1
        · simp [e]
        · simp [h1]
      · intro k hk
        rcases List.mem_cons.1 hk with e | hk
        · rw [e]; exact h2
        · exact h3 k hk
    · simp only [if_neg hlt] at h2 h3 ⊢
      refine ⟨?_, h2, ?_⟩
      · rcases h1 with e | h1
        · exact Or.inl e
        · right; simp [h1]
      · intro k hk
        rcases List.mem_cons.1 hk with e | hk
        · rw [e]; omega
        · exact h3 k hk

theorem donor_lt {K : Nat} (hK : 0 < K) (cnt : List Nat) : donor K cnt < K := by
  rcases (donorFrom_spec cnt (List.range' 1 (K - 1)) 0).1 with e | h
  · rw [donor, e]; exact hK
  · rw [List.mem_range'_1] at h
    rw [donor]; omega

theorem donor_max {K : Nat} (cnt : List Nat) {j : Nat} (hj : j < K) :
    cnt.getD j 0 ≤ cnt.getD (donor K cnt) 0 := by
  obtain ⟨_, h2, h3⟩ := donorFrom_spec cnt (List.range' 1 (K - 1)) 0
  by_cases e : j = 0
  · rw [e]; exact h2
  · exact h3 j (by rw [List.mem_range'_1]; omega)

/-- `assign_count` agrees with `points_cluster`. -/
def Counted (K : Nat) (cl : List (Option Nat)) (cnt : List Nat) : Prop :=
  cnt.length = K ∧ ∀ i < K, cnt.getD i 0 = cl.count (some i)

theorem countsOf_counted (K : Nat) (cl : List (Option Nat)) : Counted K cl (countsOf K cl) := by
  refine ⟨by simp [countsOf], ?_⟩
  intro i hi
  simp [countsOf, List.getD_eq_getElem?_getD, hi]

theorem getD_set (l : List Nat) (i j v : Nat) (hi : i < l.length) :
    (l.set i v).getD j 0 = if i = j then v else l.getD j 0 := by
  rw [List.getD_eq_getElem?_getD, List.getElem?_set]
  split
  · rename_i e
    simp [e ▸ hi]
  · rw [List.getD_eq_getElem?_getD]

theorem stealIndex_some {cl : List (Option Nat)} {d j : Nat} (h : stealIndex cl d = some j) :
    ∃ hj : j < cl.length, cl[j] = some d := by
  rw [stealIndex] at h
  split at h
  · rename_i hlt
    have e := Option.some.inj h
    subst e
    exact ⟨hlt, List.getElem_idxOf hlt⟩
  · exact absurd h (by simp)

theorem stealIndex_isSome {cl : List (Option Nat)} {d : Nat} (h : 0 < cl.count (some d)) :
    ∃ j, stealIndex cl d = some j := by
  have : cl.idxOf (some d) < cl.length := List.idxOf_lt_length_of_mem (List.count_pos_iff.1 h)
  exact ⟨_, by rw [stealIndex, if_pos this]⟩

theorem move_counted {K : Nat} {cl : List (Option Nat)} {cnt : List Nat} (h : Counted K cl cnt)
    {d i j : Nat} (hd : d < K) (hi : i < K) (hne : d ≠ i) (hj : j < cl.length)
    (hjd : cl[j] = some d) : Counted K (cl.set j (some i)) (moveCount cnt d i) := by
  refine ⟨by simp [moveCount, h.1], ?_⟩
  intro k hk
  rw [moveCount, getD_set _ _ _ _ (by simp [h.1, hi]), getD_set _ _ _ _ (by rw [h.1]; exact hd),
    getD_set _ _ _ _ (by rw [h.1]; exact hd), List.count_set hj, hjd, h.2 k hk, h.2 i hi, h.2 d hd]
  simp only [beq_iff_eq, Option.some.injEq, if_neg hne]
  by_cases e1 : i = k
  · subst e1
    simp [hne]
  · by_cases e2 : d = k
    · subst e2; simp [e1]
    · simp [e1, e2]

/-- If there are at least as many points as clusters and one cluster is empty, another one has two
points. -/
theorem pigeon {K : Nat} {cl : List (Option Nat)} (hv : Valid K cl) (hn : K ≤ cl.length) {i : Nat}
    (hi : i < K) (h0 : cl.count (some i) = 0) : ∃ d < K, 1 < cl.count (some d) := by
  by_contra hno
  have hle : ∀ a, cl.count a ≤ 1 := by
    intro a
    by_contra hc
    have hmem : a ∈ cl := List.count_pos_iff.1 (by omega)
    obtain ⟨k, e, hk⟩ := hv a hmem
    rw [e] at hc
    exact hno ⟨k, hk, by omega⟩
  have hnd : cl.Nodup := List.nodup_iff_count_le_one.2 hle
  have hsub : cl ⊆ ((List.range K).erase i).map some := by
    intro a ha
    obtain ⟨k, e, hk⟩ := hv a ha
    rw [e]
    refine List.mem_map.2 ⟨k, ?_, rfl⟩
    rw [List.Nodup.mem_erase_iff List.nodup_range]
    refine ⟨?_, by simp [hk]⟩
    intro e'
    rw [e, e'] at ha
    exact absurd (List.count_pos_iff.2 ha) (by omega)
  have h1 := (List.subperm_of_subset hnd hsub).length_le
  rw [List.length_map, List.length_erase_of_mem (by simp [hi]), List.length_range] at h1
  omega

theorem repairOne_spec {K : Nat} {w : List (Option Nat) × List Nat} (hv : Valid K w.1)
    (hc : Counted K w.1 w.2) (hn : K ≤ w.1.length) {i : Nat} (hi : i < K) :
    Valid K (repairOne K w i).1 ∧ Counted K (repairOne K w i).1 (repairOne K w i).2 ∧
      (repairOne K w i).1.length = w.1.length ∧ 0 < (repairOne K w i).1.count (some i) ∧
      ∀ k, 0 < w.1.count (some k) → 0 < (repairOne K w i).1.count (some k) := by
  rw [repairOne]
  by_cases h0 : w.2.getD i 0 = 0
  · rw [if_pos h0]
    have hK : 0 < K := by omega
    have hdl := donor_lt hK w.2
    have h0' : w.1.count (some i) = 0 := by rw [← hc.2 i hi]; exact h0
    obtain ⟨d, hd, hd2⟩ := pigeon hv hn hi h0'
    have hmax := donor_max (K := K) w.2 hd
    rw [hc.2 d hd] at hmax
    rw [if_neg (by omega)]
    have hcd := hc.2 _ hdl
    obtain ⟨j, hj⟩ := stealIndex_isSome (cl := w.1) (d := donor K w.2) (by omega)
    rw [hj]
    obtain ⟨hjl, hjd⟩ := stealIndex_some hj
    have hne : donor K w.2 ≠ i := by
      intro e
      rw [e] at hcd hmax
      omega
    refine ⟨hv.set hi, move_counted hc hdl hi hne hjl hjd, by simp, ?_, ?_⟩
    · simp only
      rw [List.count_set hjl]
      simp
    · intro k hk
      simp only
      rw [List.count_set hjl, hjd]
      simp only [beq_iff_eq, Option.some.injEq]
      by_cases e : donor K w.2 = k
      · subst e
        simp only [if_true]
        omega
      · simp only [if_neg e]
        omega
  · rw [if_neg h0]
    exact ⟨hv, hc, rfl, by have := hc.2 i hi; omega, fun _ h => h⟩

theorem repair_fold {K : Nat} : ∀ (l : List Nat) (w : List (Option Nat) × List Nat), (∀ i ∈ l, i < K) →
    Valid K w.1 → Counted K w.1 w.2 → K ≤ w.1.length →
    Valid K (l.foldl (repairOne K) w).1 ∧ (l.foldl (repairOne K) w).1.length = w.1.length ∧
      (∀ i ∈ l, 0 < (l.foldl (repairOne K) w).1.count (some i)) ∧
      ∀ k, 0 < w.1.count (some k) → 0 < (l.foldl (repairOne K) w).1.count (some k) := by
  intro l
  induction l with
  | nil => intro w _ hv _ _; exact ⟨hv, rfl, by simp, fun _ h => h⟩
  | cons i l ih =>
    intro w hl hv hc hn
    obtain ⟨a1, a2, a3, a4, a5⟩ := repairOne_spec hv hc hn (hl i (by simp))
    obtain ⟨b1, b2, b3, b4⟩ := ih (repairOne K w i) (fun k hk => hl k (by simp [hk])) a1 a2
      (by omega)
    rw [List.foldl_cons]
    refine ⟨b1, by omega, ?_, fun k hk => b4 k (a5 k hk)⟩
    intro k hk
    rcases List.mem_cons.1 hk with e | hk
    · rw [e]; exact b4 i a4
    · exact b3 k hk

theorem repair_spec {K : Nat} {cl : List (Option Nat)} (hv : Valid K cl) :
    Valid K (repair K cl) ∧ (repair K cl).length = cl.length ∧
      (K ≤ cl.length → ∀ k < K, some k ∈ repair K cl) := by
  rw [repair]
  split
  · rename_i hn
    obtain ⟨h1, h2, h3, _⟩ := repair_fold (List.range K) (cl, countsOf K cl) (by simp) hv
      (countsOf_counted K cl) hn
    exact ⟨h1, h2, fun _ k hk => List.count_pos_iff.1 (h3 k (by simp [hk]))⟩
  · rename_i hn
    exact ⟨hv, rfl, fun h => absurd h hn⟩

/-! ### Pieces -/

theorem scatter_flatten {A : Type} : ∀ (ns : List Nat) (l : List A), l.length ≤ ns.sum →
    (scatter ns l).flatten = l := by
  intro ns
  induction ns with
  | nil => intro l h; simp at h; simp [scatter, h]
  | cons n ns ih =>
    intro l h
    rw [scatter, List.flatten_cons, ih _ (by simp at h ⊢; omega), List.take_append_drop]

theorem scatter_lengths {A : Type} : ∀ (ns : List Nat) (l : List A), l.length = ns.sum →
    (scatter ns l).map List.length = ns := by
  intro ns
  induction ns with
  | nil => intro l _; rfl
  | cons n ns ih =>
    intro l h
    simp only [List.sum_cons] at h
    rw [scatter, List.map_cons, ih _ (by simp; omega), List.length_take]
    congr 1
    omega

theorem scatter_mem {A : Type} : ∀ (ns : List Nat) (l : List A) (r : List A) (a : A), r ∈ scatter ns l →
    a ∈ r → a ∈ l := by
  intro ns
  induction ns with
  | nil => intro l r a h _; simp [scatter] at h
  | cons n ns ih =>
    intro l r a h ha
    rw [scatter] at h
    rcases List.mem_cons.1 h with e | h
    · rw [e] at ha; exact List.mem_of_mem_take ha
    · exact List.mem_of_mem_drop (ih _ r a h ha)

theorem evenCounts_sum {N P : Nat} (hP : 0 < P) : (evenCounts N P).sum = N := by
  have h1 : (P - 1) * (N / P) ≤ N :=
    le_trans (Nat.mul_le_mul_right _ (Nat.sub_le P 1)) (Nat.mul_div_le N P)
  simp only [evenCounts, List.sum_append, List.sum_replicate, nsmul_eq_mul, Nat.cast_id, List.sum_cons, List.sum_nil]
  omega

/-! ### The box -/

section
variable {R : Type} [Field R] [LinearOrder R] [IsStrictOrderedRing R]

/-- All coordinates are between `lo` and `hi`. -/
def InBox (lo hi : R) (p : P3 R) : Prop :=
  (lo ≤ p.x ∧ p.x ≤ hi) ∧ (lo ≤ p.y ∧ p.y ≤ hi) ∧ (lo ≤ p.z ∧ p.z ≤ hi)

theorem sq_box {lo hi a b : R} (ha : lo ≤ a ∧ a ≤ hi) (hb : lo ≤ b ∧ b ≤ hi) :
    (a - b) * (a - b) ≤ (hi - lo) * (hi - lo) := by
  have h1 : a - b ≤ hi - lo := by linarith [ha.2, hb.1]
  have h2 : -(hi - lo) ≤ a - b := by linarith [ha.1, hb.2]
  nlinarith

theorem dist2_box {lo hi : R} {p c : P3 R} (hp : InBox lo hi p) (hc : InBox lo hi c) :
    dist2 p c ≤ 3 * ((hi - lo) * (hi - lo)) := by
  have h1 := sq_box hp.1 hc.1
  have h2 := sq_box hp.2.1 hc.2.1
  have h3 := sq_box hp.2.2 hc.2.2
  rw [dist2]
  linarith

theorem sum3_box {lo hi : R} : ∀ (l : List (P3 R)), (∀ p ∈ l, InBox lo hi p) →
    (l.length * lo ≤ (sum3 l).x ∧ (sum3 l).x ≤ l.length * hi) ∧
    (l.length * lo ≤ (sum3 l).y ∧ (sum3 l).y ≤ l.length * hi) ∧
    (l.length * lo ≤ (sum3 l).z ∧ (sum3 l).z ≤ l.length * hi) := by
  intro l
  induction l with
  | nil => intro _; simp [sum3]
  | cons p l ih =>
    intro h
    obtain ⟨⟨a1, a2⟩, ⟨b1, b2⟩, ⟨c1, c2⟩⟩ := ih fun q hq => h q (by simp [hq])
    obtain ⟨⟨d1, d2⟩, ⟨e1, e2⟩, ⟨f1, f2⟩⟩ := h p (by simp)
    simp only [sum3, List.length_cons, Nat.cast_add, Nat.cast_one]
    refine ⟨⟨?_, ?_⟩, ⟨?_, ?_⟩, ⟨?_, ?_⟩⟩ <;> linarith

theorem mean3_box {lo hi : R} {l : List (P3 R)} (hl : 0 < l.length) (h : ∀ p ∈ l, InBox lo hi p) :
    InBox lo hi (mean3 l) := by
  have hpos : (0 : R) < (l.length : R) := by exact_mod_cast hl
  obtain ⟨⟨a1, a2⟩, ⟨b1, b2⟩, ⟨c1, c2⟩⟩ := sum3_box l h
  simp only [InBox, mean3, le_div_iff₀ hpos, div_le_iff₀ hpos]
  refine ⟨⟨?_, ?_⟩, ⟨?_, ?_⟩, ⟨?_, ?_⟩⟩ <;> linarith

theorem mix3_box {lo hi : R} {o n : P3 R} (ho : InBox lo hi o) (hn : InBox lo hi n) :
    InBox lo hi (mix3 o n) := by
  obtain ⟨⟨a1, a2⟩, ⟨b1, b2⟩, ⟨c1, c2⟩⟩ := ho
  obtain ⟨⟨d1, d2⟩, ⟨e1, e2⟩, ⟨f1, f2⟩⟩ := hn
  simp only [InBox, mix3]
  refine ⟨⟨?_, ?_⟩, ⟨?_, ?_⟩, ⟨?_, ?_⟩⟩ <;> linarith

theorem members_mem {pts : List (P3 R)} {cl : List (Option Nat)} {i : Nat} {p : P3 R}
    (h : p ∈ members pts cl i) : p ∈ pts := by
  obtain ⟨q, hq, e⟩ := List.mem_map.1 h
  rw [← e]
  exact (List.of_mem_zip (List.mem_filter.1 hq).1).1

theorem recentre_box {lo hi : R} (iter : Nat) {pts : List (P3 R)} (hp : ∀ p ∈ pts, InBox lo hi p)
    (cl : List (Option Nat)) (i : Nat) {o : P3 R} (ho : InBox lo hi o) :
    InBox lo hi (recentre iter pts cl i o) := by
  rw [recentre]
  split
  · rename_i hl
    have := mean3_box hl fun p h => hp p (members_mem h)
    split
    · exact mix3_box ho this
    · exact this
  · exact ho

theorem nearestFrom_spec (p : P3 R) (vmax : R) : ∀ (l : List (P3 R)) (j : Nat) (lmin : R) (id : Option Nat),
    (∀ c ∈ l, dist2 p c < vmax) → (id = none → lmin = vmax) → (∀ k, id = some k → k < j) →
    (l ≠ [] ∨ id ≠ none) →
    ∃ k, nearestFrom p l j lmin id = some k ∧ k < j + l.length := by
  intro l
  induction l with
  | nil =>
    intro j lmin id _ _ h2 h3
    cases id with
    | none => simp at h3
    | some k => exact ⟨k, rfl, by simpa using h2 k rfl⟩
  | cons c l ih =>
    intro j lmin id h0 h1 h2 _
    rw [nearestFrom]
    split
    · obtain ⟨k, e, hk⟩ := ih (j + 1) (dist2 p c) (some j) (fun c hc => h0 c (by simp [hc])) (by simp)
        (by simp) (by simp)
      exact ⟨k, e, by simp only [List.length_cons]; omega⟩
    · rename_i hlt
      have hid : id ≠ none := by
        intro e
        rw [h1 e] at hlt
        exact hlt (h0 c (by simp))
      obtain ⟨k, e, hk⟩ := ih (j + 1) lmin id (fun c hc => h0 c (by simp [hc])) h1
        (fun k e => by have := h2 k e; omega) (Or.inr hid)
      exact ⟨k, e, by simp only [List.length_cons]; omega⟩

theorem nearestFrom_best (p : P3 R) (full : List (P3 R)) : ∀ (l : List (P3 R)) (j : Nat) (lmin : R)
    (id : Option Nat), full.drop j = l → (∀ i, id = some i → i < j ∧ ∃ c, full[i]? = some c ∧ dist2 p c = lmin) →
    (∀ i c, id = none → i < j → full[i]? = some c → lmin ≤ dist2 p c) →
    (∀ b, id = some b → ∀ i c, i < j → full[i]? = some c → lmin ≤ dist2 p c ∧ (i < b → lmin < dist2 p c)) →
    ∀ k, nearestFrom p l j lmin id = some k → ∃ c, full[k]? = some c ∧
      ∀ i c', full[i]? = some c' → dist2 p c ≤ dist2 p c' ∧ (i < k → dist2 p c < dist2 p c') := by
  intro l
  induction l with
  | nil =>
    intro j lmin id hd h1 _ h3 k hk
    rw [nearestFrom] at hk
    obtain ⟨_, c, hc, e⟩ := h1 k hk
    refine ⟨c, hc, ?_⟩
    intro i c' hc'
    have hi : i < j := by
      by_contra hij
      have hlen : full.length ≤ j := by simpa using hd
      have := (List.getElem?_eq_some_iff.1 hc').1
      omega
    rw [e]
    exact h3 k hk i c' hi hc'
  | cons a l ih =>
    intro j lmin id hd h1 h2 h3 k hk
    have hd' : full.drop (j + 1) = l := by
      rw [← List.drop_drop, hd]; rfl
    have hj : full[j]? = some a := by
      have := congrArg (fun l => l[0]?) hd
      simpa using this
    rw [nearestFrom] at hk
    have hold : ∀ i c, i < j → full[i]? = some c → lmin ≤ dist2 p c := by
      intro i c hi hc
      cases hid : id with
      | none => exact h2 i c hid hi hc
      | some b => exact (h3 b hid i c hi hc).1
    split at hk
    · rename_i hlt
      refine ih (j + 1) (dist2 p a) (some j) hd' ?_ (by simp) ?_ k hk
      · intro i e
        rw [← Option.some.inj e]
        exact ⟨by omega, a, hj, rfl⟩
      · intro b e i c hi hc
        rw [← Option.some.inj e]
        by_cases hij : i = j
        · rw [hij, hj] at hc
          rw [← Option.some.inj hc]
          exact ⟨le_refl _, fun h => by omega⟩
        · have := lt_of_lt_of_le hlt (hold i c (by omega) hc)
          exact ⟨le_of_lt this, fun _ => this⟩
    · rename_i hlt
      have hle : lmin ≤ dist2 p a := not_lt.1 hlt
      have hnew : ∀ i c, i < j + 1 → full[i]? = some c → lmin ≤ dist2 p c := by
        intro i c hi hc
        by_cases hij : i = j
        · rw [hij, hj] at hc
          rw [← Option.some.inj hc]; exact hle
        · exact hold i c (by omega) hc
      refine ih (j + 1) lmin id hd' (fun i e => ⟨by have := (h1 i e).1; omega, (h1 i e).2⟩) (fun i c _ hi hc => hnew i c hi hc) ?_ k hk
      intro b e i c hi hc
      refine ⟨hnew i c hi hc, ?_⟩
      intro hib
      by_cases hij : i = j
      · have := (h1 b e).1
        omega
      · exact (h3 b e i c (by omega) hc).2 hib

theorem nearest_valid {lo hi vmax : R} (hv : 3 * ((hi - lo) * (hi - lo)) < vmax) {pts ctr : List (P3 R)}
    (hp : ∀ p ∈ pts, InBox lo hi p) (hc : ∀ c ∈ ctr, InBox lo hi c) (hne : ctr ≠ []) :
    Valid ctr.length (pts.map (nearest vmax ctr)) := by
  intro q hq
  obtain ⟨p, hpm, e⟩ := List.mem_map.1 hq
  obtain ⟨k, h1, h2⟩ := nearestFrom_spec p vmax ctr 0 vmax none
    (fun c hcm => lt_of_le_of_lt (dist2_box (hp p hpm) (hc c hcm)) hv) (fun _ => rfl) (by simp) (Or.inl hne)
  exact ⟨k, by rw [← e]; exact h1, by simpa using h2⟩

/-- What one iteration keeps. -/
structure Good (K : Nat) (lo hi : R) (pts : List (P3 R)) (w : Work R) : Prop where
  valid : Valid K w.cl
  clLen : w.cl.length = pts.length
  len : w.ctr.length = K
  box : ∀ c ∈ w.ctr, InBox lo hi c

theorem mem_getD {l : List (P3 R)} {i : Nat} (h : i < l.length) (d : P3 R) : l.getD i d ∈ l := by
  rw [List.getD_eq_getElem?_getD, List.getElem?_eq_getElem h]
  exact List.getElem_mem h

theorem reseedOne_good {K : Nat} {lo hi : R} {pts : List (P3 R)} (hp : ∀ p ∈ pts, InBox lo hi p)
    {w : Work R} (h : Good K lo hi pts w) {i : Nat} (hi' : i < K) : Good K lo hi pts (reseedOne K pts w i) := by
  rw [reseedOne]
  split
  · cases hs : stealIndex w.cl (donor K w.cnt) with
    | none =>
      refine ⟨h.valid, h.clLen, by simp [h.len], ?_⟩
      intro c hc
      rcases List.mem_or_eq_of_mem_set hc with hc | e
      · exact h.box c hc
      · rw [e]; exact h.box _ (mem_getD (by rw [h.len]; exact donor_lt (by omega) _) _)
    | some j =>
      obtain ⟨hj, _⟩ := stealIndex_some hs
      refine ⟨h.valid.set hi', by simp [h.clLen], by simp [h.len], ?_⟩
      intro c hc
      rcases List.mem_or_eq_of_mem_set hc with hc | e
      · exact h.box c hc
      · rw [e]; exact hp _ (mem_getD (by rw [← h.clLen]; exact hj) _)
  · exact h

theorem reseed_good {K : Nat} {lo hi : R} {pts : List (P3 R)} (hp : ∀ p ∈ pts, InBox lo hi p)
    (maxIter iter : Nat) {w : Work R} (h : Good K lo hi pts w) :
    Good K lo hi pts (reseed K maxIter iter pts w) := by
  rw [reseed]
  split
  · have : ∀ (l : List Nat) (w : Work R), (∀ i ∈ l, i < K) → Good K lo hi pts w →
        Good K lo hi pts (l.foldl (reseedOne K pts) w) := by
      intro l
      induction l with
      | nil => intro w _ h; exact h
      | cons i l ih =>
        intro w hl h
        exact ih _ (fun k hk => hl k (by simp [hk])) (reseedOne_good hp h (hl i (by simp)))
    exact this _ w (by simp) h
  · exact h

theorem assign_good {K : Nat} (hK : 0 < K) {lo hi vmax : R} (hv : 3 * ((hi - lo) * (hi - lo)) < vmax)
    {pts : List (P3 R)} (hp : ∀ p ∈ pts, InBox lo hi p) (maxIter iter : Nat) (cl : List (Option Nat))
    {ctr : List (P3 R)} (hl : ctr.length = K) (hc : ∀ c ∈ ctr, InBox lo hi c) :
    Good K lo hi pts (assign K maxIter iter vmax pts cl ctr) := by
  rw [assign]
  apply reseed_good hp
  refine ⟨?_, by simp, hl, hc⟩
  have := nearest_valid hv hp hc (by intro e; rw [e] at hl; simp at hl; omega)
  rw [hl] at this
  exact this

theorem iterate_good {K : Nat} (hK : 0 < K) {lo hi vmax : R} (hv : 3 * ((hi - lo) * (hi - lo)) < vmax)
    {pts : List (P3 R)} (hp : ∀ p ∈ pts, InBox lo hi p) (maxIter : Nat) :
    ∀ (fuel iter : Nat) (cl : List (Option Nat)) (ctr : List (P3 R)), ctr.length = K →
    (∀ c ∈ ctr, InBox lo hi c) → 0 < fuel → maxIter < fuel + iter →
    ∃ out, iterate K maxIter vmax pts fuel iter cl ctr = some out ∧ Valid K out ∧
      out.length = pts.length := by
  intro fuel
  induction fuel with
  | zero => intro iter cl ctr _ _ h _; omega
  | succ fuel ih =>
    intro iter cl ctr hl hc _ hf
    have hg := assign_good hK hv hp maxIter iter cl hl hc
    rw [iterate]
    split
    · exact ⟨_, rfl, hg.valid, hg.clLen⟩
    · rename_i hno
      have hall : (assign K maxIter iter vmax pts cl ctr).cl.all (fun q => q.isSome) = true := by
        rw [List.all_eq_true]
        intro q hq
        obtain ⟨k, e, _⟩ := hg.valid q hq
        rw [e]; rfl
      rw [recentreAll, if_pos hall]
      simp only
      apply ih
      · simp [hg.len]
      · intro c hcm
        obtain ⟨i, hi', e⟩ := List.mem_mapIdx.1 hcm
        rw [← e]
        exact recentre_box iter hp _ _ (hg.box _ (List.getElem_mem _))
      · omega
      · omega

theorem foldl_min_box {lo hi : R} : ∀ (l : List R) (a : R), (∀ x ∈ l, lo ≤ x ∧ x ≤ hi) → lo ≤ a →
    (l ≠ [] ∨ a ≤ hi) → lo ≤ l.foldl min a ∧ l.foldl min a ≤ hi := by
  intro l
  induction l with
  | nil => intro a _ h1 h2; exact ⟨h1, by simpa using h2⟩
  | cons x l ih =>
    intro a h h1 _
    have hx := h x (by simp)
    exact ih _ (fun y hy => h y (by simp [hy])) (le_min h1 hx.1) (Or.inr (min_le_of_right_le hx.2))

theorem foldl_max_box {lo hi : R} : ∀ (l : List R) (a : R), (∀ x ∈ l, lo ≤ x ∧ x ≤ hi) → a ≤ hi →
    (l ≠ [] ∨ lo ≤ a) → lo ≤ l.foldl max a ∧ l.foldl max a ≤ hi := by
  intro l
  induction l with
  | nil => intro a _ h1 h2; exact ⟨by simpa using h2, h1⟩
  | cons x l ih =>
    intro a h h1 _
    have hx := h x (by simp)
    exact ih _ (fun y hy => h y (by simp [hy])) (max_le h1 hx.2) (Or.inr (le_max_of_le_right hx.1))

theorem foldl_min_le (l : List R) : ∀ (a : R), l.foldl min a ≤ a ∧ ∀ x ∈ l, l.foldl min a ≤ x := by
  induction l with
  | nil => intro a; simp
  | cons y l ih =>
    intro a
    obtain ⟨h1, h2⟩ := ih (min a y)
    refine ⟨le_trans h1 (min_le_left _ _), ?_⟩
    intro x hx
    rcases List.mem_cons.1 hx with e | hx
    · rw [e]; exact le_trans h1 (min_le_right _ _)
    · exact h2 x hx

theorem le_foldl_max (l : List R) : ∀ (a : R), a ≤ l.foldl max a ∧ ∀ x ∈ l, x ≤ l.foldl max a := by
  induction l with
  | nil => intro a; simp
  | cons y l ih =>
    intro a
    obtain ⟨h1, h2⟩ := ih (max a y)
    refine ⟨le_trans (le_max_left _ _) h1, ?_⟩
    intro x hx
    rcases List.mem_cons.1 hx with e | hx
    · rw [e]; exact le_trans (le_max_right _ _) h1
    · exact h2 x hx

theorem box1 {lo hi vmax : R} (h1 : lo ≤ vmax) (h2 : -vmax ≤ hi) {l : List R} (hne : l ≠ [])
    (h : ∀ x ∈ l, lo ≤ x ∧ x ≤ hi) {f : R} (hf : 0 ≤ f ∧ f ≤ 1) :
    lo ≤ (pmaxOf vmax l - pminOf vmax l) * f + pminOf vmax l ∧
      (pmaxOf vmax l - pminOf vmax l) * f + pminOf vmax l ≤ hi := by
  obtain ⟨a1, a2⟩ := foldl_min_box l vmax h h1 (Or.inl hne)
  obtain ⟨b1, b2⟩ := foldl_max_box l (-vmax) h h2 (Or.inl hne)
  have hle : pminOf vmax l ≤ pmaxOf vmax l := by
    obtain ⟨x, hx⟩ := List.exists_mem_of_ne_nil l hne
    exact le_trans ((foldl_min_le l vmax).2 x hx) ((le_foldl_max l (-vmax)).2 x hx)
  change lo ≤ pminOf vmax l at a1
  change pmaxOf vmax l ≤ hi at b2
  have c1 : 0 ≤ (pmaxOf vmax l - pminOf vmax l) * f := mul_nonneg (by linarith) hf.1
  have c2 : (pmaxOf vmax l - pminOf vmax l) * f ≤ pmaxOf vmax l - pminOf vmax l := by
    have := mul_le_mul_of_nonneg_left hf.2 (show 0 ≤ pmaxOf vmax l - pminOf vmax l by linarith)
    linarith
  constructor <;> linarith

theorem startCentre_box {lo hi vmax : R} (h1 : lo ≤ vmax) (h2 : -vmax ≤ hi) {pts : List (P3 R)}
    (hne : pts ≠ []) (hp : ∀ p ∈ pts, InBox lo hi p) (K : Nat) (rnd : Nat → Nat) {frac : Nat → P3 R}
    (hf : ∀ i, InBox 0 1 (frac i)) (i : Nat) {own : List (P3 R)} (ho : ∀ p ∈ own, p ∈ pts) :
    InBox lo hi (startCentre vmax K pts rnd frac i own) := by
  rw [startCentre]
  split
  · rename_i hl
    exact mean3_box hl fun p h => hp p (ho p h)
  · split
    · have : 0 < pts.length := List.length_pos_iff.2 hne
      exact hp _ (mem_getD (Nat.mod_lt _ this) _)
    · have e : ∀ g : P3 R → R, pts.map g ≠ [] := by simp [hne]
      refine ⟨box1 h1 h2 (e _) ?_ (hf i).1, box1 h1 h2 (e _) ?_ (hf i).2.1, box1 h1 h2 (e _) ?_ (hf i).2.2⟩
      · intro x hx; obtain ⟨p, hp', e⟩ := List.mem_map.1 hx; rw [← e]; exact (hp p hp').1
      · intro x hx; obtain ⟨p, hp', e⟩ := List.mem_map.1 hx; rw [← e]; exact (hp p hp').2.1
      · intro x hx; obtain ⟨p, hp', e⟩ := List.mem_map.1 hx; rw [← e]; exact (hp p hp').2.2

end

end Verif.Partition
