import Verif.Partition.SkmProps
/-
The partitioner `INNER_KMEANS` (`Source/Partitioner/partitioner.cpp`, lines 1347-1808): model and property C125.

The simplifications are those of `Skm.lean`.  Here a cluster can lose all its points; then lines 1715-1717 divide zero by
zero, the centre becomes NaN and stays NaN (lines 1720-1722), and no comparison of line 1637 with it holds.  Such a centre
is `none`.
-/

namespace Verif.Partition

section
variable {R : Type} [Field R] [LinearOrder R]

/-- The loop over the centres for one point (partitioner.cpp, lines 1628-1642). -/
def kNearestFrom (p : P3 R) : List (Option (P3 R)) → Nat → R → Option Nat → Option Nat
  | [], _, _, id => id
  | none :: l, j, lmin, id => kNearestFrom p l (j + 1) lmin id
  | some c :: l, j, lmin, id =>
    if dist2 p c < lmin then kNearestFrom p l (j + 1) (dist2 p c) (some j)
    else kNearestFrom p l (j + 1) lmin id

/-- `id_nearest_center` of a point (partitioner.cpp, lines 1624-1642). -/
def kNearest (vmax : R) (ctr : List (Option (P3 R))) (p : P3 R) : Option Nat :=
  kNearestFrom p ctr 0 vmax none

/-- The new centre of cluster `i` (partitioner.cpp, lines 1713-1723). -/
def kRecentre (iter : Nat) (pts : List (P3 R)) (cl : List (Option Nat)) (i : Nat) (o : Option (P3 R)) :
    Option (P3 R) :=
  if 0 < (members pts cl i).length then
    if 1 < iter then match o with
      | none => none
      | some o => some (mix3 o (mean3 (members pts cl i)))
    else some (mean3 (members pts cl i))
  else none

/-- The loop (partitioner.cpp, lines 1610-1772); `none` if it does not end within `fuel` turns or writes outside of an
array (lines 1687-1690). -/
def kIterate (maxIter : Nat) (vmax : R) (pts : List (P3 R)) :
    Nat → Nat → List (Option Nat) → List (Option (P3 R)) → Option (List (Option Nat))
  | 0, _, _, _ => none
  | fuel + 1, iter, cl, ctr =>
    if changedOf cl (pts.map (kNearest vmax ctr)) = 0 ∨ maxIter ≤ iter then
      some (pts.map (kNearest vmax ctr))
    else if (pts.map (kNearest vmax ctr)).all (fun q => q.isSome) then
      kIterate maxIter vmax pts fuel (iter + 1) (pts.map (kNearest vmax ctr))
        (ctr.mapIdx fun i o => kRecentre iter pts (pts.map (kNearest vmax ctr)) i o)
    else none

/-- The initial centre of cluster `i`: the mean of the cells of process `i`, or one of the points that process `i` holds now,
or a point of the bounding box (partitioner.cpp, lines 1475-1480, 1551-1576).  `share` is the number of points of process
`i` after line 1532. -/
def kStartCentre (vmax : R) (pts : List (P3 R)) (share : List Nat) (rnd : Nat → Nat) (frac : Nat → P3 R)
    (i : Nat) (own : List (P3 R)) : Option (P3 R) :=
  if 0 < own.length then some (mean3 own)
  else if 0 < share.getD i 0 then some (pts.getD (rnd i % pts.length) ⟨0, 0, 0⟩)
  else some (boxPoint vmax pts (frac i))

/-- The marks of the chosen points (partitioner.cpp, lines 1367, 1564). -/
def kStartClusters (procs : List (List (P3 R))) (pts : List (P3 R)) (share : List Nat) (rnd : Nat → Nat) :
    List (Option Nat) :=
  (procs.zipIdx).foldl (fun cl q =>
    if q.1.isEmpty ∧ 0 < share.getD q.2 0 then cl.set (rnd q.2 % pts.length) (some q.2) else cl)
    (List.replicate pts.length none)

/-- `Evaluate` for `INNER_KMEANS` (partitioner.cpp, lines 1347-1808). -/
def kmeans (maxIter : Nat) (vmax : R) (balance : Bool) (rnd : Nat → Nat) (frac : Nat → P3 R)
    (procs : List (List (P3 R))) : Option (List (List (Option Nat))) :=
  let even := evenCounts procs.flatten.length procs.length
  let pts := if balance then (scatter even procs.flatten).flatten else procs.flatten
  let share := if balance then even else procs.map List.length
  match kIterate maxIter vmax pts maxIter 1 (kStartClusters procs pts share rnd)
      (procs.mapIdx (kStartCentre vmax pts share rnd frac)) with
  | none => none
  | some cl =>
    some (scatter (procs.map List.length) (if balance then (scatter even cl).flatten else cl))

end

/-! ### Proofs -/

section
variable {R : Type} [Field R] [LinearOrder R] [IsStrictOrderedRing R]

theorem kNearestFrom_spec (p : P3 R) (vmax : R) (full : List (Option (P3 R))) :
    ∀ (l : List (Option (P3 R))) (j : Nat) (lmin : R) (id : Option Nat), full.drop j = l →
    (∀ c, some c ∈ l → dist2 p c < vmax) → (id = none → lmin = vmax) →
    (∀ k, id = some k → ∃ c, full[k]? = some (some c)) → ((∃ c, some c ∈ l) ∨ id ≠ none) →
    ∃ k c, kNearestFrom p l j lmin id = some k ∧ full[k]? = some (some c) := by
  intro l
  induction l with
  | nil =>
    intro j lmin id _ _ _ h2 h3
    cases id with
    | none => simp at h3
    | some k =>
      obtain ⟨c, hc⟩ := h2 k rfl
      exact ⟨k, c, rfl, hc⟩
  | cons o l ih =>
    intro j lmin id hd h0 h1 h2 h3
    have hd' : full.drop (j + 1) = l := by
      rw [← List.drop_drop, hd]; rfl
    have hj : full[j]? = some o := by
      have := congrArg (fun l => l[0]?) hd
      simpa using this
    cases o with
    | none =>
      rw [kNearestFrom]
      refine ih (j + 1) lmin id hd' (fun c hc => h0 c (by simp [hc])) h1 h2 ?_
      rcases h3 with ⟨c, hc⟩ | h
      · left; exact ⟨c, by simpa using hc⟩
      · exact Or.inr h
    | some c =>
      rw [kNearestFrom]
      split
      · exact ih (j + 1) (dist2 p c) (some j) hd' (fun c hc => h0 c (by simp [hc])) (by simp)
          (fun k e => by rw [← Option.some.inj e]; exact ⟨c, hj⟩) (by simp)
      · rename_i hlt
        have hid : id ≠ none := by
          intro e
          rw [h1 e] at hlt
          exact hlt (h0 c (by simp))
        exact ih (j + 1) lmin id hd' (fun c hc => h0 c (by simp [hc])) h1 h2 (Or.inr hid)

/-- What one iteration keeps. -/
structure KGood (K : Nat) (lo hi : R) (ctr : List (Option (P3 R))) : Prop where
  len : ctr.length = K
  box : ∀ c, some c ∈ ctr → InBox lo hi c
  one : ∃ c, some c ∈ ctr

theorem kNearest_valid {K : Nat} {lo hi vmax : R} (hv : 3 * ((hi - lo) * (hi - lo)) < vmax)
    {ctr : List (Option (P3 R))} (h : KGood K lo hi ctr) {p : P3 R} (hp : InBox lo hi p) :
    ∃ k c, kNearest vmax ctr p = some k ∧ ctr[k]? = some (some c) := by
  obtain ⟨k, c, h1, h2⟩ := kNearestFrom_spec p vmax ctr ctr 0 vmax none rfl
    (fun c hc => lt_of_le_of_lt (dist2_box hp (h.box c hc)) hv) (fun _ => rfl) (by simp) (Or.inl h.one)
  exact ⟨k, c, h1, h2⟩

theorem kRecentre_some {lo hi : R} (iter : Nat) {pts : List (P3 R)} (hp : ∀ p ∈ pts, InBox lo hi p)
    (cl : List (Option Nat)) (i : Nat) {o : Option (P3 R)} (ho : ∀ c, o = some c → InBox lo hi c) {c : P3 R}
    (h : kRecentre iter pts cl i o = some c) : InBox lo hi c := by
  unfold kRecentre at h
  split at h
  · rename_i hl
    have hm := mean3_box hl fun p h => hp p (members_mem h)
    split at h
    · cases o with
      | none => simp at h
      | some o =>
        simp only [Option.some.injEq] at h
        rw [← h]; exact mix3_box (ho o rfl) hm
    · simp only [Option.some.injEq] at h
      rw [← h]; exact hm
  · simp at h

theorem kIterate_spec {K : Nat} {lo hi vmax : R} (hv : 3 * ((hi - lo) * (hi - lo)) < vmax) {pts : List (P3 R)}
    (hne : pts ≠ []) (hp : ∀ p ∈ pts, InBox lo hi p) (maxIter : Nat) :
    ∀ (fuel iter : Nat) (cl : List (Option Nat)) (ctr : List (Option (P3 R))), KGood K lo hi ctr → 0 < fuel →
    maxIter < fuel + iter →
    ∃ out, kIterate maxIter vmax pts fuel iter cl ctr = some out ∧ Valid K out ∧ out.length = pts.length := by
  intro fuel
  induction fuel with
  | zero => intro iter cl ctr _ h _; omega
  | succ fuel ih =>
    intro iter cl ctr hg _ hf
    have hval : Valid K (pts.map (kNearest vmax ctr)) := by
      intro q hq
      obtain ⟨p, hpm, e⟩ := List.mem_map.1 hq
      obtain ⟨k, c, h1, h2⟩ := kNearest_valid hv hg (hp p hpm)
      obtain ⟨hk, _⟩ := List.getElem?_eq_some_iff.1 h2
      exact ⟨k, by rw [← e]; exact h1, by rw [← hg.len]; exact hk⟩
    rw [kIterate]
    split
    · exact ⟨_, rfl, hval, by simp⟩
    · rename_i hno
      have hall : (pts.map (kNearest vmax ctr)).all (fun q => q.isSome) = true := by
        rw [List.all_eq_true]
        intro q hq
        obtain ⟨k, e, _⟩ := hval q hq
        rw [e]; rfl
      rw [if_pos hall]
      apply ih
      · refine ⟨by simp [hg.len], ?_, ?_⟩
        · intro c hc
          obtain ⟨i, hi', e⟩ := List.mem_mapIdx.1 hc
          exact kRecentre_some iter hp _ _ (fun c' e' => hg.box c' (e' ▸ List.getElem_mem hi')) e
        · obtain ⟨p, hpm⟩ := List.exists_mem_of_ne_nil pts hne
          obtain ⟨k, c, h1, h2⟩ := kNearest_valid hv hg (hp p hpm)
          obtain ⟨hk, hkc⟩ := List.getElem?_eq_some_iff.1 h2
          have hmem : p ∈ members pts (pts.map (kNearest vmax ctr)) k := by
            refine List.mem_map.2 ⟨(p, some k), List.mem_filter.2 ⟨?_, by simp⟩, rfl⟩
            have hz : pts.zip (pts.map (kNearest vmax ctr)) = pts.map fun q => (q, kNearest vmax ctr q) := by
              have := List.zip_map' (f := fun q : P3 R => q) (g := kNearest vmax ctr) (l := pts)
              simpa using this
            rw [hz]
            exact List.mem_map.2 ⟨p, hpm, by rw [h1]⟩
          have hpos := List.length_pos_of_mem hmem
          have : ∃ d, kRecentre iter pts (pts.map (kNearest vmax ctr)) k (some c) = some d := by
            unfold kRecentre
            rw [if_pos hpos]
            split
            · exact ⟨_, rfl⟩
            · exact ⟨_, rfl⟩
          obtain ⟨d, hd⟩ := this
          refine ⟨d, List.mem_mapIdx.2 ⟨k, hk, ?_⟩⟩
          rw [hkc]; exact hd
      · omega
      · omega

/-! ### C125 -/

/-- C125.  Cells with coordinates between `lo` and `hi` (all finite and not too far from each other for the largest
number `vmax`), spread over the processes in any way, with any random numbers: `INNER_KMEANS` ends and writes inside of its
arrays, and each cell gets a processor that exists. -/
theorem C125_parts_partial {lo hi vmax : R} (hv : 3 * ((hi - lo) * (hi - lo)) < vmax) (h1 : lo ≤ vmax)
    (h2 : -vmax ≤ hi) {maxIter : Nat} (hm : 0 < maxIter) (balance : Bool) (rnd : Nat → Nat)
    {frac : Nat → P3 R} (hf : ∀ i, InBox 0 1 (frac i)) {procs : List (List (P3 R))} (hK : procs ≠ [])
    (hp : ∀ own ∈ procs, ∀ p ∈ own, InBox lo hi p) :
    ∃ out, kmeans maxIter vmax balance rnd frac procs = some out ∧
      out.map List.length = procs.map List.length ∧
      ∀ row ∈ out, ∀ q ∈ row, ∃ k < procs.length, q = some k := by
  have hKpos : 0 < procs.length := List.length_pos_iff.2 hK
  have hpts : (if balance then (scatter (evenCounts procs.flatten.length procs.length)
      procs.flatten).flatten else procs.flatten) = procs.flatten := by
    split
    · exact scatter_flatten _ _ (by rw [evenCounts_sum hKpos])
    · rfl
  have hpf : ∀ p ∈ procs.flatten, InBox lo hi p := by
    intro p hpm
    obtain ⟨own, ho, hpo⟩ := List.mem_flatten.1 hpm
    exact hp own ho p hpo
  have hit : ∀ share, ∃ cl, kIterate maxIter vmax procs.flatten maxIter 1
      (kStartClusters procs procs.flatten share rnd)
      (procs.mapIdx (kStartCentre vmax procs.flatten share rnd frac)) = some cl ∧
      Valid procs.length cl ∧ cl.length = procs.flatten.length := by
    intro share
    by_cases hne : procs.flatten = []
    · rw [hne]
      obtain ⟨n, rfl⟩ : ∃ n, maxIter = n + 1 := ⟨maxIter - 1, by omega⟩
      refine ⟨[], ?_, by intro q hq; simp at hq, rfl⟩
      simp [kIterate, changedOf]
    · have hin : ∀ (i : Nat) (own : List (P3 R)), own ∈ procs →
          ∃ c, kStartCentre vmax procs.flatten share rnd frac i own = some c ∧ InBox lo hi c := by
        intro i own ho
        rw [kStartCentre]
        have ho' : ∀ p ∈ own, p ∈ procs.flatten := fun p hpo => List.mem_flatten.2 ⟨own, ho, hpo⟩
        split
        · rename_i hl
          exact ⟨_, rfl, mean3_box hl fun p h => hpf p (ho' p h)⟩
        · rename_i hl
          split
          · exact ⟨_, rfl, hpf _ (mem_getD (Nat.mod_lt _ (List.length_pos_iff.2 hne)) _)⟩
          · refine ⟨_, rfl, ?_⟩
            have := startCentre_box h1 h2 hne hpf (procs.flatten.length + 1) rnd hf i (own := []) (by simp)
            rw [startCentre, if_neg (by simp), if_neg (by omega)] at this
            exact this
      refine kIterate_spec hv hne hpf maxIter maxIter 1 _ _ ⟨by simp, ?_, ?_⟩ hm (by omega)
      · intro c hc
        obtain ⟨i, hi', e⟩ := List.mem_mapIdx.1 hc
        obtain ⟨c', e', hb⟩ := hin i _ (List.getElem_mem hi')
        rw [e'] at e
        rw [← Option.some.inj e]; exact hb
      · obtain ⟨c', e', _⟩ := hin 0 _ (List.getElem_mem hKpos)
        exact ⟨c', List.mem_mapIdx.2 ⟨0, hKpos, e'⟩⟩
  obtain ⟨cl, hcl, hval, hlen⟩ := hit
    (if balance then evenCounts procs.flatten.length procs.length else procs.map List.length)
  have hre : (if balance then (scatter (evenCounts procs.flatten.length procs.length) cl).flatten else cl) = cl := by
    split
    · exact scatter_flatten _ _ (by rw [evenCounts_sum hKpos]; omega)
    · rfl
  have hsum : cl.length = (procs.map List.length).sum := by
    rw [hlen, List.length_flatten]
  refine ⟨scatter (procs.map List.length) cl, ?_, scatter_lengths _ _ hsum, ?_⟩
  · rw [kmeans]
    rw [hpts, hcl]
    simp only
    rw [hre]
  · intro row hr q hq
    obtain ⟨k, e, hk⟩ := hval q (scatter_mem _ _ _ _ hr hq)
    exact ⟨k, hk, e⟩

end

/-- Two rows of cells that are already apart. -/
example : kmeans 100 (1000 : Rat) false (fun _ => 0) (fun _ => ⟨0, 0, 0⟩)
    [[⟨0, 0, 0⟩, ⟨9, 0, 0⟩], [⟨1, 0, 0⟩, ⟨8, 0, 0⟩, ⟨7, 0, 0⟩]] =
    some [[some 0, some 1], [some 0, some 1, some 1]] := by decide +kernel

/-- Four cells in a row; the inner two are on another process than the outer two. -/
def nested : List (List (P3 Rat)) := [[⟨0, 0, 0⟩, ⟨3, 0, 0⟩], [⟨1, 0, 0⟩, ⟨2, 0, 0⟩]]

/-- C125, the stronger reading (`C124_parts` has it) fails: four cells in a row for two processors; both initial centres are
the middle of the row, all cells go to processor zero, and the centre of the other cluster is lost for ever. -/
theorem C125_idle_fails : ¬ ∀ (vmax : Rat) (balance : Bool) (rnd : Nat → Nat) (frac : Nat → P3 Rat)
    (procs : List (List (P3 Rat))), procs.length ≤ procs.flatten.length →
    ∀ out, kmeans 100 vmax balance rnd frac procs = some out →
      ∀ k < procs.length, ∃ row ∈ out, some k ∈ row := by
  intro h
  have := h 1000 false (fun _ => 0) (fun _ => ⟨0, 0, 0⟩) nested (by decide) [[some 0, some 0], [some 0, some 0]]
    (by decide +kernel) 1 (by decide)
  exact absurd this (by decide)

/-- The other partitioner on the same cells. -/
example : skmeans 100 (1000 : Rat) false (fun _ => 0) (fun _ => ⟨0, 0, 0⟩) nested =
    some [[some 1, some 0], [some 0, some 0]] := by decide +kernel

/-- Concrete cells meet the hypotheses of C125. -/
example : ∃ out, kmeans 100 (1000 : Rat) false (fun _ => 0) (fun _ => ⟨0, 0, 0⟩) nested = some out ∧
    ∀ row ∈ out, ∀ q ∈ row, ∃ k < 2, q = some k := by
  obtain ⟨out, h1, _, h3⟩ := C125_parts_partial (lo := (0 : Rat)) (hi := 4) (vmax := 1000) (by norm_num) (by norm_num)
    (by norm_num) (maxIter := 100) (by decide) false (fun _ => 0) (frac := fun _ => ⟨0, 0, 0⟩)
    (by intro i; simp [InBox]) (procs := nested) (by decide) (by
      intro own ho p hp
      simp only [nested, List.mem_cons, List.not_mem_nil, or_false] at ho
      rcases ho with e | e <;> rw [e] at hp <;> simp at hp <;>
      rcases hp with e | e <;> rw [e] <;> norm_num [InBox])
  exact ⟨out, h1, h3⟩

end Verif.Partition
