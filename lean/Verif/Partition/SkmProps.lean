import Verif.Partition.SkmLemmas
import Mathlib.Algebra.Order.Ring.Rat
import Mathlib.Algebra.Field.Rat
/-
Property C124: the partitioner `INNER_SKMEANS`.
-/

namespace Verif.Partition

section
variable {R : Type} [Field R] [LinearOrder R] [IsStrictOrderedRing R]

/-- C124.  Cells with coordinates between `lo` and `hi` (all finite and not too far from each other for the largest
number `vmax`), spread over the processes in any way, with any random numbers: `INNER_SKMEANS` ends and writes
inside of its arrays, each cell gets a processor that exists, and, if there are at least as many cells as processors,
no processor is left without cells. -/
theorem C124_parts {lo hi vmax : R} (hv : 3 * ((hi - lo) * (hi - lo)) < vmax) (h1 : lo ≤ vmax)
    (h2 : -vmax ≤ hi) {maxIter : Nat} (hm : 0 < maxIter) (balance : Bool) (rnd : Nat → Nat)
    {frac : Nat → P3 R} (hf : ∀ i, InBox 0 1 (frac i)) {procs : List (List (P3 R))} (hK : procs ≠ [])
    (hp : ∀ own ∈ procs, ∀ p ∈ own, InBox lo hi p) :
    ∃ out, skmeans maxIter vmax balance rnd frac procs = some out ∧
      out.map List.length = procs.map List.length ∧
      (∀ row ∈ out, ∀ q ∈ row, ∃ k < procs.length, q = some k) ∧
      (procs.length ≤ procs.flatten.length → ∀ k < procs.length, ∃ row ∈ out, some k ∈ row) := by
  have hKpos : 0 < procs.length := List.length_pos_iff.2 hK
  have hpts : (if balance then (scatter (evenCounts procs.flatten.length procs.length)
      procs.flatten).flatten else procs.flatten) = procs.flatten := by
    split
    · exact scatter_flatten _ _ (by rw [evenCounts_sum hKpos])
    · rfl
  have hpf : ∀ p ∈ procs.flatten, InBox lo hi p := by
    intro p hpm
    obtain ⟨own, ho, hpo⟩ := List.mem_flatten.1 hpm
    exact hp own ho p hpo
  have hit : ∃ cl, iterate procs.length maxIter vmax procs.flatten maxIter 1
      (startClusters procs procs.flatten rnd)
      (procs.mapIdx (startCentre vmax procs.length procs.flatten rnd frac)) = some cl ∧
      Valid procs.length cl ∧ cl.length = procs.flatten.length := by
    by_cases hne : procs.flatten = []
    · rw [hne]
      obtain ⟨n, rfl⟩ : ∃ n, maxIter = n + 1 := ⟨maxIter - 1, by omega⟩
      refine ⟨[], ?_, by intro q hq; simp at hq, rfl⟩
      have hK0 : ¬ procs.length ≤ 0 := by omega
      simp [iterate, assign, reseed, changedOf, hK]
    · refine iterate_good hKpos hv hpf maxIter maxIter 1 _ _ (by simp) ?_ hm (by omega)
      intro c hc
      obtain ⟨i, hi', e⟩ := List.mem_mapIdx.1 hc
      rw [← e]
      exact startCentre_box h1 h2 hne hpf _ _ hf _
        fun p hpo => List.mem_flatten.2 ⟨_, List.getElem_mem hi', hpo⟩
  obtain ⟨cl, hcl, hval, hlen⟩ := hit
  obtain ⟨r1, r2, r3⟩ := repair_spec hval
  have hre : (if balance then (scatter (evenCounts procs.flatten.length procs.length)
      (repair procs.length cl)).flatten else repair procs.length cl) = repair procs.length cl := by
    split
    · exact scatter_flatten _ _ (by rw [evenCounts_sum hKpos]; omega)
    · rfl
  have hsum : (repair procs.length cl).length = (procs.map List.length).sum := by
    rw [r2, hlen, List.length_flatten]
  refine ⟨scatter (procs.map List.length) (repair procs.length cl), ?_, scatter_lengths _ _ hsum, ?_, ?_⟩
  · rw [skmeans]
    rw [hpts, hcl]
    simp only
    rw [hre]
  · intro row hr q hq
    obtain ⟨k, e, hk⟩ := r1 q (scatter_mem _ _ _ _ hr hq)
    exact ⟨k, hk, e⟩
  · intro hn k hk
    have hmem := r3 (by omega) k hk
    rw [← scatter_flatten (procs.map List.length) (repair procs.length cl) (by omega)] at hmem
    obtain ⟨row, hr, hrk⟩ := List.mem_flatten.1 hmem
    exact ⟨row, hr, hrk⟩

/-- C124, the choice of one iteration: the cluster of a cell has a centre nearest to the cell, the first one among equals. -/
theorem C124_nearest (vmax : R) (ctr : List (P3 R)) (p : P3 R) {k : Nat} (h : nearest vmax ctr p = some k) :
    ∃ c, ctr[k]? = some c ∧ ∀ i c', ctr[i]? = some c' → dist2 p c ≤ dist2 p c' ∧ (i < k → dist2 p c < dist2 p c') :=
  nearestFrom_best p ctr ctr 0 vmax none rfl (by simp) (by intro i c _ hi; omega) (by simp) k h

end

/-- The second of two centres at the same distance is not taken. -/
example : nearest (100 : Rat) [⟨9, 0, 0⟩, ⟨1, 0, 0⟩, ⟨3, 0, 0⟩] ⟨2, 0, 0⟩ = some 1 := by decide +kernel

/-- Five cells on one of three processes. -/
def five : List (List (P3 Rat)) := [[⟨0, 0, 0⟩, ⟨1, 0, 0⟩, ⟨2, 0, 0⟩, ⟨3, 0, 0⟩, ⟨4, 0, 0⟩], [], []]

/-- All cells at one place. -/
def same : List (List (P3 Rat)) := [[⟨1, 1, 1⟩, ⟨1, 1, 1⟩], [⟨1, 1, 1⟩], [⟨1, 1, 1⟩]]

example : skmeans 100 (1000 : Rat) true (fun _ => 3) (fun _ => ⟨0, 0, 0⟩) five =
    some [[some 2, some 0, some 0, some 1, some 1], [], []] := by decide +kernel

example : skmeans 3 (1000 : Rat) false (fun _ => 0) (fun _ => ⟨0, 0, 0⟩) same =
    some [[some 1, some 2], [some 0], [some 0]] := by decide +kernel

/-- Concrete cells meet the hypotheses. -/
example : ∃ out, skmeans 100 (1000 : Rat) true (fun _ => 3) (fun _ => ⟨0, 0, 0⟩) five = some out ∧
    ∀ k < 3, ∃ row ∈ out, some k ∈ row := by
  obtain ⟨out, h1, _, _, h4⟩ := C124_parts (lo := (0 : Rat)) (hi := 4) (vmax := 1000) (by norm_num) (by norm_num)
    (by norm_num) (maxIter := 100) (by decide) true (fun _ => 3) (frac := fun _ => ⟨0, 0, 0⟩)
    (by intro i; simp [InBox]) (procs := five) (by decide) (by
      intro own ho p hp
      simp only [five, List.mem_cons, List.not_mem_nil, or_false] at ho
      rcases ho with e | e | e <;> rw [e] at hp <;> simp at hp
      rcases hp with e | e | e | e | e <;> rw [e] <;> norm_num [InBox])
  exact ⟨out, h1, h4 (by decide)⟩

/-- C124 needs the bound on the coordinates: two cells so far from the centres that no distance is below the largest
number get no processor; the code would write outside of its arrays. -/
theorem C124_far_fails : ¬ ∀ (vmax : Rat) (balance : Bool) (rnd : Nat → Nat) (frac : Nat → P3 Rat)
    (procs : List (List (P3 Rat))), procs ≠ [] →
    ∃ out, skmeans 100 vmax balance rnd frac procs = some out := by
  intro h
  obtain ⟨out, ho⟩ := h 1 false (fun _ => 0) (fun _ => ⟨0, 0, 0⟩) [[⟨0, 0, 0⟩, ⟨4, 0, 0⟩], [⟨8, 8, 8⟩]] (by decide)
  exact absurd ho (by
    have : skmeans 100 (1 : Rat) false (fun _ => 0) (fun _ => ⟨0, 0, 0⟩)
      [[⟨0, 0, 0⟩, ⟨4, 0, 0⟩], [⟨8, 8, 8⟩]] = none := by decide +kernel
    rw [this]; simp)

end Verif.Partition
