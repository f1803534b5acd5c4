import Verif.Search.TreeLemmas
import Verif.Search.Float

/-!
# C66: search of the cell that holds a point

`SearchKDTree(m,set,size).SearchCell(p)`.
-/

namespace Verif.Search

variable {K : Type} [Field K] [LinearOrder K] [IsStrictOrderedRing K]

theorem cellPoint_iff {M : Mesh K} {e : Nat} {p : V K} : cellPoint M e p = true ↔ Contains M e p := by
  rw [cellPoint, Contains]
  cases M.modif <;> cases M.hidden e <;> simp

/-- **C66.** For every set of cells and faces that is not empty the tree can be built and the search
returns. -/
theorem C66_answers (M : Mesh K) (set : List Nat) (p : V K) (hne : set ≠ []) (hlen : set.length < 2 ^ 32)
    (hk : ∀ e ∈ set, M.isCell e = true ∨ M.isFace e = true) :
    ∃ r, SearchCell M set p (.value r) := by
  obtain ⟨t, ht⟩ := build_exists M _ 0 set rfl hne hlen (by intro e he; simpa using hk e he)
  exact ⟨_, .found ht⟩

/-- **C66.** A cell that is returned was given to the tree, and the point is inside of it. -/
theorem C66_sound (M : Mesh K) (set : List Nat) (p : V K) (hlen : set.length < 2 ^ 32) (e : Nat)
    (h : SearchCell M set p (.value (some e))) : e ∈ set ∧ Contains M e p := by
  generalize hr : (Answer.value (some e) : Answer (Option Nat)) = r at h
  cases h with
  | empty => cases hr
  | @found t ht =>
    injection hr with hr
    have := subSearch_sound hr.symm
    exact ⟨(ht.perm hlen).subset this.1, cellPoint_iff.1 this.2⟩

/-- **C66**, for meshes whose coordinates do not exceed `16384`: if some cell of the set contains the
point, then a cell is returned.  The cells contain no points outside of the box of their nodes.
Missing: larger coordinates, for which it fails, see `C66_large_fails`. -/
theorem C66_found_partial (M : Mesh K) (set : List Nat) (p : V K) (hlen : set.length < 2 ^ 32)
    (hfl : FloatLike M.fl) (hb : ∀ e ∈ set, NodesBounded M 16384 e) (hp : Bounded (10 ^ 20) p)
    (hin : ∀ e ∈ set, Contains M e p → InNodeBox M e p)
    (hex : ∃ e ∈ set, Contains M e p) (r : Option Nat) (h : SearchCell M set p (.value r)) : r ≠ none := by
  obtain ⟨e, he, hc⟩ := hex
  generalize hr : (Answer.value r : Answer (Option Nat)) = a at h
  cases h with
  | empty => cases hr
  | @found t ht =>
    injection hr with hr
    rw [hr]
    refine subSearch_found ht.enclosed ((ht.perm hlen).mem_iff.2 he) (cellPoint_iff.2 hc) ?_
    intro c hsub
    have hbox := hin e he hc
    have hnb := hb e he
    let d : K := 16384 / 2 ^ 24 + 1 / 2 ^ 150
    have hd0 : 0 ≤ d := by simp only [d]; norm_num
    have hd1 : d ≤ tol := by simp only [d, tol]; norm_num
    have hx := axis_point (q := 0) (f := V.x) (e := e) (x := p.x) (d := d)
      (fun n hn => float_error hfl (hnb n hn).1) hd0
      (fun hq => hbox V.x (.inl ⟨hq, rfl⟩)) (fun _ => by simpa [big] using hp.1)
    have hy := axis_point (q := 1) (f := V.y) (e := e) (x := p.y) (d := d)
      (fun n hn => float_error hfl (hnb n hn).2.1) hd0
      (fun hq => hbox V.y (.inr (.inl ⟨hq, rfl⟩))) (fun _ => by simpa [big] using hp.2.1)
    have hz := axis_point (q := 2) (f := V.z) (e := e) (x := p.z) (d := d)
      (fun n hn => float_error hfl (hnb n hn).2.2) hd0
      (fun hq => hbox V.z (.inr (.inr ⟨hq, rfl⟩))) (fun _ => by simpa [big] using hp.2.2)
    obtain ⟨⟨s1, s2⟩, ⟨s3, s4⟩, s5, s6⟩ := hsub
    simp only [leafBox] at s1 s2 s3 s4 s5 s6
    rw [bboxPoint_iff]
    refine ⟨⟨?_, ?_⟩, ⟨?_, ?_⟩, ?_, ?_⟩ <;> linarith [hx.1, hx.2, hy.1, hy.2, hz.1, hz.2]

/-! ## Example and failures -/

/-- Cells that are cubes with sides of length `1`, cell `e` has the lower corner `(s + e, s, s)`; the
nodes `2 * e` and `2 * e + 1` are the lower and the upper corner. -/
def cubes (s : ℚ) : Mesh ℚ where
  fl := fl32
  sq := id
  dims := 3
  isCell := fun _ => true
  isFace := fun _ => false
  gdim := fun _ => 3
  modif := false
  hidden := fun _ => false
  new := fun _ => false
  nodes := fun e => [2 * e, 2 * e + 1]
  coord := fun n => if n % 2 = 0 then ⟨s + (n / 2 : Nat), s, s⟩ else ⟨s + (n / 2 : Nat) + 1, s + 1, s + 1⟩
  key := fun e q => if q = 0 then BitVec.ofNat 32 (1065353216 + e) else 0
  cen := fun e => ⟨s + e + 1 / 2, s + 1 / 2, s + 1 / 2⟩
  faceNodes := fun _ => []
  cellFaces := fun _ => []
  faceCells := fun _ => []
  inside := fun e p => decide (s + e ≤ p.x ∧ p.x ≤ s + e + 1 ∧ s ≤ p.y ∧ p.y ≤ s + 1 ∧ s ≤ p.z ∧ p.z ≤ s + 1)
  insideOld := fun _ _ => false

theorem cubes_nodeOf {s : ℚ} {e n : Nat} : NodeOf (cubes s) e n ↔ n = 2 * e ∨ n = 2 * e + 1 := by
  simp [NodeOf, cubes]

theorem cubes_contains {s : ℚ} {e : Nat} {p : V ℚ} : Contains (cubes s) e p ↔
    s + e ≤ p.x ∧ p.x ≤ s + e + 1 ∧ s ≤ p.y ∧ p.y ≤ s + 1 ∧ s ≤ p.z ∧ p.z ≤ s + 1 := by
  simp [Contains, cubes]

theorem cubes_low (s : ℚ) (e : Nat) : (cubes s).coord (2 * e) = ⟨s + e, s, s⟩ := by
  simp [cubes]

theorem cubes_high (s : ℚ) (e : Nat) : (cubes s).coord (2 * e + 1) = ⟨s + e + 1, s + 1, s + 1⟩ := by
  have h1 : (2 * e + 1) % 2 = 1 := by omega
  have h2 : (2 * e + 1) / 2 = e := by omega
  simp [cubes, h1, h2]

theorem cubes_tight {s : ℚ} {e : Nat} {p : V ℚ} (h : Contains (cubes s) e p) : InNodeBox (cubes s) e p := by
  obtain ⟨h1, h2, h3, h4, h5, h6⟩ := cubes_contains.1 h
  intro f hf
  refine ⟨⟨2 * e, cubes_nodeOf.2 (.inl rfl), ?_⟩, 2 * e + 1, cubes_nodeOf.2 (.inr rfl), ?_⟩
  · rw [cubes_low]
    rcases hf with ⟨_, rfl⟩ | ⟨_, rfl⟩ | ⟨_, rfl⟩ <;> assumption
  · rw [cubes_high]
    rcases hf with ⟨_, rfl⟩ | ⟨_, rfl⟩ | ⟨_, rfl⟩ <;> assumption

/-- The hypotheses of `C66_found_partial` hold for ten thousand cubes and a point in one of them: the
first sorts of the tree are radix sorts. -/
example : let set := List.range 10000
    let p : V ℚ := ⟨1234 + 1 / 3, 1 / 2, 1⟩
    set.length < 2 ^ 32 ∧ FloatLike (cubes 0).fl ∧ (∀ e ∈ set, NodesBounded (cubes 0) 16384 e) ∧
    Bounded (10 ^ 20) p ∧ (∀ e ∈ set, Contains (cubes 0) e p → InNodeBox (cubes 0) e p) ∧
    (∃ e ∈ set, Contains (cubes 0) e p) ∧ ∃ r, SearchCell (cubes 0) set p (.value r) ∧ r ≠ none := by
  intro set p
  have h1 : set.length < 2 ^ 32 := by simp [set]
  have h3 : ∀ e ∈ set, NodesBounded (cubes 0) 16384 e := by
    intro e he n hn
    have he' : (e : ℚ) ≤ 9999 := by
      have := List.mem_range.1 he
      exact_mod_cast (show e ≤ 9999 by omega)
    have he0 : (0 : ℚ) ≤ e := by positivity
    rcases cubes_nodeOf.1 hn with rfl | rfl
    · rw [cubes_low]
      refine ⟨?_, ?_, ?_⟩ <;> rw [abs_le] <;> constructor <;> (dsimp only; linarith)
    · rw [cubes_high]
      refine ⟨?_, ?_, ?_⟩ <;> rw [abs_le] <;> constructor <;> (dsimp only; linarith)
  have h4 : Bounded (10 ^ 20) p := by
    refine ⟨?_, ?_, ?_⟩ <;> rw [abs_le] <;> constructor <;> norm_num [p]
  have h6 : ∃ e ∈ set, Contains (cubes 0) e p := by
    refine ⟨1234, by simp [set], cubes_contains.2 ?_⟩
    refine ⟨?_, ?_, ?_, ?_, ?_, ?_⟩ <;> norm_num [p]
  obtain ⟨r, hr⟩ := C66_answers (cubes 0) set p (by simp [set]) h1 (fun _ _ => .inl rfl)
  exact ⟨h1, fl32_floatLike, h3, h4, fun e _ => cubes_tight, h6, r, hr,
    C66_found_partial (cubes 0) set p h1 fl32_floatLike h3 h4 (fun e _ => cubes_tight) h6 r hr⟩

/-- **C66 fails** for an empty set: an assertion fails instead of an invalid cell being returned. -/
theorem C66_empty_fails (M : Mesh K) (p : V K) (r : Answer (Option Nat)) (h : SearchCell M [] p r) :
    r = .failed := by
  cases h with
  | empty => rfl
  | @found t ht =>
    have := ht.perm (by simp)
    have h2 : t.elems ≠ [] := by
      clear ht this
      induction t with
      | leaf => simp [Tree.elems]
      | node _ _ _ ih1 _ => simp [Tree.elems, ih1]
    exact absurd (List.perm_nil.1 this) h2

/-- In an inner vertex above leaves whose boxes end before `x`, the box ends before `x`. -/
theorem Build.hi_le {M : Mesh K} {dim : Nat} {set : List Nat} {t : Tree K} (h : Build M dim set t)
    (hl : set.length < 2 ^ 32) {x : K} (hx : ∀ e ∈ set, (leafBox M e).hi.x ≤ x) : t.box.hi.x ≤ x := by
  induction h with
  | leaf _ => exact hx _ (by simp)
  | @node dim set set' l r h1 h2 _ _ ih1 ih2 =>
    have hp := (sorted_spec hl h2).1
    have hlen := hp.length_eq
    simp only [Tree.box, merge]
    refine max_le (ih1 (by rw [List.length_take]; omega) ?_) (ih2 (by rw [List.length_drop]; omega) ?_)
    · intro e he; exact hx e (hp.subset (List.mem_of_mem_take he))
    · intro e he; exact hx e (hp.subset (List.mem_of_mem_drop he))

theorem log_1e5 {x : ℚ} (h1 : 65536 ≤ x) (h2 : x < 131072) : Int.log 2 |x| = 16 := by
  have hx : 0 < |x| := by rw [abs_of_pos (by linarith)]; linarith
  rw [abs_of_pos (by linarith)] at hx ⊢
  apply le_antisymm
  · have := (Int.lt_zpow_iff_log_lt (b := 2) (by norm_num) (r := x) (x := 17) hx).1 (by norm_num; linarith)
    omega
  · exact (Int.zpow_le_iff_le_log (b := 2) (by norm_num) (r := x) (x := 16) hx).1 (by norm_num; linarith)

/-- The upper end of the second cell is rounded down. -/
theorem fl32_end : fl32 (99998 + 3 / 1024 + 1 + 1 : ℚ) = 100000 := by
  have hl : Int.log 2 |(99998 + 3 / 1024 + 1 + 1 : ℚ)| = 16 := log_1e5 (by norm_num) (by norm_num)
  simp only [fl32, hl]
  norm_num [roundEven]

/-- **C66 fails** for coordinates of the size of a hundred thousand: the boxes are kept in `float`, the
error of which exceeds the tolerance.  The cell contains the point and no cell is found. -/
theorem C66_large_fails : ∃ (M : Mesh ℚ) (set : List Nat) (p : V ℚ), M.fl = fl32 ∧ set.length < 2 ^ 32 ∧
    (∀ e ∈ set, NodesBounded M 100001 e) ∧ Bounded (10 ^ 20) p ∧
    (∀ e ∈ set, Contains M e p → InNodeBox M e p) ∧ (∃ e ∈ set, Contains M e p) ∧
    (∃ r, SearchCell M set p r) ∧ ∀ r, SearchCell M set p r → r = .value none := by
  let s : ℚ := 99998 + 3 / 1024
  let p : V ℚ := ⟨s + 2, s, s⟩
  have hlen : [0, 1].length < 2 ^ 32 := by decide
  have hb : ∀ e ∈ [0, 1], (leafBox (cubes s) e).hi.x ≤ 100000 := by
    have key : ∀ e ∈ [0, 1], fl32 (s + (e : Nat)) ≤ 100000 ∧ fl32 (s + (e : Nat) + 1) ≤ 100000 := by
      have small : ∀ x : ℚ, |x| ≤ 99999 + 1 / 100 → x ≤ 99999 + 1 / 100 → fl32 x ≤ 100000 := by
        intro x hx hx'
        have := (abs_le.1 (float_error fl32_floatLike hx)).2
        norm_num at this
        linarith
      intro e he
      rcases List.mem_cons.1 he with rfl | he
      · exact ⟨small _ (by rw [abs_le]; constructor <;> norm_num [s]) (by norm_num [s]),
          small _ (by rw [abs_le]; constructor <;> norm_num [s]) (by norm_num [s])⟩
      · cases List.mem_singleton.1 he
        refine ⟨small _ (by rw [abs_le]; constructor <;> norm_num [s]) (by norm_num [s]), ?_⟩
        have h := fl32_end
        simp only [s, Nat.cast_one]
        rw [h]
    intro e he
    obtain ⟨k1, k2⟩ := key e he
    have hn : usedNodes (cubes s) e = [2 * e, 2 * e + 1] := rfl
    have hd : (0 : Nat) < (cubes s).dims := by decide
    have hf : (cubes s).fl = fl32 := rfl
    simp only [leafBox, axis, if_pos hd, hn, List.foldl_cons, List.foldl_nil, cubes_low, cubes_high, hf]
    refine max_le (max_le ?_ k1) k2
    norm_num [big]
  refine ⟨cubes s, [0, 1], p, rfl, hlen, ?_, ?_, fun e _ => cubes_tight, ?_, ?_, ?_⟩
  · intro e he n hn
    have he' : (e : ℚ) ≤ 1 := by
      rcases List.mem_cons.1 he with rfl | he
      · norm_num
      · cases List.mem_singleton.1 he; norm_num
    have he0 : (0 : ℚ) ≤ e := by positivity
    rcases cubes_nodeOf.1 hn with rfl | rfl
    · rw [cubes_low]
      refine ⟨?_, ?_, ?_⟩ <;> rw [abs_le] <;> constructor <;> (dsimp only [s]; linarith)
    · rw [cubes_high]
      refine ⟨?_, ?_, ?_⟩ <;> rw [abs_le] <;> constructor <;> (dsimp only [s]; linarith)
  · refine ⟨?_, ?_, ?_⟩ <;> rw [abs_le] <;> constructor <;> norm_num [p, s]
  · refine ⟨1, by simp, cubes_contains.2 ?_⟩
    refine ⟨?_, ?_, ?_, ?_, ?_, ?_⟩ <;> norm_num [p]
  · obtain ⟨r, hr⟩ := C66_answers (cubes s) [0, 1] p (by simp) hlen (fun _ _ => .inl rfl)
    exact ⟨_, hr⟩
  · intro r hr
    cases hr with
    | empty h => cases h
    | @found t ht =>
      have h1 := Build.hi_le ht hlen hb
      have h2 : ∃ b l r, t = .node b l r := by
        generalize hz : [0, 1] = z at ht
        cases ht with
        | leaf => cases hz
        | node => exact ⟨_, _, _, rfl⟩
      obtain ⟨b, l, r, rfl⟩ := h2
      simp only [Tree.box] at h1
      rw [subSearch, if_neg]
      intro hc
      have := (bboxPoint_iff.1 hc).1.2
      simp only [p, s, tol] at this
      linarith

end Verif.Search
