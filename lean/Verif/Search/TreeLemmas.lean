import Verif.Search.Spec
import Verif.Search.SortLemmas
import Mathlib.Tactic.Linarith
import Mathlib.Tactic.NormNum

/-!
# The tree holds the elements it was built for, the boxes enclose those of the leaves
-/

namespace Verif.Search

variable {K : Type} [Field K] [LinearOrder K] [IsStrictOrderedRing K]

/-- The elements of the leaves from left to right. -/
def Tree.elems : Tree K → List Nat
  | .leaf e _ => [e]
  | .node _ l r => l.elems ++ r.elems

theorem Build.perm {M : Mesh K} {dim : Nat} {set : List Nat} {t : Tree K} (h : Build M dim set t)
    (hl : set.length < 2 ^ 32) : t.elems.Perm set := by
  induction h with
  | leaf _ => exact .refl _
  | @node dim set set' l r h1 h2 _ _ ih1 ih2 =>
    have hp := (sorted_spec hl h2).1
    have hlen := hp.length_eq
    have e1 := ih1 (by rw [List.length_take]; omega)
    have e2 := ih2 (by rw [List.length_drop]; omega)
    have := e1.append e2
    rw [List.take_append_drop] at this
    exact this.trans hp

theorem Build.kinds {M : Mesh K} {dim : Nat} {set : List Nat} {t : Tree K} (h : Build M dim set t) :
    ∀ e ∈ t.elems, (M.isCell e || M.isFace e) = true := by
  induction h with
  | leaf h => intro e he; cases List.mem_singleton.1 he; exact h
  | node _ _ _ _ ih1 ih2 =>
    intro e he
    rcases List.mem_append.1 he with h | h
    · exact ih1 e h
    · exact ih2 e h

/-- A tree can be built for every set of cells and faces that is not empty. -/
theorem build_exists (M : Mesh K) : ∀ (n : Nat) (dim : Nat) (set : List Nat), set.length = n → set ≠ [] →
    set.length < 2 ^ 32 → (∀ e ∈ set, (M.isCell e || M.isFace e) = true) → ∃ t, Build M dim set t := by
  intro n
  induction n using Nat.strongRecOn with
  | _ n ih =>
    intro dim set hn hne hlen hk
    match set, hne with
    | [e], _ => exact ⟨_, .leaf (hk e (by simp))⟩
    | a :: b :: s, _ =>
      generalize hset : a :: b :: s = set at *
      have h1 : 1 < set.length := by rw [← hset]; simp
      obtain ⟨set', hs⟩ := sorted_exists (fun e => M.key e dim) set hlen
      have hp := (sorted_spec hlen hs).1
      have hl' := hp.length_eq
      have hk' : ∀ e ∈ set', (M.isCell e || M.isFace e) = true := fun e he => hk e (hp.subset he)
      have lt : (set'.take (set.length / 2)).length = set.length / 2 := by
        rw [List.length_take]; omega
      have ld : (set'.drop (set.length / 2)).length = set.length - set.length / 2 := by
        rw [List.length_drop]; omega
      obtain ⟨l, bl⟩ := ih (set.length / 2) (by omega) ((dim + 1) % 3) _ lt
        (by intro h; rw [h] at lt; simp at lt; omega) (by omega)
        (fun e he => hk' e (List.mem_of_mem_take he))
      obtain ⟨r, br⟩ := ih (set.length - set.length / 2) (by omega) ((dim + 1) % 3) _ ld
        (by intro h; rw [h] at ld; simp at ld; omega) (by omega)
        (fun e he => hk' e (List.mem_of_mem_drop he))
      exact ⟨_, .node h1 hs bl br⟩

/-- Box `b` is part of box `c`. -/
def Box.Sub (b c : Box K) : Prop :=
  (c.lo.x ≤ b.lo.x ∧ b.hi.x ≤ c.hi.x) ∧ (c.lo.y ≤ b.lo.y ∧ b.hi.y ≤ c.hi.y) ∧
    (c.lo.z ≤ b.lo.z ∧ b.hi.z ≤ c.hi.z)

theorem Box.Sub.trans {a b c : Box K} (h : a.Sub b) (g : b.Sub c) : a.Sub c := by
  obtain ⟨⟨h1, h2⟩, ⟨h3, h4⟩, h5, h6⟩ := h
  obtain ⟨⟨g1, g2⟩, ⟨g3, g4⟩, g5, g6⟩ := g
  exact ⟨⟨g1.trans h1, h2.trans g2⟩, ⟨g3.trans h3, h4.trans g4⟩, g5.trans h5, h6.trans g6⟩

theorem merge_left (a b : Box K) : a.Sub (merge a b) := by
  simp [Box.Sub, merge]

theorem merge_right (a b : Box K) : b.Sub (merge a b) := by
  simp [Box.Sub, merge]

/-- The boxes of the vertices of a tree enclose the boxes of the leaves below. -/
inductive Enclosed (M : Mesh K) : Tree K → Prop where
  | leaf {e : Nat} : Enclosed M (.leaf e (leafBox M e))
  | node {b : Box K} {l r : Tree K} : (∀ e ∈ l.elems ++ r.elems, (leafBox M e).Sub b) →
      Enclosed M l → Enclosed M r → Enclosed M (.node b l r)

theorem Build.enclosed' {M : Mesh K} {dim : Nat} {set : List Nat} {t : Tree K} (h : Build M dim set t) :
    Enclosed M t ∧ ∀ e ∈ t.elems, (leafBox M e).Sub t.box := by
  induction h with
  | leaf h =>
    refine ⟨.leaf, ?_⟩
    intro e he; cases List.mem_singleton.1 he
    simp [Box.Sub, Tree.box]
  | @node dim set set' l r _ _ _ _ ih1 ih2 =>
    have key : ∀ e ∈ l.elems ++ r.elems, (leafBox M e).Sub (merge l.box r.box) := by
      intro e he
      rcases List.mem_append.1 he with h | h
      · exact (ih1.2 e h).trans (merge_left _ _)
      · exact (ih2.2 e h).trans (merge_right _ _)
    exact ⟨.node key ih1.1 ih2.1, key⟩

theorem Build.enclosed {M : Mesh K} {dim : Nat} {set : List Nat} {t : Tree K} (h : Build M dim set t) :
    Enclosed M t := h.enclosed'.1

/-! ## Search -/

theorem subSearch_sound {M : Mesh K} {p : V K} {t : Tree K} {e : Nat} (h : subSearch M p t = some e) :
    e ∈ t.elems ∧ cellPoint M e p = true := by
  induction t with
  | leaf a b =>
    rw [subSearch] at h
    split at h
    · next hc => cases h; exact ⟨List.mem_singleton.2 rfl, hc⟩
    · cases h
  | node b l r ih1 ih2 =>
    rw [subSearch] at h
    split at h
    · split at h
      · next e' he =>
        cases h
        exact ⟨List.mem_append_left _ (ih1 he).1, (ih1 he).2⟩
      · exact ⟨List.mem_append_right _ (ih2 h).1, (ih2 h).2⟩
    · cases h

theorem subSearch_found {M : Mesh K} {p : V K} {t : Tree K} (ht : Enclosed M t) {e : Nat}
    (he : e ∈ t.elems) (hc : cellPoint M e p = true)
    (hb : ∀ c : Box K, (leafBox M e).Sub c → bboxPoint p c = true) : subSearch M p t ≠ none := by
  induction ht with
  | leaf =>
    cases List.mem_singleton.1 he
    rw [subSearch, if_pos hc]; simp
  | @node b l r hs _ _ ih1 ih2 =>
    rw [subSearch, if_pos (hb b (hs e he))]
    cases h : subSearch M p l with
    | some e' => simp
    | none =>
      rcases List.mem_append.1 he with h' | h'
      · exact absurd h (ih1 h')
      · exact ih2 h'

/-! ## Boxes of leaves -/

theorem mem_usedNodes {M : Mesh K} {e n : Nat} : n ∈ usedNodes M e ↔ NodeOf M e n := by
  rw [usedNodes, NodeOf]
  cases hm : M.modif
  · simp
  · cases h1 : M.hidden e <;> cases h2 : M.hidden n <;> cases h3 : M.new n <;> simp [h1, h2, h3]

theorem foldl_min_le (f : Nat → K) : ∀ (ns : List Nat) (a : K),
    ns.foldl (fun a n => min a (f n)) a ≤ a ∧ ∀ n ∈ ns, ns.foldl (fun a n => min a (f n)) a ≤ f n := by
  intro ns
  induction ns with
  | nil => intro a; simp
  | cons m ns ih =>
    intro a
    rw [List.foldl_cons]
    obtain ⟨h1, h2⟩ := ih (min a (f m))
    refine ⟨h1.trans (min_le_left _ _), ?_⟩
    intro n hn
    rcases List.mem_cons.1 hn with rfl | hn
    · exact h1.trans (min_le_right _ _)
    · exact h2 n hn

theorem le_foldl_max (f : Nat → K) : ∀ (ns : List Nat) (a : K),
    a ≤ ns.foldl (fun a n => max a (f n)) a ∧ ∀ n ∈ ns, f n ≤ ns.foldl (fun a n => max a (f n)) a := by
  intro ns
  induction ns with
  | nil => intro a; simp
  | cons m ns ih =>
    intro a
    rw [List.foldl_cons]
    obtain ⟨h1, h2⟩ := ih (max a (f m))
    refine ⟨(le_max_left _ _).trans h1, ?_⟩
    intro n hn
    rcases List.mem_cons.1 hn with rfl | hn
    · exact (le_max_right _ _).trans h1
    · exact h2 n hn

/-- The box of a leaf encloses the rounded coordinates of the nodes. -/
theorem axis_encloses {M : Mesh K} {q : Nat} {f : V K → K} {e n : Nat} (hq : q < M.dims) (hn : NodeOf M e n) :
    (axis M q f (usedNodes M e)).1 ≤ M.fl (f (M.coord n)) ∧
      M.fl (f (M.coord n)) ≤ (axis M q f (usedNodes M e)).2 := by
  rw [axis, if_pos hq]
  exact ⟨(foldl_min_le (fun n => M.fl (f (M.coord n))) _ _).2 n (mem_usedNodes.2 hn),
    (le_foldl_max (fun n => M.fl (f (M.coord n))) _ _).2 n (mem_usedNodes.2 hn)⟩

/-- One coordinate of a point: it is inside of the interval of a leaf up to `d`. -/
theorem axis_point {M : Mesh K} {q : Nat} {f : V K → K} {e : Nat} {x d : K}
    (hd : ∀ n, NodeOf M e n → |M.fl (f (M.coord n)) - f (M.coord n)| ≤ d) (hd0 : 0 ≤ d)
    (hin : q < M.dims → (∃ n, NodeOf M e n ∧ f (M.coord n) ≤ x) ∧ ∃ n, NodeOf M e n ∧ x ≤ f (M.coord n))
    (hout : ¬ q < M.dims → |x| ≤ big) :
    (axis M q f (usedNodes M e)).1 - d ≤ x ∧ x ≤ (axis M q f (usedNodes M e)).2 + d := by
  by_cases hq : q < M.dims
  · obtain ⟨⟨a, ha, hax⟩, b, hb, hbx⟩ := hin hq
    have h1 := (axis_encloses (f := f) hq ha).1
    have h2 := (axis_encloses (f := f) hq hb).2
    have h3 := abs_le.1 (hd a ha)
    have h4 := abs_le.1 (hd b hb)
    constructor <;> linarith [h3.1, h3.2, h4.1, h4.2]
  · have := abs_le.1 (hout hq)
    simp only [axis, if_neg hq]
    constructor <;> linarith [this.1, this.2]

/-- The error of the conversion to `float` of moderate numbers. -/
theorem float_error {fl : K → K} (h : FloatLike fl) {x : K} {r : K} (hx : |x| ≤ r) :
    |fl x - x| ≤ r / 2 ^ 24 + 1 / 2 ^ 150 := by
  refine (h x).trans ?_
  have : |x| / 2 ^ 24 ≤ r / 2 ^ 24 := by
    apply div_le_div_of_nonneg_right hx; norm_num
  linarith

theorem bboxPoint_iff {p : V K} {b : Box K} : bboxPoint p b = true ↔
    (b.lo.x - tol ≤ p.x ∧ p.x ≤ b.hi.x + tol) ∧ (b.lo.y - tol ≤ p.y ∧ p.y ≤ b.hi.y + tol) ∧
      (b.lo.z - tol ≤ p.z ∧ p.z ≤ b.hi.z + tol) := by
  simp [bboxPoint, and_assoc]

end Verif.Search
