import Verif.Refs.Lemmas

/-! # Lemmas for C91: the end of the modification -/

namespace Verif.Refs

open Verif.Topology (El Topo Inv)
open Verif.Sets

variable {W W' W1 : World}

theorem clean_chain {mk : Nat → Bool} {t : Tree} (h : ∀ s, Clean mk t s) {x : Nat} {l : List Nat}
    (hc : Chain t x l) : mk x = false → ∀ c ∈ l, mk c = false := by
  induction hc with
  | nil => simp
  | cons x l h0 _ ih =>
    intro hx c hcl
    rcases List.mem_cons.1 hcl with rfl | h1
    · exact hx
    · exact ih (h x).2.1 c h1

theorem Result.marked_parent (R : Result W W1) {s : Nat} (hs : s ≠ 0) (h : W.marked s = true) :
    (W1.tree s).parent = 0 := by
  by_contra hp
  obtain ⟨L, g1, _, g3⟩ := R.part.forest.children _ hp
  have := clean_chain R.clean g1 (R.clean _).2.2 s ((g3 s).2 ⟨hs, rfl⟩)
  rw [this] at h; cases h

theorem Result.marked_child (R : Result W W1) {s : Nat} (hs : s ≠ 0) (h : W.marked s = true) :
    (W1.tree s).child = 0 := by
  by_contra hp
  have h1 := child_parent R.part.forest hs hp
  have h2 := (R.clean (W1.tree s).child).1
  rw [h1, h] at h2; cases h2

theorem endSets_loop : ∀ (ss : List Nat) (W : World), (∀ s ∈ ss, s ≠ 0 ∧ (elOf s).ty = 4 ∧
    (W.setHid (elOf s).id = true → (W.tree s).parent = 0 ∧ (W.tree s).child = 0)) →
    ∃ W', (∀ n, 1 ≤ n → each (World.endSet n) ss W = some W') ∧ W'.T = W.T ∧ W'.setLast = W.setLast ∧
      W'.setHid = W.setHid ∧ W'.tags = W.tags ∧ W'.remote = W.remote ∧ W'.shared = W.shared ∧
      (∀ s, W'.tree s = if s ∈ ss ∧ W.setHid (elOf s).id = true then ⟨0, 0, 0⟩ else W.tree s) ∧
      (∀ s, W'.sets s = if s ∈ ss ∧ W.setHid (elOf s).id = true then ESet.empty else W.sets s) ∧
      (∀ i, W'.setLive i = if handleOf ⟨4, i⟩ ∈ ss ∧ W.setHid i = true then false else W.setLive i) ∧
      (∀ t h, W'.data t h = if h ∈ ss ∧ W.setHid (elOf h).id = true then none else W.data t h)
  | [], W, _ => ⟨W, fun _ _ => rfl, rfl, rfl, rfl, rfl, rfl, rfl, by simp, by simp, by simp, by simp⟩
  | s :: ss, W, H => by
    obtain ⟨hs0, hs4, hs⟩ := H s (by simp)
    cases hh : W.setHid (elOf s).id with
    | false =>
      obtain ⟨W', e1, e2, e3, e4, e5, e6, e7, e8, e9, e10, e11⟩ := endSets_loop ss W
        fun k hk => H k (by simp [hk])
      have key : ∀ k, (k ∈ s :: ss ∧ W.setHid (elOf k).id = true) ↔
          (k ∈ ss ∧ W.setHid (elOf k).id = true) := by
        intro k
        by_cases e : k = s
        · subst e; simp [hh]
        · simp [e]
      refine ⟨W', fun n hn => ?_, e2, e3, e4, e5, e6, e7, fun k => ?_, fun k => ?_, fun i => ?_,
        fun t k => ?_⟩
      · simp only [each, World.endSet, hh, Bool.false_eq_true, if_false]; exact e1 n hn
      · rw [e8]; simp only [key]
      · rw [e9]; simp only [key]
      · rw [e10]
        have := key (handleOf ⟨4, i⟩)
        rw [elOf_handleOf (by simp)] at this
        simp only [this]
      · rw [e11]; simp only [key]
    | true =>
      obtain ⟨hp, hc⟩ := hs hh
      obtain ⟨W', e1, e2, e3, e4, e5, e6, e7, e8, e9, e10, e11⟩ := endSets_loop ss { W with
          tree := fun s2 => if s2 = s then ⟨0, 0, 0⟩ else W.tree s2
          sets := fun s2 => if s2 = s then ESet.empty else W.sets s2
          setLive := fun i => if i = (elOf s).id then false else W.setLive i
          data := fun t h => if h = s then none else W.data t h } (by
        intro k hk
        obtain ⟨h1, h2, h3⟩ := H k (by simp [hk])
        refine ⟨h1, h2, fun h => ?_⟩
        simp only
        split
        · exact ⟨rfl, rfl⟩
        · exact h3 h)
      have hid : ∀ i, i = (elOf s).id ↔ handleOf ⟨4, i⟩ = s := by
        intro i
        constructor
        · rintro rfl
          rw [← hs4]; exact handleOf_elOf hs0
        · intro h
          rw [← h, elOf_handleOf (by simp)]
      refine ⟨W', fun n hn => ?_, e2, e3, e4, e5, e6, e7, fun k => ?_, fun k => ?_, fun i => ?_,
        fun t k => ?_⟩
      · have hu : unlinkSet n W.tree s = some W.tree := by
          rw [unlinkSet, if_pos hp]
          simp only
          cases n with
          | zero => omega
          | succ n => rw [dropAll, if_pos hc]
        simp only [each, World.endSet, hh, if_true, World.destroySet, hu]
        exact e1 n hn
      · rw [e8]
        simp only [List.mem_cons]
        by_cases e : k = s
        · subst e; simp [hh]
        · simp [e]
      · rw [e9]
        simp only [List.mem_cons]
        by_cases e : k = s
        · subst e; simp [hh]
        · simp [e]
      · rw [e10]
        simp only [List.mem_cons]
        by_cases e : i = (elOf s).id
        · have h1 : (handleOf ⟨4, i⟩ = s ∨ handleOf ⟨4, i⟩ ∈ ss) ∧ W.setHid i = true :=
            ⟨Or.inl ((hid i).1 e), by rw [e]; exact hh⟩
          rw [if_pos h1]
          simp [e]
        · have : ¬ handleOf ⟨4, i⟩ = s := fun h => e ((hid i).2 h)
          simp [this, e]
      · rw [e11]
        simp only [List.mem_cons]
        by_cases e : k = s
        · subst e; simp [hh]
        · simp [e]

/-- The result of `EndModification` after `ApplyModification`. -/
structure Closed (W W1 W2 : World) : Prop where
  hide : W2.T.hide = false
  inv : Inv W2.T (fun _ => False)
  setLast : W2.setLast = W1.setLast
  tags : W2.tags = W1.tags
  remote : W2.remote = W1.remote
  live : ∀ h, W2.live h = true ↔ W.live h = true ∧ W.marked h = false
  data : ∀ t h, W2.holds h → W2.data t h = W1.data t h
  noData : ∀ t h, h ≠ 0 → W2.live h = false → W1.live h = true ∨ W1.data t h = none → W2.data t h = none
  sets : ∀ s, W2.sets s = if W1.isSet s ∧ W.marked s = true then ESet.empty else W1.sets s
  tree : ∀ s, W2.tree s = if W1.isSet s ∧ W.marked s = true then ⟨0, 0, 0⟩ else W1.tree s
  shared : W2.shared = W1.shared
  mesh : ∀ x, W2.T.alive x = true ↔ W.T.alive x = true ∧ W.T.hidden x = false

theorem end_result {flip : Topo → El → Bool} (S : Sound W) (R : Result W W1) (hh : W.T.hide = true) :
    ∃ W2, Ended flip W1 W2 ∧ Closed W W1 W2 := by
  have hb : ∀ i, W1.setLive i = true → i < W1.setLast := by
    intro i hi; rw [R.same.setLive] at hi; rw [R.same.setLast]; exact S.bound i hi
  have hmk : ∀ s, s ≠ 0 → (elOf s).ty = 4 → (W.marked s = true ↔ W1.setHid (elOf s).id = true) := by
    intro s h0 h4
    rw [World.marked, if_neg h0, if_pos h4, hh, R.same.setHid]; simp
  have hl1 : ∀ s, W1.isSet s → s ≠ 0 := by
    rintro s ⟨h1, _⟩ rfl; simp [World.live] at h1
  obtain ⟨W2, e1, e2, e3, e4, e5, e6, e7, e8, e9, e10, e11⟩ := endSets_loop W1.setList W1 (by
    intro s hs
    rw [mem_setList hb] at hs
    refine ⟨hl1 s hs, hs.2, fun h => ?_⟩
    have hm := (hmk s (hl1 s hs) hs.2).2 h
    exact ⟨R.marked_parent (hl1 s hs) hm, R.marked_child (hl1 s hs) hm⟩)
  have key : ∀ s, (s ∈ W1.setList ∧ W1.setHid (elOf s).id = true) ↔ (W1.isSet s ∧ W.marked s = true) := by
    intro s
    rw [mem_setList hb]
    constructor
    · rintro ⟨h1, h2⟩; exact ⟨h1, (hmk s (hl1 s h1) h1.2).2 h2⟩
    · rintro ⟨h1, h2⟩; exact ⟨h1, (hmk s (hl1 s h1) h1.2).1 h2⟩
  have IT : Inv W2.T (fun _ => False) := by rw [e2, R.same.T]; exact S.inv
  have hh2 : W2.T.hide = true := by rw [e2, R.same.T]; exact hh
  obtain ⟨T1, T', k1, k2, k3⟩ := Topology.endMod_spec (flip := flip) IT hh2
  have halive : ∀ x, T'.alive x = true ↔ W.T.alive x = true ∧ W.T.hidden x = false := by
    intro x
    rw [k2]
    show T1.alive x = true ↔ _
    rw [k3.alive, e2, R.same.T]; simp
  have I' : Inv T' (fun _ => False) := by
    rw [k2]
    exact ⟨k3.inv.tyLe, k3.inv.dead, k3.inv.lastLt, k3.inv.lowTy, k3.inv.mirror, k3.inv.cut⟩
  have hlive : ∀ h, World.live { W2 with
      T := T'
      data := fun t h =>
        if h ≠ 0 ∧ (elOf h).ty ≠ 4 ∧ T'.alive (elOf h) = false then none else W2.data t h } h = true ↔
      W.live h = true ∧ W.marked h = false := by
    intro h
    by_cases h0 : h = 0
    · simp [World.live, h0]
    by_cases h4 : (elOf h).ty = 4
    · have hk := key h
      simp only [World.live, World.marked, if_neg h0, if_pos h4, hh, Bool.true_and]
      rw [e10]
      have hhe : handleOf ⟨4, (elOf h).id⟩ = h := by
        rw [← h4]; exact handleOf_elOf h0
      rw [hhe]
      have h5 : h ∈ W1.setList ↔ W.setLive (elOf h).id = true := by
        rw [mem_setList hb, World.isSet, World.live, if_neg h0, if_pos h4, R.same.setLive]
        simp [h4]
      rw [R.same.setHid, R.same.setLive]
      cases hl : W.setLive (elOf h).id <;> cases hd : W.setHid (elOf h).id <;> simp [h5, hl]
    · simp only [World.live, World.marked, if_neg h0, if_neg h4]
      rw [halive, Topo.hid, hh]; simp
  refine ⟨{ W2 with
      T := T'
      data := fun t h =>
        if h ≠ 0 ∧ (elOf h).ty ≠ 4 ∧ T'.alive (elOf h) = false then none else W2.data t h },
    ⟨1, fun n hn => ?_⟩, ?_, I', e3, e5, e6, hlive, ?_, ?_, ?_, ?_, e7, halive⟩
  · have : W1.T.hide = true := by rw [R.same.T]; exact hh
    rw [World.endMod, if_pos this, e1 n hn]
    simp only [k1]
  · show T'.hide = false
    rw [k2]
  · intro t h hd
    simp only
    rcases hd with hd | hd
    · subst hd
      rw [if_neg (by simp), e11, if_neg]
      rintro ⟨h1, _⟩
      rw [mem_setList hb] at h1
      exact hl1 _ h1 rfl
    · have h1 := (hlive h).1 hd
      have h0 : h ≠ 0 := by rintro rfl; simp [World.live] at h1
      rw [if_neg, e11, if_neg]
      · rw [key]; rintro ⟨_, h2⟩; rw [h2] at h1; simp at h1
      · rintro ⟨_, h4, h5⟩
        rw [World.live, if_neg h0, if_neg h4] at hd
        simp only at hd
        rw [hd] at h5; cases h5
  · intro t h h0 hd hor
    simp only
    split
    · rfl
    · rename_i hneg
      rw [e11]
      split
      · rfl
      · rename_i hn
        rcases hor with h1 | h1
        · exfalso
          by_cases h4 : (elOf h).ty = 4
          · apply hn
            rw [key]
            refine ⟨⟨h1, h4⟩, ?_⟩
            by_contra hm
            have := (hlive h).2 ⟨by rw [← R.same.live]; exact h1, by simpa using hm⟩
            rw [hd] at this; cases this
          · apply hneg
            refine ⟨h0, h4, ?_⟩
            rw [World.live, if_neg h0, if_neg h4] at hd
            exact hd
        · exact h1
  · intro s; simp only [e9, key]
  · intro s; simp only [e8, key]

/-- After the modification everything is in order again. -/
theorem closed_sound {W2 : World} (S : Sound W) (R : Result W W1) (C : Closed W W1 W2)
    (hh : W.T.hide = true) : Sound W2 := by
  have hl1 : W1.live = W.live := R.same.live
  have hset1 : ∀ s, W1.isSet s ↔ W.isSet s := fun s => by simp only [World.isSet, hl1]
  have hset2 : ∀ s, W2.isSet s ↔ W.isSet s ∧ W.marked s = false := by
    intro s
    simp only [World.isSet, C.live]
    constructor
    · rintro ⟨⟨a, b⟩, c⟩; exact ⟨⟨a, c⟩, b⟩
    · rintro ⟨⟨a, c⟩, b⟩; exact ⟨⟨a, b⟩, c⟩
  have hlk := R.part.linked S.linked
  have htree : ∀ s, W2.isSet s → W2.tree s = W1.tree s := by
    intro s hs
    rw [C.tree, if_neg]
    rintro ⟨_, h⟩
    rw [((hset2 s).1 hs).2] at h; cases h
  have hty : ∀ s, ((W1.tree s).parent = 0 ∨ W.isSet (W1.tree s).parent) ∧
      ((W1.tree s).sibling = 0 ∨ W.isSet (W1.tree s).sibling) ∧
      ((W1.tree s).child = 0 ∨ W.isSet (W1.tree s).child) := by
    have h0 : ∀ s, ((W.tree s).parent = 0 ∨ W.isSet (W.tree s).parent) ∧
      ((W.tree s).sibling = 0 ∨ W.isSet (W.tree s).sibling) ∧
      ((W.tree s).child = 0 ∨ W.isSet (W.tree s).child) := by
      intro s
      by_cases h : W.isSet s
      · exact S.nd.links s h
      · rw [S.noLinks s h]; simp
    intro s
    refine ⟨?_, ?_, ?_⟩
    · rcases R.part.par s with h | ⟨h, _⟩
      · rw [h]; exact (h0 s).1
      · exact .inl h
    · rcases R.part.link2 s with h | ⟨y, h⟩
      · exact .inl h
      · rw [h]; exact (h0 y).2.1
    · rcases R.part.link s with h | h | ⟨y, h⟩
      · rw [h]; exact (h0 s).2.2
      · exact .inl h
      · rw [h]; exact (h0 y).2.1
  have hpar : ∀ s, (W2.tree s).parent = (W1.tree s).parent := by
    intro s
    rw [C.tree]
    split
    · rename_i h
      exact (R.marked_parent (by rintro rfl; simp [World.isSet, World.live] at h) h.2).symm
    · rfl
  have hchi : ∀ s, (W2.tree s).child = (W1.tree s).child := by
    intro s
    rw [C.tree]
    split
    · rename_i h
      exact (R.marked_child (by rintro rfl; simp [World.isSet, World.live] at h) h.2).symm
    · rfl
  have hF := forest_fields R.part.forest hpar hchi (by
    intro s hs
    rw [C.tree, if_neg]
    rintro ⟨h1, h2⟩
    exact hs (R.marked_parent (by rintro rfl; simp [World.isSet, World.live] at h1) h2))
  refine ⟨C.inv, ?_, ⟨?_, ?_, ?_, ?_⟩, hF.1, ends_zero R.part.ends fun s => ?_, ?_, ?_, ?_⟩
  · intro i hi
    rw [C.setLast, R.same.setLast]
    refine S.bound i ?_
    have h1 := (C.live (handleOf ⟨4, i⟩)).1 (by
      rw [World.live, if_neg (handleOf_ne _), elOf_handleOf (by simp)]; simpa using hi)
    have := h1.1
    rw [World.live, if_neg (handleOf_ne _), elOf_handleOf (by simp)] at this
    simpa using this
  · intro t ht hr h l hh2 hd x hx
    rw [C.tags, R.same.tags] at ht
    rw [C.remote, R.same.remote] at hr
    rw [C.data t h hh2, R.data] at hd
    have hW : W.holds h := by
      rcases hh2 with h1 | h1
      · exact .inl h1
      · exact .inr ((C.live h).1 h1).1
    rw [if_pos ⟨ht, hr, hW⟩] at hd
    cases hd0 : W.data t h with
    | none => rw [hd0] at hd; cases hd
    | some l0 =>
      rw [hd0] at hd
      simp only [Option.map_some, Option.some.injEq] at hd
      subst hd
      simp only [List.mem_map] at hx
      obtain ⟨y, hy, rfl⟩ := hx
      simp only [cleaned]
      split
      · exact .inl rfl
      · rename_i hm
        rcases S.nd.refs t ht hr h l0 hW hd0 y hy with h1 | h1
        · exact .inl h1
        · exact .inr ((C.live y).2 ⟨h1, by simpa using hm⟩)
  · intro s hs x hx
    have h1 := (hset2 s).1 hs
    rw [C.sets, if_neg (by rintro ⟨_, h⟩; rw [h1.2] at h; cases h), R.sets, if_pos h1.1,
      elements_eraseMarked, List.mem_filter] at hx
    exact (C.live x).2 ⟨S.nd.elems s h1.1 x hx.1, by simpa using hx.2⟩
  · intro s hs
    rw [htree s hs]
    obtain ⟨h1, h2, h3⟩ := hty s
    obtain ⟨c1, c2, c3⟩ := R.clean s
    refine ⟨h1.imp id fun h => (hset2 _).2 ⟨h, c1⟩, h2.imp id fun h => (hset2 _).2 ⟨h, c2⟩,
      h3.imp id fun h => (hset2 _).2 ⟨h, c3⟩⟩
  · intro l hl x hx
    rw [C.shared, R.shared, List.mem_map] at hl
    obtain ⟨l0, hl0, rfl⟩ := hl
    rw [List.mem_filter] at hx
    exact (C.live x).2 ⟨S.nd.shared l0 hl0 x hx.1, by simpa using hx.2⟩
  · rw [C.tree]
    split
    · exact .inr rfl
    · exact .inl rfl
  · intro s hs
    rw [C.tree]
    split
    · rfl
    · rename_i hn
      by_cases h1 : W.isSet s
      · exfalso
        apply hs
        rw [hset2]
        refine ⟨h1, ?_⟩
        by_contra hm
        exact hn ⟨(hset1 s).2 h1, by simpa using hm⟩
      · -- not a set before
        have hf := S.noLinks s h1
        obtain ⟨n1, n2⟩ := R.part.none s
        rw [hf] at n1 n2
        have n3 : (W1.tree s).parent = 0 := by
          rcases R.part.par s with h | ⟨h, _⟩
          · rw [h, hf]
          · exact h
        have n1 := n1 rfl
        have n2 := n2 rfl
        cases e : W1.tree s
        rw [e] at n1 n2 n3
        simp only at n1 n2 n3
        rw [n1, n2, n3]
  · intro s hs
    rw [C.sets]
    split
    · rfl
    · rename_i hn
      by_cases h1 : W.isSet s
      · exfalso
        apply hs
        rw [hset2]
        refine ⟨h1, ?_⟩
        by_contra hm
        exact hn ⟨(hset1 s).2 h1, by simpa using hm⟩
      · rw [R.sets, if_neg h1]; exact S.noElems s h1
  · intro t h h0 hd
    refine C.noData t h h0 hd ?_
    rw [hl1]
    cases hl : W.live h with
    | true => exact .inl rfl
    | false =>
      right
      rw [R.data, if_neg]
      · exact S.noData t h h0 hl
      · rintro ⟨_, _, h1 | h1⟩
        · exact h0 h1
        · rw [hl] at h1; cases h1

end Verif.Refs
