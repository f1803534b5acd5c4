import Verif.Refs.End
import Verif.Sets.TreeProps
import Verif.Topology.ReachInv

/-! # Lemmas for C91: histories -/

namespace Verif.Refs

open Verif.Topology (El Topo Inv)
open Verif.Sets

variable {W W' W1 : World} {t t' : Tree}

theorem addSibling_shape : ∀ (n cur s : Nat), addSibling n t cur s = some t' →
    ∃ z, (t z).parent ≠ 0 ∧ (t z).sibling = 0 ∧ t' = setParent (setSibling t z s) s (t z).parent
  | 0, _, _, h => by simp [addSibling] at h
  | n + 1, cur, s, h => by
    rw [addSibling] at h
    split at h
    · cases h
    · rename_i h1
      split at h
      · rename_i h2
        split at h
        · cases h
        · cases h; exact ⟨cur, h1, h2, rfl⟩
      · exact addSibling_shape n _ s h

theorem remSibling_shape : ∀ (n cur s : Nat), remSibling n t cur s = some t' →
    ∃ z, (t z).sibling = s ∧ s ≠ 0 ∧ t' = setSibling (setParent t s 0) z (t s).sibling
  | 0, _, _, h => by simp [remSibling] at h
  | n + 1, cur, s, h => by
    rw [remSibling] at h
    split at h
    · cases h
    · rename_i h1
      split at h
      · rename_i h2
        split at h
        · cases h
        · cases h; exact ⟨cur, h2, by rw [← h2]; exact h1, rfl⟩
      · exact remSibling_shape n _ s h

theorem ends_append {z c : Nat} (E : Ends t) (hc : c ≠ 0) (hz : (t' z).sibling = c)
    (hcz : (t' c).sibling = 0) (h : ∀ y, y ≠ z → (t' y).sibling = (t y).sibling) : Ends t' := by
  have key : ∀ x l, Chain t x l → ∃ l', Chain t' x l' := by
    intro x l hx
    induction hx with
    | nil => exact ⟨[], .nil⟩
    | cons x l h0 _ ih =>
      by_cases e : x = z
      · subst e
        refine ⟨[x, c], .cons _ _ h0 ?_⟩
        rw [hz]
        refine .cons _ _ hc ?_
        rw [hcz]; exact .nil
      · obtain ⟨l', h4⟩ := ih
        exact ⟨x :: l', .cons _ _ h0 (by rw [h x e]; exact h4)⟩
  intro x
  obtain ⟨l, hl⟩ := E x
  exact key x l hl

/-- What the operations on the tree of sets do to the links. -/
structure Tied (P : Nat → Prop) (t : Tree) : Prop where
  ends : Ends t
  none : ∀ s, ¬ P s → t s = ⟨0, 0, 0⟩
  links : ∀ s, ((t s).parent = 0 ∨ P (t s).parent) ∧ ((t s).sibling = 0 ∨ P (t s).sibling) ∧
    ((t s).child = 0 ∨ P (t s).child)

theorem Tied.of_append {P : Nat → Prop} (h : Tied P t) {z c : Nat} (hc : c ≠ 0) (hP : P c)
    (hz : (t z).parent ≠ 0) (hcp : (t c).parent = 0) (hcs : (t c).sibling = 0)
    (ht : t' = setParent (setSibling t z c) c (t z).parent) : Tied P t' := by
  have hzc : z ≠ c := by rintro rfl; exact hz hcp
  have hPz : P z := by
    by_contra hn
    rw [h.none z hn] at hz; exact hz rfl
  subst ht
  refine ⟨ends_append (z := z) (c := c) h.ends hc ?_ ?_ ?_, ?_, ?_⟩
  · simp [setParent, setSibling, hzc]
  · simp [setParent, setSibling, Ne.symm hzc, hcs]
  · intro y hy; simp only [setParent, setSibling, if_neg hy]; split <;> rfl
  · intro s hs
    have e1 : s ≠ z := by rintro rfl; exact hs hPz
    have e2 : s ≠ c := by rintro rfl; exact hs hP
    simp [setParent, setSibling, e1, e2, h.none s hs]
  · intro s
    have hs := h.links s
    by_cases e2 : s = c
    · subst e2
      simp only [setParent, setSibling, if_true, if_neg (Ne.symm hzc)]
      exact ⟨(h.links z).1, hs.2.1, hs.2.2⟩
    · by_cases e1 : s = z
      · subst e1
        simp only [setParent, setSibling, if_true, if_neg e2]
        exact ⟨hs.1, .inr hP, hs.2.2⟩
      · simp only [setParent, setSibling, if_neg e2, if_neg e1]
        exact hs

theorem Tied.of_child {P : Nat → Prop} (h : Tied P t) {p c : Nat} (hP : P c) (hp : P p)
    (ht : t' = setChild (setParent t c p) p c) : Tied P t' := by
  subst ht
  refine ⟨ends_zero h.ends fun y => .inl ?_, ?_, ?_⟩
  · simp only [setParent, setChild]; split <;> split <;> rfl
  · intro s hs
    have e1 : s ≠ p := by rintro rfl; exact hs hp
    have e2 : s ≠ c := by rintro rfl; exact hs hP
    simp [setParent, setChild, e1, e2, h.none s hs]
  · intro s
    have hs := h.links s
    simp only [setParent, setChild]
    split <;> split
    · exact ⟨.inr hp, hs.2.1, .inr hP⟩
    · exact ⟨hs.1, hs.2.1, .inr hP⟩
    · exact ⟨.inr hp, hs.2.1, hs.2.2⟩
    · exact hs

theorem Tied.of_skip {P : Nat → Prop} (h : Tied P t) {z c : Nat} (hc : c ≠ 0)
    (hz : (t z).sibling = c) (hP : P c)
    (ht : t' = setSibling (setParent t c 0) z (t c).sibling) : Tied P t' := by
  have hPz : P z := by
    by_contra hn
    rw [h.none z hn] at hz; exact hc hz.symm
  subst ht
  refine ⟨ends_skip hc h.ends fun y => ?_, ?_, ?_⟩
  · by_cases e : y = z
    · subst e
      right
      exact ⟨hz, by simp [setSibling]⟩
    · left
      simp only [setParent, setSibling, if_neg e]; split <;> rfl
  · intro s hs
    have e1 : s ≠ z := by rintro rfl; exact hs hPz
    have e2 : s ≠ c := by rintro rfl; exact hs hP
    simp [setParent, setSibling, e1, e2, h.none s hs]
  · intro s
    have hs := h.links s
    simp only [setParent, setSibling]
    split <;> split
    · exact ⟨.inl rfl, (h.links c).2.1, hs.2.2⟩
    · exact ⟨hs.1, (h.links c).2.1, hs.2.2⟩
    · exact ⟨.inl rfl, hs.2.1, hs.2.2⟩
    · exact hs

theorem Tied.of_first {P : Nat → Prop} (h : Tied P t) {p c : Nat} (hP : P c) (hp : P p)
    (ht : t' = setChild (setParent t c 0) p (t c).sibling) : Tied P t' := by
  subst ht
  refine ⟨ends_zero h.ends fun y => .inl ?_, ?_, ?_⟩
  · simp only [setParent, setChild]; split <;> split <;> rfl
  · intro s hs
    have e1 : s ≠ p := by rintro rfl; exact hs hp
    have e2 : s ≠ c := by rintro rfl; exact hs hP
    simp [setParent, setChild, e1, e2, h.none s hs]
  · intro s
    have hs := h.links s
    simp only [setParent, setChild]
    split <;> split
    · exact ⟨.inl rfl, hs.2.1, (h.links c).2.1⟩
    · exact ⟨hs.1, hs.2.1, (h.links c).2.1⟩
    · exact ⟨.inl rfl, hs.2.1, hs.2.2⟩
    · exact hs

theorem Sound.tied (S : Sound W) : Tied W.isSet W.tree := by
  refine ⟨S.ends, S.noLinks, fun s => ?_⟩
  by_cases h : W.isSet s
  · exact S.nd.links s h
  · rw [S.noLinks s h]; simp

theorem isSet_ne {s : Nat} (h : W.isSet s) : s ≠ 0 := by
  rintro rfl; simp [World.isSet, World.live] at h

theorem hist_sound {cn : Bool} (h : Hist cn W) : Sound W := by
  induction h with
  | init tags remote =>
    have hl : ∀ h, World.live
      { T := Topo.init cn, setLast := 0, setLive := fun _ => false, setHid := fun _ => false
        sets := fun _ => ESet.empty, tree := Tree.init, tags := tags, remote := remote
        data := fun _ _ => none, shared := [] } h = false := by
      intro h; simp only [World.live]; split
      · rfl
      · split <;> rfl
    refine ⟨Topology.init_inv cn, by simp, ⟨?_, ?_, ?_, by simp⟩, ?_, ?_, fun _ _ => rfl, fun _ _ => rfl,
      fun _ _ _ _ => rfl⟩
    · intro t _ _ h l _ hd; cases hd
    · intro s hs; rw [World.isSet, hl] at hs; simp at hs
    · intro s hs; rw [World.isSet, hl] at hs; simp at hs
    · refine ⟨fun p hp => ⟨[], .nil, by simp, fun c => ?_⟩, fun x _ => .root x rfl⟩
      constructor
      · intro h; cases h
      · rintro ⟨_, h⟩; exact absurd h.symm hp
    · intro x
      by_cases e : x = 0
      · subst e; exact ⟨[], .nil⟩
      · exact ⟨[x], .cons _ _ e .nil⟩
  | @mesh W T' _ hr ha hh ih =>
    have hl : ∀ h, W.live h = true → World.live { W with T := T' } h = true := by
      intro h; simp only [World.live]
      split
      · exact id
      · split
        · exact id
        · exact ha _
    have hs : ∀ s, World.isSet { W with T := T' } s ↔ W.isSet s := by
      intro s
      simp only [World.isSet, World.live]
      constructor
      · rintro ⟨h1, h2⟩; rw [if_pos h2] at h1 ⊢; exact ⟨h1, h2⟩
      · rintro ⟨h1, h2⟩; rw [if_pos h2] at h1 ⊢; exact ⟨h1, h2⟩
    refine ⟨(Topology.reach_inv hr).1, ih.bound, ⟨?_, ?_, ?_, ?_⟩, ih.forest, ih.ends, ?_, ?_, ?_⟩
    · intro t ht hrm h l hh2 hd x hx
      by_cases hW : W.holds h
      · exact (ih.nd.refs t ht hrm h l hW hd x hx).imp id (hl x)
      · have : W.data t h = none := ih.noData t h (fun e => hW (.inl e)) (by
          cases e : W.live h with
          | false => rfl
          | true => exact absurd (.inr e) hW)
        change W.data t h = some l at hd
        rw [this] at hd; cases hd
    · intro s h1 x hx; exact hl x (ih.nd.elems s ((hs s).1 h1) x hx)
    · intro s h1
      simp only [hs]
      exact ih.nd.links s ((hs s).1 h1)
    · intro l hl2 x hx; exact hl x (ih.nd.shared l hl2 x hx)
    · intro s h1; exact ih.noLinks s fun h => h1 ((hs s).2 h)
    · intro s h1; exact ih.noElems s fun h => h1 ((hs s).2 h)
    · intro t h h0 hd
      refine ih.noData t h h0 ?_
      cases e : W.live h with
      | false => rfl
      | true => rw [hl h e] at hd; cases hd
  | @createSet W i _ hi ih =>
    have hl : ∀ h, W.live h = true → World.live { W with
        setLive := fun j => if j = i then true else W.setLive j
        setHid := fun j => if j = i then false else W.setHid j
        setLast := max W.setLast (i + 1) } h = true := by
      intro h; simp only [World.live]
      split
      · exact id
      · split
        · intro h; rw [h]; split <;> rfl
        · exact id
    have hs : ∀ s, W.isSet s → World.isSet { W with
        setLive := fun j => if j = i then true else W.setLive j
        setHid := fun j => if j = i then false else W.setHid j
        setLast := max W.setLast (i + 1) } s := fun s h => ⟨hl s h.1, h.2⟩
    refine ⟨ih.inv, ?_, ⟨?_, ?_, ?_, ?_⟩, ih.forest, ih.ends, ?_, ?_, ?_⟩
    · intro j hj
      simp only at hj ⊢
      split at hj
      · rename_i e; subst e; omega
      · have := ih.bound j hj; omega
    · intro t ht hrm h l hh2 hd x hx
      by_cases hW : W.holds h
      · exact (ih.nd.refs t ht hrm h l hW hd x hx).imp id (hl x)
      · have : W.data t h = none := ih.noData t h (fun e => hW (.inl e)) (by
          cases e : W.live h with
          | false => rfl
          | true => exact absurd (.inr e) hW)
        change W.data t h = some l at hd
        rw [this] at hd; cases hd
    · intro s h1 x hx
      by_cases hW : W.isSet s
      · exact hl x (ih.nd.elems s hW x hx)
      · change x ∈ elements (W.sets s) at hx
        rw [ih.noElems s hW] at hx
        rw [show elements ESet.empty = [] from by decide +kernel] at hx
        cases hx
    · intro s h1
      have := ih.tied.links s
      exact ⟨this.1.imp id (hs _), this.2.1.imp id (hs _), this.2.2.imp id (hs _)⟩
    · intro l hl2 x hx; exact hl x (ih.nd.shared l hl2 x hx)
    · intro s h1; exact ih.noLinks s fun h => h1 (hs s h)
    · intro s h1; exact ih.noElems s fun h => h1 (hs s h)
    · intro t h h0 hd
      refine ih.noData t h h0 ?_
      cases e : W.live h with
      | false => rfl
      | true => rw [hl h e] at hd; cases hd
  | @write W t h l _ hh hl ih =>
    refine ⟨ih.inv, ih.bound, ⟨?_, ih.nd.elems, ih.nd.links, ih.nd.shared⟩, ih.forest, ih.ends, ih.noLinks,
      ih.noElems, ?_⟩
    · intro t2 ht hrm h2 l2 hh2 hd x hx
      simp only at hd
      split at hd
      · exact hl l2 hd x hx
      · exact ih.nd.refs t2 ht hrm h2 l2 hh2 hd x hx
    · intro t2 h2 h0 hd
      simp only
      rw [if_neg]
      · exact ih.noData t2 h2 h0 hd
      · rintro ⟨_, rfl⟩
        rcases hh with hh | hh
        · exact h0 hh
        · change W.live h2 = false at hd
          rw [hh] at hd; cases hd
  | @setElems W s e _ hs he ih =>
    refine ⟨ih.inv, ih.bound, ⟨ih.nd.refs, ?_, ih.nd.links, ih.nd.shared⟩, ih.forest, ih.ends, ih.noLinks,
      ?_, ih.noData⟩
    · intro s2 h2 x hx
      simp only at hx
      split at hx
      · exact he x hx
      · exact ih.nd.elems s2 h2 x hx
    · intro s2 h2
      simp only
      rw [if_neg]
      · exact ih.noElems s2 h2
      · rintro rfl; exact h2 hs
  | @treeOp W n o t' _ hp he ih =>
    have hperm : Permitted W.tree o := by
      cases o with
      | addChild p c => exact ⟨isSet_ne hp.1, isSet_ne hp.2.1, hp.2.2⟩
      | addSibling p c => exact ⟨isSet_ne hp.1, isSet_ne hp.2.1, hp.2.2⟩
      | remChild p c => exact ⟨isSet_ne hp.1, isSet_ne hp.2.1, hp.2.2⟩
      | remSibling p c => exact ⟨isSet_ne hp.1, isSet_ne hp.2.1, hp.2.2⟩
    obtain ⟨t2, L, _, ⟨m, g2⟩, g3, _⟩ := step_forest ih.forest o hperm
    have e := fuel_unique g2 he
    have F : Forest t' := by rw [e]; exact g3
    have Td : Tied W.isSet t' := by
      cases o with
      | addChild p c =>
        simp only [texec, addChild] at he
        split at he
        · split at he
          · cases he
          · cases he; exact ih.tied.of_child hp.2.1 hp.1 rfl
        · obtain ⟨z, z1, z2, z3⟩ := addSibling_shape _ _ _ he
          exact ih.tied.of_append (isSet_ne hp.2.1) hp.2.1 z1 hp.2.2.1 hp.2.2.2.1 z3
      | addSibling p c =>
        obtain ⟨z, z1, z2, z3⟩ := addSibling_shape _ _ _ he
        exact ih.tied.of_append (isSet_ne hp.2.1) hp.2.1 z1 hp.2.2.2.1 hp.2.2.2.2.1 z3
      | remChild p c =>
        simp only [texec, remChild] at he
        split at he
        · cases he
        · split at he
          · split at he
            · cases he
            · cases he; exact ih.tied.of_first hp.2.1 hp.1 rfl
          · obtain ⟨z, z1, z2, z3⟩ := remSibling_shape _ _ _ he
            exact ih.tied.of_skip z2 z1 hp.2.1 z3
      | remSibling p c =>
        obtain ⟨z, z1, z2, z3⟩ := remSibling_shape _ _ _ he
        exact ih.tied.of_skip z2 z1 hp.2.1 z3
    exact ⟨ih.inv, ih.bound, ⟨ih.nd.refs, ih.nd.elems, fun s _ => Td.links s, ih.nd.shared⟩, F, Td.ends,
      Td.none, ih.noElems, ih.noData⟩
  | share ls _ hl ih =>
    exact ⟨ih.inv, ih.bound, ⟨ih.nd.refs, ih.nd.elems, ih.nd.links, hl⟩, ih.forest, ih.ends, ih.noLinks,
      ih.noElems, ih.noData⟩
  | @beginMod W W' _ e ih =>
    rw [World.beginMod] at e
    cases hb : W.T.beginMod with
    | none => rw [hb] at e; cases e
    | some T' =>
      rw [hb] at e
      simp only [Option.some.injEq] at e
      subst e
      have I' := (Topology.beginMod_inv ih.inv hb).1
      have ha : T'.alive = W.T.alive := by
        unfold Topo.beginMod at hb
        split at hb
        · cases hb
        · cases hb; rfl
      have hl : World.live { W with T := T', setHid := fun _ => false } = W.live := by
        funext h; simp only [World.live, ha]
      have hs : World.isSet { W with T := T', setHid := fun _ => false } = W.isSet := by
        funext s; simp only [World.isSet, hl]
      have hd : World.holds { W with T := T', setHid := fun _ => false } = W.holds := by
        funext s; simp only [World.holds, hl]
      refine ⟨I', ih.bound, ⟨?_, ?_, ?_, ?_⟩, ih.forest, ih.ends, ?_, ?_, ?_⟩
      · rw [hl, hd]; exact ih.nd.refs
      · rw [hl, hs]; exact ih.nd.elems
      · rw [hs]; exact ih.nd.links
      · rw [hl]; exact ih.nd.shared
      · rw [hs]; exact ih.noLinks
      · rw [hs]; exact ih.noElems
      · rw [hl]; exact ih.noData
  | hideSet s b _ _ _ ih =>
    exact ⟨ih.inv, ih.bound, ⟨ih.nd.refs, ih.nd.elems, ih.nd.links, ih.nd.shared⟩, ih.forest, ih.ends,
      ih.noLinks, ih.noElems, ih.noData⟩
  | @finish W W1 W2 flip _ O a e ih =>
    obtain ⟨W1', a', R⟩ := apply_result ih O
    have e1 : W1 = W1' := by
      obtain ⟨m, hm⟩ := a
      obtain ⟨m', hm'⟩ := a'
      have := (hm (max m m') (by omega)).symm.trans (hm' (max m m') (by omega))
      simpa using this
    subst e1
    have hh : W.T.hide = true := by
      obtain ⟨m, hm⟩ := e
      have := hm m (Nat.le_refl m)
      rw [World.endMod] at this
      split at this
      · rename_i h; rw [R.same.T] at h; exact h
      · cases this
    obtain ⟨W2', e', C⟩ := end_result (flip := flip) ih R hh
    have e2 : W2 = W2' := by
      obtain ⟨m, hm⟩ := e
      obtain ⟨m', hm'⟩ := e'
      have := (hm (max m m') (by omega)).symm.trans (hm' (max m m') (by omega))
      simpa using this
    subst e2
    exact closed_sound ih R C hh

end Verif.Refs
