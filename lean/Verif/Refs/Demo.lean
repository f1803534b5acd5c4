import Verif.Refs.Props
import Verif.Refs.Model

/-!
# C91: a concrete history

Two nodes (handles 1 and 6) and four sets (handles 5, 10, 15, 20).  The sets 10 and 15 are
children of the set 5.  The set 5 contains both nodes and the set 10, the first node holds references to the
second one and to the sets 10 and 15, in a tag of references (7) and in a tag of remote references (8).  Then the
second node and the set 10 are deleted in a modification.
-/

namespace Verif.Refs

open Verif.Topology (El Topo Inv)
open Verif.Sets

def demoT : Topo := ((Topo.init true).createNode 0 |>.bind (·.createNode 1)).getD (Topo.init true)

theorem demoT_reach : Topology.Reach true demoT := by
  have h1 : ((Topo.init true).createNode 0).isSome := by decide +kernel
  have h2 : (((Topo.init true).createNode 0).bind (·.createNode 1)).isSome := by decide +kernel
  obtain ⟨T1, e1⟩ := Option.isSome_iff_exists.1 h1
  obtain ⟨T2, e2⟩ := Option.isSome_iff_exists.1 h2
  have e3 : demoT = T2 := by rw [demoT, e2]; rfl
  rw [e1] at e2
  rw [e3]
  exact .createNode 1 (.createNode 0 .init e1) e2

def demo0 : World :=
  { T := Topo.init true, setLast := 0, setLive := fun _ => false, setHid := fun _ => false
    sets := fun _ => ESet.empty, tree := Tree.init, tags := [7, 8], remote := fun t => t == 8
    data := fun _ _ => none, shared := [] }

def demo1 : World := { demo0 with T := demoT }

def World.newSet (W : World) (i : Nat) : World :=
  { W with
    setLive := fun j => if j = i then true else W.setLive j
    setHid := fun j => if j = i then false else W.setHid j
    setLast := max W.setLast (i + 1) }

def demo2 : World := (((demo1.newSet 0).newSet 1).newSet 2).newSet 3

theorem demo2_hist : Hist true demo2 := by
  have h1 : Hist true demo1 := Hist.mesh demoT (Hist.init [7, 8] fun t => t == 8) demoT_reach
    (fun x hx => by cases hx) (by decide +kernel)
  have h2 : Hist true (demo1.newSet 0) := h1.createSet 0 (by decide +kernel)
  have h3 : Hist true ((demo1.newSet 0).newSet 1) := h2.createSet 1 (by decide +kernel)
  have h4 : Hist true (((demo1.newSet 0).newSet 1).newSet 2) := h3.createSet 2 (by decide +kernel)
  exact h4.createSet 3 (by decide +kernel)

def World.tie (W : World) (o : TOp) : World := { W with tree := (texec 5 W.tree o).getD W.tree }

def demo3 : World := (demo2.tie (.addChild 5 10)).tie (.addChild 5 15)

theorem root_not_within {t : Tree} {c p : Nat} (hp : (t p).parent = 0) (h0 : (t 0).parent = 0) (hne : c ≠ p)
    (hc : c ≠ 0) : ¬ Within t c p := by
  have key : ∀ x, Within t c x → x = p ∨ x = 0 → False := by
    intro x hx
    induction hx with
    | self => rintro (h | h) <;> contradiction
    | up x _ ih =>
      rintro (rfl | rfl)
      · exact ih (.inr hp)
      · exact ih (.inr h0)
  exact fun h => key p h (.inl rfl)

theorem demo3_hist : Hist true demo3 := by
  have h1 : Hist true (demo2.tie (.addChild 5 10)) := demo2_hist.treeOp 5 (.addChild 5 10) _
    ⟨by decide +kernel, by decide +kernel, by decide +kernel, by decide +kernel,
      root_not_within (by decide +kernel) (by decide +kernel) (by decide) (by decide)⟩ rfl
  exact h1.treeOp 5 (.addChild 5 15) _
    ⟨by decide +kernel, by decide +kernel, by decide +kernel, by decide +kernel,
      root_not_within (by decide +kernel) (by decide +kernel) (by decide) (by decide)⟩ rfl

/-- The elements of the set 5. -/
def demoSet : ESet := { ESet.empty with lc := [1, 6, 10] }

def World.fill (W : World) (s : Nat) (e : ESet) : World :=
  { W with sets := fun s2 => if s2 = s then e else W.sets s2 }

def demo4 : World := (((demo3.fill 5 demoSet).put 7 1 [6, 0, 10, 15]).put 8 1 [6])

def demo5 : World := { demo4 with shared := [[1, 6], [6]] }

theorem put_hist {cn : Bool} {W : World} (h : Hist cn W) (t x : Nat) (l : List Nat) (hx : W.holds x)
    (hl : ∀ y ∈ l, y = 0 ∨ W.live y = true) : Hist cn (W.put t x l) :=
  h.write t x (some l) hx fun a ha y hy => by cases ha; exact hl y hy

theorem demo5_hist : Hist true demo5 := by
  have h1 : Hist true (demo3.fill 5 demoSet) := demo3_hist.setElems 5 demoSet (by decide +kernel) (by
    rw [show elements demoSet = [1, 6, 10] from by decide +kernel]
    decide +kernel)
  have h2 := put_hist h1 7 1 [6, 0, 10, 15] (by decide +kernel) (by decide +kernel)
  have h3 := put_hist h2 8 1 [6] (by decide +kernel) (by decide +kernel)
  exact h3.share [[1, 6], [6]] (by decide +kernel)

/-- The state before `ApplyModification`: the second node and the set 10 are deleted. -/
def demoTm : Topo := { demoT with hide := true, hidden := fun _ => false }

def demoTh : Topo := (demoTm.delete (fun _ _ => false) ⟨0, 1⟩).getD demoTm

theorem demoTh_reach : Topology.Reach true demoTh := by
  have h1 : Topology.Reach true demoTm := .beginMod demoT_reach (by
    rw [Topo.beginMod, if_neg (by decide +kernel)]; rfl)
  have h2 : (demoTm.delete (fun _ _ => false) ⟨0, 1⟩).isSome := by decide +kernel
  obtain ⟨T2, e2⟩ := Option.isSome_iff_exists.1 h2
  have e3 : demoTh = T2 := by rw [demoTh, e2]; rfl
  rw [e3]
  exact .delete _ ⟨0, 1⟩ h1 (by decide +kernel) e2

def demo6 : World := { demo5 with T := demoTm, setHid := fun _ => false }

def demo7 : World := { demo6 with T := demoTh }

def World.hideS (W : World) (s : Nat) : World :=
  { W with setHid := fun j => if j = (elOf s).id then true else W.setHid j }

def demo : World := demo7.hideS 10

theorem demo_hist : Hist true demo := by
  have h1 : Hist true demo6 := demo5_hist.beginMod (by
    rw [World.beginMod, Topo.beginMod, if_neg (by decide +kernel)]; rfl)
  have h2 : Hist true demo7 := h1.mesh demoTh demoTh_reach (fun x hx => hx) (by decide +kernel)
  exact h2.hideSet 10 true (by decide +kernel) (by decide +kernel)

/-- `Orderly` need only be checked for the sets of the mesh. -/
theorem orderly_of {W : World} (S : Sound W)
    (h : ∀ s ∈ W.setList, (W.marked s = true → W.marked (W.tree s).parent = false) ∧
      ((W.tree s).parent = 0 → W.marked (W.tree s).sibling = true →
        (W.tree (W.tree s).sibling).parent = 0)) : Orderly W := by
  refine ⟨fun s hs => ?_, fun s hp hs => ?_⟩
  · by_cases e : W.isSet s
    · exact (h s ((mem_setList S.bound).2 e)).1 hs
    · rw [S.noLinks s e]; exact marked_zero
  · by_cases e : W.isSet s
    · exact (h s ((mem_setList S.bound).2 e)).2 hp hs
    · rw [S.noLinks s e, marked_zero] at hs; cases hs

theorem demo_orderly : Orderly demo := orderly_of (hist_sound demo_hist) (by decide +kernel)

/-- The hypotheses of `C91_apply_partial` are met; the reference of the first node to the second and the one
to the set 10 become invalid, the one to the set 15 stays. -/
example : ∃ W', Applied demo W' ∧ W'.data 7 1 = some [0, 0, 0, 15] ∧ elements (W'.sets 5) = [1] ∧
    Children W'.tree 5 [15] ∧ W'.shared = [[1], []] := by
  obtain ⟨W', a, _, _, h1, _, h2, _, h3, _, _, h4⟩ := C91_apply_partial demo_hist demo_orderly
  refine ⟨W', a, ?_, ?_, ?_, ?_⟩
  · rw [h1 7 (by decide +kernel) (by decide +kernel) 1 [6, 0, 10, 15] (by decide +kernel) (by decide +kernel)]
    decide +kernel
  · rw [h2 5 (by decide +kernel)]
    decide +kernel
  · have := h3 5 [10, 15] (by decide +kernel) (by decide +kernel) (by
      rw [Children, show (demo.tree 5).child = 10 from by decide +kernel]
      refine .cons _ _ (by decide) ?_
      rw [show (demo.tree 10).sibling = 15 from by decide +kernel]
      refine .cons _ _ (by decide) ?_
      rw [show (demo.tree 15).sibling = 0 from by decide +kernel]
      exact .nil)
    rwa [show ([10, 15].filter fun x => !demo.marked x) = [15] from by decide +kernel] at this
  · rw [h4]; decide +kernel

/-- `C91_end_partial` and `C91_histories_partial`. -/
example : ∃ W1 W2, Applied demo W1 ∧ Ended (fun _ _ => false) W1 W2 ∧ NoDangling W2 ∧
    W2.live 6 = false ∧ W2.live 10 = false ∧ W2.live 15 = true := by
  obtain ⟨W1, W2, a, e, n, _, l, _⟩ := C91_end_partial (fun _ _ => false) demo_hist demo_orderly
    (by decide +kernel)
  refine ⟨W1, W2, a, e, C91_histories_partial (.finish _ demo_hist demo_orderly a e), ?_, ?_, ?_⟩
  · by_contra h
    have := (l 6).1 (by simpa using h)
    exact absurd this.2 (by decide +kernel)
  · by_contra h
    have := (l 10).1 (by simpa using h)
    exact absurd this.2 (by decide +kernel)
  · exact (l 15).2 (by decide +kernel)

/-- `C91_deleteSet`: the same sets, but the set 10 was first taken away from its parent. -/
def demoD : World := demo7.tie (.remChild 5 10) |>.hideS 10

example : ∀ s, demoD.marked s = true → (demoD.tree s).parent = 0 := by
  intro s hs
  by_cases h4 : (elOf s).ty = 4
  · have h0 : s ≠ 0 := by rintro rfl; rw [marked_zero] at hs; cases hs
    have hid : (elOf s).id = 1 := by
      rw [World.marked, if_neg h0, if_pos h4] at hs
      simp only [demoD, World.hideS, World.tie, demo7, demo6, Bool.and_eq_true] at hs
      by_contra hne
      have h2 := hs.2
      rw [if_neg (by intro e; exact hne (e.trans (by decide)))] at h2
      cases h2
    have : s = 10 := by
      rw [← handleOf_elOf h0]
      have : elOf s = ⟨4, 1⟩ := by
        cases e : elOf s
        rw [e] at h4 hid
        simp only at h4 hid
        rw [h4, hid]
      rw [this]; decide
    subst this
    decide +kernel
  · have : ∀ y, (elOf y).ty ≠ 4 → demoD.tree y = ⟨0, 0, 0⟩ := by
      intro y hy
      have hS : Sound (demo7.tie (.remChild 5 10)) := by
        refine hist_sound (cn := true) ?_
        have h1 : Hist true demo6 := demo5_hist.beginMod (by
          rw [World.beginMod, Topo.beginMod, if_neg (by decide +kernel)]; rfl)
        have h2 : Hist true demo7 := h1.mesh demoTh demoTh_reach (fun x hx => hx) (by decide +kernel)
        exact h2.treeOp 5 (.remChild 5 10) _ ⟨by decide +kernel, by decide +kernel, by decide +kernel⟩ rfl
      exact hS.noLinks y fun h => hy h.2
    rw [this s h4]

/-! ## What fails -/

/-- **C91** fails for remote references: inmost_mesh.h L1687 promises that references to deleted elements
are reset for `DATA_REMOTE_REFERENCE` too, but `RemoveLinksToDeletedElements` looks only at
`DATA_REFERENCE` (modify.cpp L1795).  After the modification the first node still refers to the second one,
which no longer exists. -/
theorem C91_remote_fails : ∃ W W1 W2 : World, Hist true W ∧ Orderly W ∧ Applied W W1 ∧
    Ended (fun _ _ => false) W1 W2 ∧ ∃ t x y, t ∈ W2.tags ∧ W2.live x = true ∧
      W2.data t x = some [y] ∧ y ≠ 0 ∧ W2.live y = false := by
  have S := hist_sound demo_hist
  obtain ⟨W1, a, R⟩ := apply_result S demo_orderly
  obtain ⟨W2, e, C⟩ := end_result (flip := fun _ _ => false) S R (by decide +kernel)
  have h1 : W2.live 1 = true := (C.live 1).2 (by decide +kernel)
  refine ⟨demo, W1, W2, demo_hist, demo_orderly, a, e, 8, 1, 6, ?_, h1, ?_, by decide, ?_⟩
  · rw [C.tags, R.same.tags]; decide +kernel
  · rw [C.data 8 1 (.inr h1), R.data, if_neg]
    · decide +kernel
    · rintro ⟨_, h, _⟩
      exact absurd h (by decide +kernel)
  · by_contra h
    have := (C.live 6).1 (by simpa using h)
    exact absurd this.2 (by decide +kernel)

/-- Sets 5 and 10 are children of the set 15, in this order; 15 and 10 are deleted. -/
def World.begun (W : World) : World := { W with T := demoTm, setHid := fun _ => false }

def badLinks : World :=
  ((World.begun ((demo2.tie (.addChild 15 5)).tie (.addChild 15 10))).hideS 15).hideS 10

theorem cleanData_none (t : Nat) (W : World) : ∀ hs : List Nat, (∀ h ∈ hs, W.data t h = none) →
    each (World.cleanData t) hs W = some W
  | [], _ => rfl
  | h :: hs, H => by
    have : World.cleanData t W h = some W := by rw [World.cleanData, H h (by simp)]
    rw [each, this]
    exact cleanData_none t W hs fun k hk => H k (by simp [hk])

theorem badLinks_hist : Hist true badLinks := by
  have h1 : Hist true (demo2.tie (.addChild 15 5)) := demo2_hist.treeOp 5 (.addChild 15 5) _
    ⟨by decide +kernel, by decide +kernel, by decide +kernel, by decide +kernel,
      root_not_within (by decide +kernel) (by decide +kernel) (by decide) (by decide)⟩ rfl
  have h2 : Hist true ((demo2.tie (.addChild 15 5)).tie (.addChild 15 10)) :=
    h1.treeOp 5 (.addChild 15 10) _
    ⟨by decide +kernel, by decide +kernel, by decide +kernel, by decide +kernel,
      root_not_within (by decide +kernel) (by decide +kernel) (by decide) (by decide)⟩ rfl
  have h3 := h2.beginMod (W' := World.begun ((demo2.tie (.addChild 15 5)).tie (.addChild 15 10))) (by
    rw [World.beginMod, Topo.beginMod, if_neg (by decide +kernel)]; rfl)
  exact (h3.hideSet 15 true (by decide +kernel) (by decide +kernel)).hideSet 10 true
    (by decide +kernel) (by decide +kernel)

/-- **C91** fails for a set deleted together with one of its children but not with the child before it:
`ApplyModification` does not return.  The remaining child is taken away from its parent first (modify.cpp L1880-1881) and
then asked to remove its next sibling, which still has the parent: the assertion in eset.cpp L140 fails. -/
theorem C91_links_fails : ∃ W : World, Hist true W ∧ NoDangling W ∧ (∀ s, W.marked s = true → W.isSet s) ∧
    ∀ n, W.apply n = none := by
  refine ⟨badLinks, badLinks_hist, C91_histories_partial badLinks_hist, ?_, ?_⟩
  · intro s hs
    have h0 : s ≠ 0 := by rintro rfl; rw [marked_zero] at hs; cases hs
    rw [World.marked, if_neg h0] at hs
    split at hs
    · rename_i h4
      simp only [badLinks, World.hideS, World.begun, Bool.and_eq_true] at hs
      refine ⟨?_, h4⟩
      rw [World.live, if_neg h0, if_pos h4]
      have h2 := hs.2
      have hc : (elOf s).id = 1 ∨ (elOf s).id = 2 := by
        by_contra hne
        have n1 : ¬ (elOf s).id = (elOf 10).id := fun e => hne (.inl (e.trans (by decide)))
        have n2 : ¬ (elOf s).id = (elOf 15).id := fun e => hne (.inr (e.trans (by decide)))
        rw [if_neg n1, if_neg n2] at h2
        cases h2
      rcases hc with hc | hc <;> rw [hc] <;> decide +kernel
    · exfalso
      simp [badLinks, World.hideS, World.begun, Topo.hid, demoTm] at hs
  · intro n
    have : badLinks.removeLinks n = none := by
      have h1 : each World.cleanTag badLinks.tags badLinks = some badLinks := by
        have e7 : badLinks.cleanTag 7 = some badLinks := by
          rw [World.cleanTag, if_neg (by decide +kernel)]
          exact cleanData_none 7 _ _ fun h _ => rfl
        have e8 : badLinks.cleanTag 8 = some badLinks := by
          rw [World.cleanTag, if_pos (by decide +kernel)]
        rw [show badLinks.tags = [7, 8] from rfl]
        simp only [each, e7, e8]
      rw [World.removeLinks, h1]
      have h2 : badLinks.setList = [5, 10, 15, 20] := by decide +kernel
      simp only [h2, each]
      have h3 : badLinks.cleanSet n 5 = none := by
        have h4 : dropLinks badLinks.live badLinks.marked n badLinks.tree 5 = none := by
          have p1 : (badLinks.tree 5).parent = 15 := by decide +kernel
          have p2 : linkMarked badLinks.live badLinks.marked 15 = some true := by decide +kernel
          have p3 : remChild n badLinks.tree 15 5 =
              some (setChild (setParent badLinks.tree 5 0) 15 (badLinks.tree 5).sibling) := by
            rw [remChild, if_neg (by decide +kernel), if_pos (by decide +kernel), if_neg (by decide +kernel)]
          have p4 : dropParent badLinks.live badLinks.marked n badLinks.tree 5 =
              some (setChild (setParent badLinks.tree 5 0) 15 (badLinks.tree 5).sibling) := by
            rw [dropParent, p1, if_neg (by decide), p2]
            exact p3
          rw [dropLinks, p4]
          cases n with
          | zero => rfl
          | succ n =>
            have q1 : dropChildren badLinks.live badLinks.marked (n + 1)
                (setChild (setParent badLinks.tree 5 0) 15 (badLinks.tree 5).sibling) 5 =
                some (setChild (setParent badLinks.tree 5 0) 15 (badLinks.tree 5).sibling) := by
              rw [dropChildren, if_pos (by decide +kernel)]
            simp only [q1]
            have q2 : (setChild (setParent badLinks.tree 5 0) 15 (badLinks.tree 5).sibling 5).sibling = 10 := by
              decide +kernel
            have q3 : linkMarked badLinks.live badLinks.marked 10 = some true := by decide +kernel
            have q4 : remSibling (n + 1)
                (setChild (setParent badLinks.tree 5 0) 15 (badLinks.tree 5).sibling) 5 10 = none := by
              rw [remSibling, if_neg (by decide +kernel), if_pos (by decide +kernel), if_pos (by decide +kernel)]
            rw [dropSiblings, q2, if_neg (by decide), q3]
            simp only [q4]
        rw [World.cleanSet, h4]
      rw [h3]
    rw [World.apply, this]

end Verif.Refs
