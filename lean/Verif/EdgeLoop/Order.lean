import Verif.EdgeLoop.Lemmas

/-! `fixOrder`: permutation, soundness, completeness. -/

namespace Verif.EdgeLoop
open Verif.Topology

variable {T : Topo}

/-- The first two visible edges of an array with at least three. -/
theorem two_vis {lc : List El} (h : 3 ≤ T.countVis lc) :
    ∃ q r, lc[T.getNext lc 0]? = some q ∧ lc[T.getNext lc (T.getNext lc 0 + 1)]? = some r ∧
      T.hid q = false ∧ T.hid r = false ∧
      T.getNext lc 0 < T.getNext lc (T.getNext lc 0 + 1) ∧
      vis T (lc.take (T.getNext lc (T.getNext lc 0 + 1))) = [q] ∧
      vis T lc = q :: vis T (lc.drop (T.getNext lc (T.getNext lc 0 + 1))) ∧
      vis T (lc.drop (T.getNext lc (T.getNext lc 0 + 1))) =
        r :: vis T (lc.drop (T.getNext lc (T.getNext lc 0 + 1) + 1)) := by
  rw [countVis_eq] at h
  change 3 ≤ (vis T lc).length at h
  match hv : vis T lc with
  | [] => rw [hv] at h; simp at h
  | [_] => rw [hv] at h; simp at h
  | q :: r :: rest =>
    obtain ⟨h1, h2, -, h4, h5⟩ := getNext_split (k := 0) (by simpa using hv)
    generalize T.getNext lc 0 = i at *
    obtain ⟨g1, g2, g3, g4, g5⟩ := getNext_split h4
    generalize T.getNext lc (i + 1) = i1 at *
    have e1 : vis T (lc.drop i1) = r :: rest := by
      rw [drop_cons g1, vis_cons_vis g2, g4]
    refine ⟨q, r, h1, g1, h2, g2, by omega, ?_, ?_, ?_⟩
    · rw [g5, take_vis h1, h5, vis_cons_vis h2]; rfl
    · rw [e1]
    · rw [e1, g4]

theorem fixOrder_perm {lc lc' : List El} {r : Bool} (h : fixOrder T lc = some (r, lc')) : lc'.Perm lc := by
  unfold fixOrder at h
  split at h
  · cases h; exact .refl _
  simp only at h
  split at h
  next q r' hq hr =>
    split at h
    next a b cd ha hcd =>
      split at h
      · exact fixLoop_perm _ _ _ _ _ _ h
      split at h
      · exact fixLoop_perm _ _ _ _ _ _ h
      split at h
      · cases h; exact .refl _
      next j hj =>
      split at h
      · cases h
      next lc1 hs =>
      obtain ⟨h1, e', ab, h2, -⟩ := search_some _ _ _ hj
      rw [List.getElem?_drop] at h2
      have hp := (swapAt_spec hr h2 (by omega) (by
        rw [show T.getNext lc (T.getNext lc 0 + 1) + 1 + (j - (T.getNext lc (T.getNext lc 0 + 1) + 1)) = j by
          omega]; exact hs)).1
      split at h
      · cases h
      split at h
      · exact (fixLoop_perm _ _ _ _ _ _ h).trans hp
      · exact (fixLoop_perm _ _ _ _ _ _ h).trans hp
    · cases h; exact .refl _
  · cases h

theorem fixOrder_total (T : Topo) (lc : List El) : ∃ r lc', fixOrder T lc = some (r, lc') := by
  unfold fixOrder
  split
  · exact ⟨_, _, rfl⟩
  next hc =>
  obtain ⟨q, r, h1, h2, -, -, hlt, -⟩ := two_vis (T := T) (lc := lc) (by omega)
  simp only
  generalize T.getNext lc 0 = i at *
  generalize T.getNext lc (i + 1) = i1 at *
  have hi1 : i1 < lc.length := (List.getElem?_eq_some_iff.1 h2).1
  rw [h1, h2]
  simp only
  cases ends T q with
  | none => exact ⟨_, _, rfl⟩
  | some p =>
    cases ends T r with
    | none => exact ⟨_, _, rfl⟩
    | some cd =>
      obtain ⟨a, b⟩ := p
      simp only
      split
      · exact fixLoop_total _ _ _ _ (by omega)
      split
      · exact fixLoop_total _ _ _ _ (by omega)
      cases hj : search T (fun p => touches a p || touches b p) (lc.drop (i1 + 1)) (i1 + 1) with
      | none => exact ⟨_, _, rfl⟩
      | some j =>
        obtain ⟨g1, e', ab, g2, -, g4, -⟩ := search_some _ _ _ hj
        rw [List.getElem?_drop, show i1 + 1 + (j - (i1 + 1)) = j by omega] at g2
        obtain ⟨lc1, hs⟩ := swapAt_isSome h2 g2
        obtain ⟨p1, -, p3, -⟩ := swapAt_spec h2 g2 (by omega) hs
        have hl := p1.length_eq
        simp only [hs, p3, Option.bind_some, g4]
        split
        · exact fixLoop_total _ _ _ _ (by omega)
        · exact fixLoop_total _ _ _ _ (by omega)

theorem fixOrder_sound {lc lc' : List El} (hlast : ∀ x, lc[lc.length - 1]? = some x → T.hid x = false)
    (h : fixOrder T lc = some (true, lc')) :
    ∃ a ns, Path T a (vis T lc') ns a ∧ 3 ≤ (vis T lc').length := by
  have hperm := fixOrder_perm h
  have hlen : (vis T lc').length = (vis T lc).length := (vis_perm hperm).length_eq
  have hcv : 3 ≤ T.countVis lc := by
    by_contra hc
    unfold fixOrder at h
    rw [if_pos (by omega)] at h
    cases h
  have h3 : 3 ≤ (vis T lc').length := by rw [hlen]; rw [countVis_eq] at hcv; exact hcv
  suffices ∃ a ns, Path T a (vis T lc') ns a by
    obtain ⟨a, ns, h'⟩ := this; exact ⟨a, ns, h', h3⟩
  obtain ⟨q, r, h1, h2, hq, hr, hlt, ht, -, -⟩ := two_vis hcv
  unfold fixOrder at h
  rw [if_neg (by omega)] at h
  simp only at h
  generalize T.getNext lc 0 = i at *
  generalize T.getNext lc (i + 1) = i1 at *
  have hi1 : i1 < lc.length := (List.getElem?_eq_some_iff.1 h2).1
  rw [h1, h2] at h
  simp only at h
  have hrun : ∀ (first last : El) (lc1 : List El), lc1.length = lc.length → Joins T q first last →
      lc1.take i1 = lc.take i1 → (∀ x, lc1[lc1.length - 1]? = some x → T.hid x = false) →
      fixLoop T first (lc1.length - 1 - i1) i1 last lc1 = some (true, lc') →
      ∃ a ns, Path T a (vis T lc') ns a := by
    intro first last lc1 g1 g2 g3 g4 g5
    obtain ⟨ns', hp⟩ := fixLoop_sound _ _ _ _ _ [first] (by omega)
      (by rw [show i1 + (lc1.length - 1 - i1) = lc1.length - 1 by omega]; exact g4)
      (by rw [g3, ht]; exact .cons g2 (.nil _)) g5
    exact ⟨_, _, hp⟩
  split at h
  next a b cd ha hcd =>
    split at h
    · exact hrun b a lc rfl (ends_joins ha).symm rfl hlast h
    split at h
    · exact hrun a b lc rfl (ends_joins ha) rfl hlast h
    split at h
    · cases h
    next j hj =>
    obtain ⟨g1, e', ab, g2, g3, g4, -⟩ := search_some _ _ _ hj
    rw [List.getElem?_drop, show i1 + 1 + (j - (i1 + 1)) = j by omega] at g2
    split at h
    · cases h
    next lc1 hs =>
    obtain ⟨p1, p2, p3, -⟩ := swapAt_spec h2 g2 (by omega) hs
    have hjl : j < lc.length := (List.getElem?_eq_some_iff.1 g2).1
    have hl1 : ∀ x, lc1[lc1.length - 1]? = some x → T.hid x = false := by
      rw [p1.length_eq]
      exact swap_last h2 g2 (by omega) hs (by omega) hr hlast
    split at h
    · cases h
    split at h
    · exact hrun b a lc1 p1.length_eq (ends_joins ha).symm p2 hl1 h
    · exact hrun a b lc1 p1.length_eq (ends_joins ha) p2 hl1 h
  · cases h

theorem fixOrder_complete {lc es ns : List El} {x : El}
    (hlast : ∀ x, lc[lc.length - 1]? = some x → T.hid x = false)
    (hp : Path T x es ns x) (h3 : 3 ≤ es.length) (hn : ns.Nodup) (hpm : es.Perm (vis T lc)) :
    ∃ lc', fixOrder T lc = some (true, lc') ∧
      ∃ a ns', Path T a (vis T lc') ns' a ∧ ns'.Nodup := by
  have hcv : 3 ≤ T.countVis lc := by
    rw [countVis_eq]; change 3 ≤ (vis T lc).length; rw [← hpm.length_eq]; exact h3
  obtain ⟨q, r, h1, h2, hq, hr, hlt, ht, hv, hd⟩ := two_vis hcv
  unfold fixOrder
  rw [if_neg (by omega)]
  simp only
  generalize T.getNext lc 0 = i at *
  generalize T.getNext lc (i + 1) = i1 at *
  have hi1 : i1 < lc.length := (List.getElem?_eq_some_iff.1 h2).1
  rw [h1, h2]
  simp only
  have hends : ∀ y ∈ vis T lc, ∃ ab, ends T y = some ab := by
    intro y hy
    obtain ⟨u, v, hj, -⟩ := hp.mem (hpm.mem_iff.2 hy)
    rcases hj.ends with h | h <;> exact ⟨_, h⟩
  have hqv : q ∈ vis T lc := by rw [hv]; simp
  have hrv : r ∈ vis T lc := by rw [hv, hd]; simp
  obtain ⟨⟨a, b⟩, hab⟩ := hends q hqv
  obtain ⟨cd, hcd⟩ := hends r hrv
  rw [hab, hcd]
  simp only
  have hrun : ∀ (first last : El) (lc1 : List El), lc1.length = lc.length → Joins T q first last →
      (vis T (lc1.drop i1)).Perm (vis T (lc.drop i1)) →
      (∀ x, lc1[lc1.length - 1]? = some x → T.hid x = false) →
      lc1.take i1 = lc.take i1 →
      ∃ lc', fixLoop T first (lc1.length - 1 - i1) i1 last lc1 = some (true, lc') ∧
        ∃ a ns', Path T a (vis T lc') ns' a ∧ ns'.Nodup := by
    intro first last lc1 g1 g2 g3 g4 g5
    obtain ⟨rest, ns2, c1, c2, c3⟩ := cycle_at hp hn (hpm.mem_iff.2 hqv) g2
    have hr : rest.Perm (vis T (lc1.drop i1)) := by
      have := c3.trans hpm
      rw [hv] at this
      exact ((List.perm_cons _).1 this).trans g3.symm
    obtain ⟨lc', e1, ns', e2, e3⟩ := fixLoop_complete (lc1.length - 1 - i1) i1 last lc1 [first] rest ns2 (by omega)
      (by rw [show i1 + (lc1.length - 1 - i1) = lc1.length - 1 by omega]; exact g4) c1 (by simp) c2 hr
      (by rw [g5, ht]; exact .cons g2 (.nil _))
    exact ⟨lc', e1, first, ns', e2, e3⟩
  split
  · exact hrun b a lc rfl (ends_joins hab).symm (.refl _) hlast rfl
  next hna =>
  split
  · exact hrun a b lc rfl (ends_joins hab) (.refl _) hlast rfl
  next hnb =>
  -- the edge that follows q in the loop is found
  obtain ⟨rest, ns2, c1, c2, c3⟩ := cycle_at hp hn (hpm.mem_iff.2 hqv) (ends_joins hab)
  have c4 : rest.Perm (r :: vis T (lc.drop (i1 + 1))) := by
    have := c3.trans hpm
    rw [hv, hd] at this
    exact (List.perm_cons _).1 this
  obtain ⟨j, hj⟩ : ∃ j, search T (fun p => touches a p || touches b p) (lc.drop (i1 + 1)) (i1 + 1) = some j := by
    refine search_isSome _ _ (fun y hy => hends y (by rw [hv, hd]; simp [hy])) ?_
    cases c1 with
    | nil => exact absurd c4.length_eq (by simp)
    | @cons e' _ m _ rest' ns2' hj hp' =>
      obtain ⟨p', hp'e⟩ : ∃ p', ends T e' = some p' := by
        rcases hj.ends with h | h <;> exact ⟨_, h⟩
      have ht' : touches b p' = true := (hj.touch hp'e).2 (Or.inl rfl)
      have hmem := c4.mem_iff.1 (by simp : e' ∈ e' :: rest')
      rcases List.mem_cons.1 hmem with rfl | hmem
      · rw [hp'e] at hcd; cases hcd; exact absurd ht' hnb
      · exact ⟨e', hmem, p', hp'e, by simp [ht']⟩
  rw [hj]
  simp only
  obtain ⟨g1, e', ab, g2, g3, g4, g5⟩ := search_some _ _ _ hj
  rw [List.getElem?_drop, show i1 + 1 + (j - (i1 + 1)) = j by omega] at g2
  obtain ⟨lc1, hs⟩ := swapAt_isSome h2 g2
  obtain ⟨p1, p2, p3, -⟩ := swapAt_spec h2 g2 (by omega) hs
  have hjl : j < lc.length := (List.getElem?_eq_some_iff.1 g2).1
  simp only [hs, p3, Option.bind_some, g4]
  have hl1 : ∀ x, lc1[lc1.length - 1]? = some x → T.hid x = false := by
    rw [p1.length_eq]
    exact swap_last h2 g2 (by omega) hs (by omega) hr hlast
  have hdp : (vis T (lc1.drop i1)).Perm (vis T (lc.drop i1)) := by
    apply vis_perm
    have := p1
    rw [← List.take_append_drop i1 lc1, ← List.take_append_drop i1 lc, p2] at this
    exact (List.perm_append_left_iff _).1 this
  split
  · exact hrun b a lc1 p1.length_eq (ends_joins hab).symm hdp hl1 p2
  · exact hrun a b lc1 p1.length_eq (ends_joins hab) hdp hl1 p2

end Verif.EdgeLoop
