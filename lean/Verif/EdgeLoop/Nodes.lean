import Verif.EdgeLoop.Order

/-! `getNodes`, `getNodes(mask)`, `CheckEdgeOrder`. -/

namespace Verif.EdgeLoop
open Verif.Topology

variable {T : Topo}

theorem nodeLoop_spec : ∀ (es : List El) (acc : List El) (back m : El) (ns : List El),
    Path T back (vis T es) ns m → nodeLoop T acc back es = some (acc ++ ns ++ [m]) := by
  intro es
  induction es with
  | nil =>
    intro acc back m ns h
    cases h
    simp [nodeLoop]
  | cons e es ih =>
    intro acc back m ns h
    unfold nodeLoop
    cases hid : T.hid e with
    | true =>
      rw [vis_cons_hid hid] at h
      simpa using ih acc back m ns h
    | false =>
      rw [vis_cons_vis hid] at h
      cases h with
      | @cons _ _ m1 _ _ ns' hj hp =>
      obtain ⟨⟨c, d⟩, hcd⟩ : ∃ p, ends T e = some p := by
        rcases hj.ends with h | h <;> exact ⟨_, h⟩
      simp only [hcd, Bool.false_eq_true, if_false]
      rw [other_eq hj hcd, ih _ _ _ _ hp]
      simp

theorem ends2_of_ends {e : El} {p : El × El} (h : ends T e = some p) : ends2 T e = some p := by
  unfold ends at h
  unfold ends2
  split at h
  · next a b h' => rw [h']; exact h
  · cases h

theorem maskLoop_spec (p : El → Bool) : ∀ (es : List El) (acc : List El) (last m : El) (ns : List El),
    Path T last (vis T es) ns m →
    maskLoop T p acc last es = some (acc ++ ((ns ++ [m]).tail).filter p) := by
  intro es
  induction es with
  | nil =>
    intro acc back m ns h
    cases h
    simp [maskLoop]
  | cons e es ih =>
    intro acc back m ns h
    unfold maskLoop
    cases hid : T.hid e with
    | true =>
      rw [vis_cons_hid hid] at h
      simpa using ih acc back m ns h
    | false =>
      rw [vis_cons_vis hid] at h
      cases h with
      | @cons _ _ m1 _ _ ns' hj hp =>
      obtain ⟨⟨c, d⟩, hcd⟩ : ∃ p, ends T e = some p := by
        rcases hj.ends with h | h <;> exact ⟨_, h⟩
      simp only [ends2_of_ends hcd, Bool.false_eq_true, if_false]
      rw [other_eq hj hcd, ih _ _ _ _ hp]
      have : (ns' ++ [m]) = m1 :: (ns' ++ [m]).tail := by
        have h0 := hp.idx.1
        cases hl : ns' ++ [m] with
        | nil => simp at hl
        | cons y ys => rw [hl] at h0; simp at h0; rw [h0]; rfl
      rw [List.cons_append, List.tail_cons]
      conv => rhs; rw [this]
      by_cases hpm : p m1 = true <;> simp [hpm]

theorem chkLoop_iff : ∀ (es : List El) (last : El),
    chkLoop T last es = true ↔ ∃ ns m, Path T last (vis T es) ns m := by
  intro es
  induction es with
  | nil => intro last; simp only [chkLoop, true_iff]; exact ⟨[], last, .nil _⟩
  | cons e es ih =>
    intro last
    unfold chkLoop
    cases hid : T.hid e with
    | true => rw [vis_cons_hid hid]; simpa using ih last
    | false =>
      rw [vis_cons_vis hid]
      simp only [Bool.false_eq_true, if_false]
      constructor
      · intro h
        split at h
        · cases h
        next c d hcd =>
        split at h
        next hc =>
          subst hc
          obtain ⟨ns, m, hp⟩ := (ih _).1 h
          exact ⟨_, m, .cons (ends_joins hcd) hp⟩
        split at h
        next hd =>
          subst hd
          obtain ⟨ns, m, hp⟩ := (ih _).1 h
          exact ⟨_, m, .cons (ends_joins hcd).symm hp⟩
        · cases h
      · rintro ⟨ns, m, hp⟩
        cases hp with
        | @cons _ _ m1 _ _ ns' hj hp =>
        have hc := (ih m1).2 ⟨_, _, hp⟩
        obtain ⟨⟨c, d⟩, hcd⟩ : ∃ p, ends T e = some p := by
          rcases hj.ends with h | h <;> exact ⟨_, h⟩
        have ho := other_eq hj hcd
        have ht := (hj.touch hcd (x := last)).2 (Or.inl rfl)
        simp only [touches, Bool.or_eq_true, decide_eq_true_eq] at ht
        rw [hcd]
        simp only
        by_cases h1 : last = c
        · rw [if_pos h1] at ho ⊢; rw [ho]; exact hc
        · rw [if_neg h1] at ho ⊢
          rw [if_pos (ht.resolve_left h1), ho]; exact hc

theorem lastVis_spec {lc : List El} : ∀ (k : Nat), k < lc.length →
    (∃ j ≤ k, ∃ e, lc[j]? = some e ∧ T.hid e = false) →
    lastVis T lc k ≤ k ∧ (∃ e, lc[lastVis T lc k]? = some e ∧ T.hid e = false) ∧
      ∀ j, lastVis T lc k < j → j ≤ k → ∀ e, lc[j]? = some e → T.hid e = true := by
  intro k
  induction k with
  | zero =>
    rintro _ ⟨j, hj, e, he, hv⟩
    obtain rfl : j = 0 := by omega
    exact ⟨Nat.le_refl _, ⟨e, he, hv⟩, fun j h1 h2 => by simp only [lastVis] at h1; omega⟩
  | succ k ih =>
    rintro hk ⟨j, hj, e, he, hv⟩
    have hx : lc[k + 1]? = some lc[k + 1] := List.getElem?_eq_getElem hk
    unfold lastVis
    rw [hx]
    simp only
    cases hid : T.hid lc[k + 1] with
    | false =>
      simp only [Bool.false_eq_true, if_false]
      exact ⟨Nat.le_refl _, ⟨_, hx, hid⟩, fun j h1 h2 => by omega⟩
    | true =>
      simp only [if_true]
      have hj' : j ≤ k := by
        rcases Nat.lt_or_ge k j with h | h
        · obtain rfl : j = k + 1 := by omega
          rw [hx] at he; cases he; rw [hid] at hv; cases hv
        · exact h
      obtain ⟨h1, h2, h3⟩ := ih (by omega) ⟨j, hj', e, he, hv⟩
      refine ⟨by omega, h2, fun j h4 h5 x hx' => ?_⟩
      by_cases hjk : j = k + 1
      · subst hjk; rw [hx] at hx'; cases hx'; exact hid
      · exact h3 j h4 (by omega) x hx'

theorem vis_nil {l : List El} (h : ∀ (j : Nat) (e : El), l[j]? = some e → T.hid e = true) : vis T l = [] := by
  unfold vis
  rw [List.filter_eq_nil_iff]
  intro a ha
  obtain ⟨i, hi⟩ := List.mem_iff_getElem?.1 ha
  simp [h i a hi]

/-- The visible edges from position `i` on without the last one, when `k` is the position of the last
visible edge. -/
theorem take_last {lc : List El} {i k : Nat} {z : El} (hik : i ≤ k) (hz : lc[k]? = some z)
    (hv : T.hid z = false) (hh : ∀ j, k < j → ∀ e, lc[j]? = some e → T.hid e = true) :
    vis T (lc.drop i) = vis T ((lc.take k).drop i) ++ [z] := by
  have hk : k < lc.length := (List.getElem?_eq_some_iff.1 hz).1
  have h1 : lc.drop i = (lc.take k).drop i ++ lc.drop k := by
    conv => lhs; rw [← List.take_append_drop k lc]
    rw [List.drop_append_of_le_length (by rw [List.length_take]; omega)]
  rw [h1, vis_append, drop_cons hz, vis_cons_vis hv]
  rw [vis_nil (l := lc.drop (k + 1)) (fun j e he => hh (k + 1 + j) (by omega) e (by
    rw [List.getElem?_drop] at he; exact he))]

/-- The first edge of a closed path of distinct nodes, and the node shared with the second. -/
theorem start_eq {x m q r a b : El} {V ns' : List El} {cd : El × El} (hj : Joins T q x m)
    (hp : Path T m (r :: V) ns' x) (hV : V ≠ []) (hn : (x :: ns').Nodup)
    (hab : ends T q = some (a, b)) (hcd : ends T r = some cd) :
    if touches a cd = true then a = m ∧ b = x else a = x ∧ b = m := by
  cases hp with
  | @cons _ _ w _ _ ns2 hjr hp2 =>
  obtain ⟨hx, -⟩ := List.nodup_cons.1 hn
  have hxm : x ≠ m := by rintro rfl; simp at hx
  have hxw : x ≠ w := by
    rintro rfl
    cases hp2 with
    | nil => exact hV rfl
    | cons => simp at hx
  have ht : ∀ y, touches y cd = true ↔ y = m ∨ y = w := fun y => hjr.touch hcd
  rcases hj.ends with h | h <;> rw [h] at hab <;> cases hab
  · rw [if_neg (by rw [ht]; tauto)]; exact ⟨rfl, rfl⟩
  · rw [if_pos ((ht _).2 (Or.inl rfl))]; exact ⟨rfl, rfl⟩

/-- What a closed path of distinct nodes through the visible edges gives for the first two edges. -/
theorem loop_start {lc ns : List El} (h : Loop T (vis T lc) ns) (hn : ns.Nodup) :
    ∃ q r x m ns' a b cd, lc[T.getNext lc 0]? = some q ∧
      lc[T.getNext lc (T.getNext lc 0 + 1)]? = some r ∧ T.hid q = false ∧ T.hid r = false ∧
      ns = x :: ns' ∧ ends T q = some (a, b) ∧ ends T r = some cd ∧
      (if touches a cd = true then a = m ∧ b = x else a = x ∧ b = m) ∧
      vis T lc = q :: vis T (lc.drop (T.getNext lc (T.getNext lc 0 + 1))) ∧
      Path T m (vis T (lc.drop (T.getNext lc (T.getNext lc 0 + 1)))) ns' x ∧
      T.getNext lc 0 < T.getNext lc (T.getNext lc 0 + 1) ∧
      vis T (lc.take (T.getNext lc (T.getNext lc 0 + 1))) = [q] := by
  have h3 := h.three
  have hcv : 3 ≤ T.countVis lc := by rw [countVis_eq]; exact h3
  obtain ⟨q, r, h1, h2, hq, hr, hlt, ht, hv, hd⟩ := two_vis hcv
  generalize T.getNext lc 0 = i at *
  generalize T.getNext lc (i + 1) = i1 at *
  obtain ⟨x, hp⟩ := h.path
  have hp' := hp
  rw [hv] at hp'
  rw [hv, hd] at hp h3
  cases hp with
  | @cons _ _ m _ _ ns' hj hp =>
  have hV : vis T (lc.drop (i1 + 1)) ≠ [] := by
    intro h0; rw [h0] at h3; simp at h3
  obtain ⟨⟨a, b⟩, hab⟩ : ∃ p, ends T q = some p := by
    rcases hj.ends with h | h <;> exact ⟨_, h⟩
  obtain ⟨cd, hcd⟩ : ∃ p, ends T r = some p := by
    cases hp with
    | cons hjr _ => rcases hjr.ends with h | h <;> exact ⟨_, h⟩
  refine ⟨q, r, x, m, ns', a, b, cd, h1, h2, hq, hr, rfl, hab, hcd,
    start_eq hj hp hV hn hab hcd, hv, by rw [hd]; exact hp, hlt, ht⟩

theorem path_snoc {m x z : El} {es ns : List El} (h : Path T m (es ++ [z]) ns x) :
    ∃ n1 u, ns = n1 ++ [u] ∧ Path T m es n1 u := by
  obtain ⟨u, n1, n2, rfl, h1, h2⟩ := h.split
  cases h2 with
  | cons _ h2 => cases h2; exact ⟨n1, u, rfl, h1⟩

theorem getNodes_spec {f : El} {ns : List El} (h : Loop T (vis T (T.low f)) ns) (hn : ns.Nodup) :
    getNodes T f = some ns := by
  have h3 : 3 ≤ (T.low f).length := by
    have := h.three
    have hl : (vis T (T.low f)).length ≤ (T.low f).length := List.length_filter_le _ _
    omega
  obtain ⟨q, r, x, m, ns', a, b, cd, h1, h2, hq, hr, rfl, hab, hcd, hif, hv, hp, hlt, -⟩ := loop_start h hn
  unfold getNodes
  generalize T.low f = lc at *
  rw [if_neg (by omega)]
  simp only
  generalize T.getNext lc 0 = i at *
  generalize T.getNext lc (i + 1) = i1 at *
  have hi1 : i1 < lc.length := (List.getElem?_eq_some_iff.1 h2).1
  rw [h1, h2]
  simp only [hab, hcd]
  obtain ⟨k1, ⟨z, k2, k3⟩, k4⟩ := lastVis_spec (T := T) (lc := lc) (lc.length - 1) (by omega)
    ⟨i1, by omega, r, h2, hr⟩
  have hik : i1 ≤ lastVis T lc (lc.length - 1) := by
    by_contra hc
    have := k4 i1 (by omega) (by omega) r h2
    rw [hr] at this; cases this
  generalize lastVis T lc (lc.length - 1) = k at *
  have hsp := take_last hik k2 k3 (fun j h1 e he => k4 j h1 (by
    have := (List.getElem?_eq_some_iff.1 he).1; omega) e he)
  rw [hsp] at hp
  obtain ⟨n1, u, rfl, hp1⟩ := path_snoc hp
  by_cases ht : touches a cd = true
  · rw [if_pos ht] at hif
    obtain ⟨rfl, rfl⟩ := hif
    rw [if_pos ht, nodeLoop_spec _ _ _ _ _ hp1]
    simp
  · rw [if_neg ht] at hif
    obtain ⟨rfl, rfl⟩ := hif
    rw [if_neg ht, nodeLoop_spec _ _ _ _ _ hp1]
    simp

theorem getNodesMask_spec {f : El} {ns : List El} {priv : Bool} {p : El → Bool}
    (h : Loop T (vis T (T.low f)) ns) (hn : ns.Nodup)
    (hfirst : ∀ e, (T.low f)[0]? = some e → T.hid e = false)
    (hlast : priv = true → ∀ e, (T.low f)[(T.low f).length - 1]? = some e → T.hid e = false) :
    getNodesMask T priv p f = some (ns.filter p) := by
  obtain ⟨q, r, x, m, ns', a, b, cd, h1, h2, hq, hr, rfl, hab, hcd, hif, hv, hp, hlt, -⟩ := loop_start h hn
  unfold getNodesMask
  generalize T.low f = lc at *
  have h0 : vis T lc = q :: vis T (lc.drop 1) := by
    cases lc with
    | nil => cases hv
    | cons y ys =>
      have hy := hfirst y rfl
      rw [vis_cons_vis hy] at hv ⊢
      rw [(List.cons.inj hv).1]; rfl
  have hd1 : vis T (lc.drop (T.getNext lc (T.getNext lc 0 + 1))) = vis T (lc.drop 1) := by
    rw [h0] at hv; exact (List.cons.inj hv).2.symm
  rw [hd1] at hp
  simp only
  generalize T.getNext lc 0 = i at *
  generalize T.getNext lc (i + 1) = i1 at *
  have hi1 : i1 < lc.length := (List.getElem?_eq_some_iff.1 h2).1
  rw [h1, h2]
  simp only [ends2_of_ends hab, ends2_of_ends hcd]
  obtain ⟨k, hk, hk1, z, k2, k3, k4⟩ : ∃ k, (if priv then lc.length - 1 else lastVis T lc (lc.length - 1)) = k ∧
      1 ≤ k ∧ ∃ z, lc[k]? = some z ∧ T.hid z = false ∧
      ∀ j, k < j → ∀ e, lc[j]? = some e → T.hid e = true := by
    cases priv with
    | true =>
      refine ⟨lc.length - 1, rfl, by omega, lc[lc.length - 1], List.getElem?_eq_getElem (by omega),
        hlast rfl _ (List.getElem?_eq_getElem (by omega)), fun j hj e he => ?_⟩
      have := (List.getElem?_eq_some_iff.1 he).1
      omega
    | false =>
      obtain ⟨k1, ⟨z, k2, k3⟩, k4⟩ := lastVis_spec (T := T) (lc := lc) (lc.length - 1) (by omega)
        ⟨i1, by omega, r, h2, hr⟩
      refine ⟨lastVis T lc (lc.length - 1), rfl, ?_, z, k2, k3, fun j hj e he => k4 j hj (by
        have := (List.getElem?_eq_some_iff.1 he).1; omega) e he⟩
      by_contra hc
      have := k4 i1 (by omega) (by omega) r h2
      rw [hr] at this; cases this
  rw [hk]
  have hsp := take_last hk1 k2 k3 k4
  rw [hsp] at hp
  obtain ⟨n1, u, rfl, hp1⟩ := path_snoc hp
  have hcons : n1 ++ [u] = m :: (n1 ++ [u]).tail := by
    have h0 := hp1.idx.1
    cases hl : n1 ++ [u] with
    | nil => simp at hl
    | cons y ys => rw [hl] at h0; simp at h0; rw [h0]; rfl
  have hres : (x :: (n1 ++ [u])).filter p = [x, m].filter p ++ ((n1 ++ [u]).tail).filter p := by
    conv => lhs; rw [hcons]
    rw [← List.filter_append]; rfl
  rw [hres]
  by_cases ht : touches a cd = true
  · rw [if_pos ht] at hif
    obtain ⟨rfl, rfl⟩ := hif
    rw [if_pos ht, maskLoop_spec _ _ _ _ _ _ hp1, ← List.filter_reverse]
    rfl
  · rw [if_neg ht] at hif
    obtain ⟨rfl, rfl⟩ := hif
    rw [if_neg ht, maskLoop_spec _ _ _ _ _ _ hp1]

theorem check_of_loop {f : El} {ns : List El} (h : Loop T (vis T (T.low f)) ns) (hn : ns.Nodup)
    (hfirst : ∀ e, (T.low f)[0]? = some e → T.hid e = false) : checkEdgeOrder T f = some true := by
  have hcv : 3 ≤ T.countVis (T.low f) := by rw [countVis_eq]; exact h.three
  obtain ⟨q, r, x, m, ns', a, b, cd, h1, h2, hq, hr, rfl, hab, hcd, hif, hv, hp, hlt, -⟩ := loop_start h hn
  unfold checkEdgeOrder
  generalize T.low f = lc at *
  have h0 : vis T lc = q :: vis T (lc.drop 1) := by
    cases lc with
    | nil => cases hv
    | cons y ys =>
      have hy := hfirst y rfl
      rw [vis_cons_vis hy] at hv ⊢
      rw [(List.cons.inj hv).1]; rfl
  have hd1 : vis T (lc.drop (T.getNext lc (T.getNext lc 0 + 1))) = vis T (lc.drop 1) := by
    rw [h0] at hv; exact (List.cons.inj hv).2.symm
  rw [hd1] at hp
  rw [if_neg (by omega)]
  simp only
  generalize T.getNext lc 0 = i at *
  generalize T.getNext lc (i + 1) = i1 at *
  have hi1 : i1 < lc.length := (List.getElem?_eq_some_iff.1 h2).1
  rw [h1, h2]
  simp only [ends2_of_ends hab, ends2_of_ends hcd]
  have hne : lc.drop 1 ≠ [] := by
    intro h0; have := congrArg List.length h0; simp at this; omega
  have hloop : chkLoop T m (lc.drop 1).dropLast = true := by
    rw [chkLoop_iff]
    rw [← List.dropLast_concat_getLast hne, vis_append] at hp
    obtain ⟨u, n1, -, -, hp1, -⟩ := hp.split
    exact ⟨_, _, hp1⟩
  by_cases ht : touches a cd = true
  · rw [if_pos ht] at hif
    obtain ⟨rfl, rfl⟩ := hif
    rw [if_pos ht, hloop]
  · rw [if_neg ht] at hif
    obtain ⟨rfl, rfl⟩ := hif
    have hb : touches b cd = true := by
      have h3 := h.three
      cases hd : vis T (lc.drop 1) with
      | nil => rw [h0, hd] at h3; simp at h3
      | cons y ys =>
        have hyr : y = r := by
          have := hd1
          rw [drop_cons h2, vis_cons_vis hr, hd] at this
          exact (List.cons.inj this).1.symm
        rw [hd] at hp
        cases hp with
        | cons hj _ => rw [hyr] at hj; exact (hj.touch hcd).2 (Or.inl rfl)
    rw [if_neg ht, if_pos hb, hloop]

theorem check_sound {f : El} (hfirst : ∀ e, (T.low f)[0]? = some e → T.hid e = false)
    (hlast : ∀ e, (T.low f)[(T.low f).length - 1]? = some e → T.hid e = false)
    (hends : ∀ e ∈ T.low f, ∀ p, ends2 T e = some p → ends T e = some p)
    (h : checkEdgeOrder T f = some true) :
    3 ≤ (vis T (T.low f)).length ∧ ∃ a ns b, Path T a (vis T (T.low f)).dropLast ns b := by
  unfold checkEdgeOrder at h
  generalize T.low f = lc at *
  by_cases hc : T.countVis lc < 3
  · rw [if_pos hc] at h; cases h
  rw [if_neg hc] at h
  have hcv : 3 ≤ T.countVis lc := by omega
  refine ⟨by rw [countVis_eq] at hcv; exact hcv, ?_⟩
  obtain ⟨q, r, h1, h2, hq, hr, hlt, ht, hv, hd⟩ := two_vis hcv
  simp only at h
  generalize T.getNext lc 0 = i at *
  generalize T.getNext lc (i + 1) = i1 at *
  have hi1 : i1 < lc.length := (List.getElem?_eq_some_iff.1 h2).1
  rw [h1, h2] at h
  simp only at h
  have hlc : vis T lc = q :: vis T (lc.drop 1) := by
    cases lc with
    | nil => cases hv
    | cons y ys =>
      have hy := hfirst y rfl
      rw [vis_cons_vis hy] at hv ⊢
      rw [(List.cons.inj hv).1]; rfl
  have hne : lc.drop 1 ≠ [] := by
    intro h0; have := congrArg List.length h0; simp at this; omega
  have hz : T.hid ((lc.drop 1).getLast hne) = false := by
    apply hlast
    rw [List.getLast_drop, List.getLast_eq_getElem, List.getElem?_eq_getElem]
  have hdl : (vis T lc).dropLast = q :: vis T (lc.drop 1).dropLast := by
    rw [hlc, ← List.dropLast_concat_getLast hne, vis_append, vis_cons_vis hz]
    change (q :: (vis T (lc.drop 1).dropLast ++ [_])).dropLast = _
    rw [← List.cons_append, List.dropLast_concat]
    simp
  rw [hdl]
  split at h
  next a b cd ha hcd =>
    have hq' : ends T q = some (a, b) := hends q (List.mem_of_getElem? h1) _ ha
    split at h
    · obtain ⟨ns, u, hp⟩ := (chkLoop_iff _ _).1 (Option.some.inj h)
      exact ⟨b, _, u, .cons (ends_joins hq').symm hp⟩
    split at h
    · obtain ⟨ns, u, hp⟩ := (chkLoop_iff _ _).1 (Option.some.inj h)
      exact ⟨a, _, u, .cons (ends_joins hq') hp⟩
    · cases h
  · cases h

end Verif.EdgeLoop
