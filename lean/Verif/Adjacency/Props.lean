import Verif.Adjacency.Total
import Verif.EdgeLoop.Props

/-!
# C94: connections can be removed and restored

`RemoveUpperAdjacencies`, `RemoveLowerAdjacencies` save memory; `RestoreUpperAdjacencies` and
`RestoreLowerAdjacencies` compute the connections anew from those that are kept.
-/

namespace Verif.Adjacency
open Verif.Topology Verif.EdgeLoop

theorem after_keeps {cn : Bool} {T : Topo} (r : Reach cn T) {A : Adj} (h : After T A) : Keeps T A := by
  have I := (reach_inv r).1
  induction h with
  | start => exact keeps_full I
  | @call A A' c _ e ih =>
    cases c with
    | removeUpper m => exact keeps_removeUpper ih e
    | removeLower m => exact keeps_removeLower ih e
    | restoreUpper o f m => exact keeps_restoreUpper I ih e
    | restoreLower m => exact keeps_restoreLower I ih e

theorem Keeps.same {T : Topo} {A : Adj} (K : Keeps T A) : Same T A :=
  ⟨K.alive, K.hide, K.hidden, K.low, K.high⟩

/-- After any sequence of removals and restorations, with any masks, every connection that is kept is the
one of the mesh at the start, up to order, and of the two directions between nodes and edges, edges and faces, faces and
cells one is always kept. -/
theorem C94_history_partial {cn : Bool} {T : Topo} (r : Reach cn T) {A : Adj} (h : After T A) :
    Same T A ∧ ∀ t, t < 3 → A.up t = true ∨ A.lo (t + 1) = true :=
  have K := after_keeps r h
  ⟨K.same, K.one⟩

/-- `RemoveUpperAdjacencies` is refused exactly if there is something to remove and the opposite direction is not kept
for all types of the mask; otherwise it removes the upper connections of the types in the mask and nothing else. -/
theorem C94_removeUpper (A : Adj) (m : Nat → Bool) :
    (A.removeUpper m = none ↔ (∃ t, t ≤ 3 ∧ A.up t = true ∧ m t = true) ∧
      ∃ t, t ≤ 3 ∧ m t = true ∧ ¬ (t < 3 ∧ A.lo (t + 1) = true)) ∧
    ∀ A', A.removeUpper m = some A' → A'.lo = A.lo ∧ A'.T.low = A.T.low ∧ A'.T.alive = A.T.alive ∧
      (∀ t, t < 3 → (A'.up t = true ↔ A.up t = true ∧ m t = false)) ∧
      (∀ t, 3 ≤ t → A'.up t = A.up t) ∧
      (∀ x, x.ty < 3 → m x.ty = false → A'.T.high x = A.T.high x) := by
  have hany : (anyTy fun t => A.up t && m t) = true ↔ ∃ t, t ≤ 3 ∧ A.up t = true ∧ m t = true := by
    constructor
    · intro h
      by_contra hn
      have : (anyTy fun t => A.up t && m t) = false := by
        simp only [anyTy, Bool.or_eq_false_iff, Bool.and_eq_false_iff]
        have key : ∀ t, t ≤ 3 → A.up t = false ∨ m t = false := fun t ht => by
          cases h1 : A.up t <;> cases h2 : m t <;> simp
          exact hn ⟨t, ht, h1, h2⟩
        exact ⟨⟨⟨key 0 (by omega), key 1 (by omega)⟩, key 2 (by omega)⟩, key 3 (by omega)⟩
      rw [this] at h; cases h
    · rintro ⟨t, ht, h1, h2⟩
      cases h : anyTy fun t => A.up t && m t with
      | true => rfl
      | false => have := anyTy_false h ht; rw [h1, h2] at this; cases this
  have hall : ¬ (allTy fun t => !m t || (decide (t < 3) && A.lo (t + 1))) = true ↔
      ∃ t, t ≤ 3 ∧ m t = true ∧ ¬ (t < 3 ∧ A.lo (t + 1) = true) := by
    rw [allTy_iff]
    simp only [not_forall, exists_prop]
    constructor
    · rintro ⟨t, ht, h⟩
      refine ⟨t, ht, ?_⟩
      simpa using h
    · rintro ⟨t, ht, h⟩
      refine ⟨t, ht, ?_⟩
      simpa using h
  rw [← hany, ← hall, Adj.removeUpper]
  constructor
  · split
    · rename_i h1
      split
      · rename_i h2; simp [h2]
      · rename_i h2; simp [h1, h2]
    · rename_i h1; simp [h1]
  · intro A' e
    split at e
    · split at e
      · cases e
        refine ⟨rfl, rfl, rfl, fun t ht => by simp [ht], fun t ht => by simp [Nat.not_lt.2 ht], fun x hx hm => ?_⟩
        change (if _ then _ else _) = _
        rw [if_neg]
        rintro ⟨_, h⟩; rw [hm] at h; cases h
      · cases e
    · rename_i h1
      cases e
      refine ⟨rfl, rfl, rfl, fun t ht => ⟨fun h => ⟨h, ?_⟩, fun h => h.1⟩, fun _ _ => rfl, fun _ _ _ => rfl⟩
      cases hm : m t with
      | false => rfl
      | true => exact absurd (hany.2 ⟨t, by omega, h, hm⟩) h1

/-- The same for `RemoveLowerAdjacencies`. -/
theorem C94_removeLower (A : Adj) (m : Nat → Bool) :
    (A.removeLower m = none ↔ (∃ t, t ≤ 3 ∧ A.lo t = true ∧ m t = true) ∧
      ∃ t, t ≤ 3 ∧ m t = true ∧ ¬ (0 < t ∧ A.up (t - 1) = true)) ∧
    ∀ A', A.removeLower m = some A' → A'.up = A.up ∧ A'.T.high = A.T.high ∧ A'.T.alive = A.T.alive ∧
      (∀ t, 0 < t → t ≤ 3 → (A'.lo t = true ↔ A.lo t = true ∧ m t = false)) ∧ A'.lo 0 = A.lo 0 ∧
      (∀ x, 0 < x.ty → m x.ty = false → A'.T.low x = A.T.low x) := by
  have hany : (anyTy fun t => A.lo t && m t) = true ↔ ∃ t, t ≤ 3 ∧ A.lo t = true ∧ m t = true := by
    constructor
    · intro h
      by_contra hn
      have : (anyTy fun t => A.lo t && m t) = false := by
        simp only [anyTy, Bool.or_eq_false_iff, Bool.and_eq_false_iff]
        have key : ∀ t, t ≤ 3 → A.lo t = false ∨ m t = false := fun t ht => by
          cases h1 : A.lo t <;> cases h2 : m t <;> simp
          exact hn ⟨t, ht, h1, h2⟩
        exact ⟨⟨⟨key 0 (by omega), key 1 (by omega)⟩, key 2 (by omega)⟩, key 3 (by omega)⟩
      rw [this] at h; cases h
    · rintro ⟨t, ht, h1, h2⟩
      cases h : anyTy fun t => A.lo t && m t with
      | true => rfl
      | false => have := anyTy_false h ht; rw [h1, h2] at this; cases this
  have hall : ¬ (allTy fun t => !m t || (decide (0 < t) && A.up (t - 1))) = true ↔
      ∃ t, t ≤ 3 ∧ m t = true ∧ ¬ (0 < t ∧ A.up (t - 1) = true) := by
    rw [allTy_iff]
    simp only [not_forall, exists_prop]
    constructor
    · rintro ⟨t, ht, h⟩
      refine ⟨t, ht, ?_⟩
      simpa using h
    · rintro ⟨t, ht, h⟩
      refine ⟨t, ht, ?_⟩
      simpa using h
  rw [← hany, ← hall, Adj.removeLower]
  constructor
  · split
    · rename_i h1
      split
      · rename_i h2; simp [h2]
      · rename_i h2; simp [h1, h2]
    · rename_i h1; simp [h1]
  · intro A' e
    split at e
    · split at e
      · cases e
        refine ⟨rfl, rfl, rfl, fun t h0 ht => by simp [ht, h0], by simp, fun x hx hm => ?_⟩
        change (if _ then _ else _) = _
        rw [if_neg]
        rintro ⟨_, h⟩; rw [hm] at h; cases h
      · cases e
    · rename_i h1
      cases e
      refine ⟨rfl, rfl, rfl, fun t h0 ht => ⟨fun h => ⟨h, ?_⟩, fun h => h.1⟩, rfl, fun _ _ _ => rfl⟩
      cases hm : m t with
      | false => rfl
      | true => exact absurd (hany.2 ⟨t, by omega, h, hm⟩) h1

/-- `RestoreUpperAdjacencies` completes (if the orientation of faces is maintained: provided that all lower connections
are kept), the upper connections of the types in the mask are kept afterwards, and those of the mesh at the
start by `C94_history_partial`.  Without maintenance of the orientation restored lists are in the order of numbers and
everything else stays. -/
theorem C94_restoreUpper_partial {cn : Bool} {T : Topo} (r : Reach cn T) {A : Adj} (h : After T A) (orient : Bool)
    (flip : Topo → El → Bool) (m : Nat → Bool)
    (ho : orient = true → A.lo 1 = true ∧ A.lo 2 = true ∧ A.lo 3 = true) :
    ∃ A', A.restoreUpper orient flip m = some A' ∧ After T A' ∧ A'.lo = A.lo ∧
      (∀ t, t < 3 → (A'.up t = true ↔ A.up t = true ∨ m t = true)) ∧
      (orient = false → A'.T.low = A.T.low ∧
        (∀ x, A.up x.ty = true ∨ m x.ty = false → A'.T.high x = A.T.high x) ∧
        ∀ x, x.ty < 3 → A.up x.ty = false → m x.ty = true →
          (A'.T.high x).Pairwise fun a b => a.id ≤ b.id) := by
  have I := (reach_inv r).1
  have K := after_keeps r h
  suffices hs : ∃ A', A.restoreUpper orient flip m = some A' ∧ A'.lo = A.lo ∧
      (∀ t, t < 3 → (A'.up t = true ↔ A.up t = true ∨ m t = true)) ∧
      (orient = false → A'.T.low = A.T.low ∧
        (∀ x, A.up x.ty = true ∨ m x.ty = false → A'.T.high x = A.T.high x) ∧
        ∀ x, x.ty < 3 → A.up x.ty = false → m x.ty = true →
          (A'.T.high x).Pairwise fun a b => a.id ≤ b.id) by
    obtain ⟨A', e, q⟩ := hs
    exact ⟨A', e, .call (.restoreUpper orient flip m) h e, q⟩
  rw [Adj.restoreUpper]
  split
  · rename_i hall
    rw [allTy_iff] at hall
    refine ⟨A, rfl, rfl, fun t ht => ⟨.inl, ?_⟩, fun _ => ⟨rfl, fun _ _ => rfl, fun x hx hu hm => ?_⟩⟩
    · rintro (h1 | h1)
      · exact h1
      · simpa [h1] using hall t (by omega)
    · have := hall x.ty (by omega)
      rw [hu, hm] at this; cases this
  · obtain ⟨A1, done, e1, hd, P⟩ := upLoops I K m
    rw [e1]
    have hup : ∀ t, t < 3 → (A1.up t = true ↔ A.up t = true ∨ m t = true) := by
      intro t ht; rw [P.up]; simp [ht]
    simp only
    split
    · rename_i hc
      simp only [Bool.and_eq_true] at hc
      have hl := ho hc.2
      have K1 := part_keeps I K P hd
      obtain ⟨A2, e2, _⟩ := each_total (orientFace_total flip) (List.range (A1.T.last 2)) A1
        ⟨by rw [P.lo]; exact hl.1, by rw [P.lo]; exact hl.2.1, by rw [P.lo]; exact hl.2.2,
          (hup 2 (by omega)).2 (.inr hc.1.1)⟩
      obtain ⟨_, u2, l2⟩ := each_keeps (orientFace_keeps flip) _ _ _ K1 e2
      refine ⟨A2, e2, l2.trans P.lo, ?_, fun hf => by rw [hf] at hc; cases hc.2⟩
      rw [u2]; exact hup
    · refine ⟨A1, rfl, P.lo, hup, fun _ => ⟨P.low, fun x hx => P.old x ?_, fun x hx hu hm => ?_⟩⟩
      · rintro ⟨_, h2, h3, _⟩
        rcases hx with hx | hx
        · rw [hx] at h3; cases h3
        · rw [hx] at h2; cases h2
      · rw [P.new x hx hm hu (hd _ hx)]
        exact gathered_sorted x List.pairwise_lt_range

/-- `RestoreLowerAdjacencies` completes, provided that nodes of edges are kept or restored too when edges of faces
are restored, and the lower connections of the types in the mask are kept afterwards; other lists stay.  Outside of modifications
the restored edges of each face whose edges can be arranged in a simple polygon are stored in such an order. -/
theorem C94_restoreLower_partial {cn : Bool} {T : Topo} (r : Reach cn T) {A : Adj} (h : After T A) (m : Nat → Bool)
    (hm : m 2 = true → A.lo 2 = false → A.lo 1 = true ∨ m 1 = true) :
    ∃ A', A.restoreLower m = some A' ∧ After T A' ∧ A'.up = A.up ∧ A'.T.high = A.T.high ∧
      (∀ t, 0 < t → t ≤ 3 → (A'.lo t = true ↔ A.lo t = true ∨ m t = true)) ∧
      (∀ x, A.lo x.ty = true → A'.T.low x = A.T.low x) ∧
      (T.hide = false → A.lo 2 = false → m 2 = true → ∀ f es ns, f.ty = 2 → T.alive f = true → es.Perm (T.low f) →
        Loop T es ns → ns.Nodup →
        ∃ ns', Loop A'.T (A'.T.low f) ns' ∧ ns'.Nodup ∧ getNodes A'.T f = some ns') := by
  have I := (reach_inv r).1
  have K := after_keeps r h
  suffices hs : ∃ A', A.restoreLower m = some A' ∧ A'.up = A.up ∧ A'.T.high = A.T.high ∧
      (∀ t, 0 < t → t ≤ 3 → (A'.lo t = true ↔ A.lo t = true ∨ m t = true)) ∧
      (∀ x, A.lo x.ty = true → A'.T.low x = A.T.low x) ∧
      (T.hide = false → A.lo 2 = false → m 2 = true → ∀ f es ns, f.ty = 2 → T.alive f = true → es.Perm (T.low f) →
        Loop T es ns → ns.Nodup →
        ∃ ns', Loop A'.T (A'.T.low f) ns' ∧ ns'.Nodup ∧ getNodes A'.T f = some ns') by
    obtain ⟨A', e, q⟩ := hs
    exact ⟨A', e, .call (.restoreLower m) h e, q⟩
  rw [Adj.restoreLower]
  split
  · rename_i hall
    rw [allTy_iff] at hall
    refine ⟨A, rfl, rfl, rfl, fun t h0 ht => ⟨.inl, ?_⟩, fun _ _ => rfl, fun _ hl hm => ?_⟩
    · rintro (h1 | h1)
      · exact h1
      · simpa [h1] using hall t (by omega)
    · have := hall 2 (by omega)
      rw [hl, hm] at this; cases this
  · obtain ⟨A1, done, e1, hd, P⟩ := lowLoops I K m
    rw [e1]
    have hlo : ∀ t, 0 < t → t ≤ 3 → (A1.lo t = true ↔ A.lo t = true ∨ m t = true) := by
      intro t h0 ht; rw [P.lo]; simp [h0]
    have hold : ∀ x, A.lo x.ty = true → A1.T.low x = A.T.low x := fun x hx =>
      P.old x fun h => by rw [hx] at h; cases h.2.2.2.1
    simp only
    split
    · rename_i hc
      simp only [Bool.and_eq_true, Bool.not_eq_true'] at hc
      have K1 := partL_keeps I K P hd
      have h1 : A1.lo 1 = true ∧ A1.lo 2 = true :=
        ⟨(hlo 1 (by omega) (by omega)).2 (hm hc.1 hc.2), (hlo 2 (by omega) (by omega)).2 (.inr hc.1)⟩
      obtain ⟨A2, e2, q1, q2, q3, q4, q5, q6, q7, q8⟩ := fixFaces_eq (List.range (A1.T.last 2)) A1 List.nodup_range h1
      refine ⟨A2, e2, q2.trans P.up, q6.trans P.high, by rw [q1]; exact hlo, fun x hx => ?_, ?_⟩
      · rw [q7 x ?_]
        · exact hold x hx
        · by_cases hx2 : x.ty = 2
          · rw [hx2, hc.2] at hx; cases hx
          · exact .inl hx2
      · intro hh _ _ f es ns hf hfa hes hl hn
        have hfl : f.id ∈ List.range (A1.T.last 2) := by
          rw [K1.last]; exact List.mem_range.2 (hf ▸ I.lastLt f hfa)
        obtain ⟨B, b1, b2, b3, b4⟩ := q8 f hf hfl (by rw [K1.alive]; exact hfa)
        have hety : ∀ e, e ∈ T.low f → e.ty = 1 := fun e he => by
          have := (I.lowTy f e he).1 (by omega); omega
        have hfp := K1.low f (by rw [hf]; exact h1.2)
        have hlB : Loop B es ns := loop_perm (fun e he => by
          have ht := hety e (hes.mem_iff.1 he)
          rw [b4 e (by omega)]
          exact K1.low e (by rw [ht]; exact h1.1)) (b2.trans K1.hide) (b3.trans K1.hidden) hl
        obtain ⟨ns', l1, l2, l3⟩ := fixedLow_loop (b2.trans (K1.hide.trans hh)) hlB hn (hes.trans hfp.symm)
        rw [← b1] at l1 l3
        have hl2 : Loop A2.T (A2.T.low f) ns' := loop_perm (fun e he => by
          have ht := hety e (hfp.mem_iff.1 (l3.mem_iff.1 he))
          rw [b4 e (by omega), q7 e (.inl (by omega))]) (q4.trans b2.symm) (q5.trans b3.symm) l1
        have hev : edgesOf A2.T f = A2.T.low f := List.filter_eq_self.2 fun y _ => by
          rw [Topo.hid, q4, K1.hide, hh]; rfl
        exact ⟨ns', hl2, l2, C57_nodes f ns' (by rw [hev]; exact hl2) l2⟩
    · rename_i hc
      refine ⟨A1, rfl, P.up, P.high, hlo, hold, fun _ hl hm2 => ?_⟩
      rw [hl, hm2] at hc; simp at hc

/-! ## Examples -/

/-- The default masks. -/
def upMask (t : Nat) : Bool := decide (t < 3)
def loMask (t : Nat) : Bool := decide (0 < t)

/-- Two tetrahedra over nodes 0 1 2, tops 3 and 4; cell 1 is created before cell 0 and is the back cell of face 0. -/
def tets : Topo := (build (Topo.init true) [(0, 0, [], []), (0, 1, [], []), (0, 2, [], []), (0, 3, [], []), (0, 4, [], []),
  (1, 0, [nd 1, nd 0], []), (1, 1, [nd 1, nd 2], []), (1, 2, [nd 2, nd 0], []),
  (1, 3, [nd 0, nd 3], []), (1, 4, [nd 1, nd 3], []), (1, 5, [nd 2, nd 3], []),
  (1, 6, [nd 0, nd 4], []), (1, 7, [nd 1, nd 4], []), (1, 8, [nd 2, nd 4], []),
  (2, 0, [ed 0, ed 2, ed 1], []),
  (2, 1, [ed 0, ed 4, ed 3], []), (2, 2, [ed 1, ed 5, ed 4], []), (2, 3, [ed 2, ed 3, ed 5], []),
  (2, 4, [ed 0, ed 7, ed 6], []), (2, 5, [ed 1, ed 8, ed 7], []), (2, 6, [ed 2, ed 6, ed 8], []),
  (3, 1, [fc 0, fc 1, fc 2, fc 3], [nd 0, nd 1, nd 2, nd 3]),
  (3, 0, [fc 0, fc 4, fc 5, fc 6], [nd 0, nd 1, nd 2, nd 4])]).get (by decide +kernel)

theorem reach_tets : Reach true tets := build_reach _ _ _ .init (getEq _)

/-- Without upper connections, and restored. -/
def bareUp : Adj := ((Adj.full tets).removeUpper upMask).get (by decide +kernel)
def backUp : Adj := (bareUp.restoreUpper false (fun _ _ => false) upMask).get (by decide +kernel)
def bareLow : Adj := ((Adj.full tets).removeLower loMask).get (by decide +kernel)
def backLow : Adj := (bareLow.restoreLower loMask).get (by decide +kernel)

theorem after_bareUp : After tets bareUp := .call (.removeUpper upMask) .start (getEq _)
theorem after_backUp : After tets backUp := .call (.restoreUpper false (fun _ _ => false) upMask) after_bareUp (getEq _)
theorem after_bareLow : After tets bareLow := .call (.removeLower loMask) .start (getEq _)
theorem after_backLow : After tets backLow := .call (.restoreLower loMask) after_bareLow (getEq _)

example : bareUp.T.high (fc 0) = [] ∧ backUp.T.high (fc 4) = tets.high (fc 4) ∧
    backUp.T.high (nd 3) = [ed 3, ed 4, ed 5] := by decide +kernel
example : bareLow.T.low (fc 5) = [] ∧ backLow.T.low (fc 5) = [ed 1, ed 7, ed 8] := by decide +kernel
example : tets.hide = false ∧ tets.alive (fc 5) = true ∧ bareLow.lo 2 = false ∧
    Loop tets (tets.low (fc 5)) [nd 1, nd 2, nd 4] :=
  ⟨by decide +kernel, by decide +kernel, by decide +kernel,
    loop_of (by decide +kernel) (by decide +kernel) (by decide +kernel)⟩
/-- Removing both directions is refused. -/
example : bareUp.removeLower loMask = none := by
  rw [(C94_removeLower bareUp loMask).1]
  exact ⟨⟨1, by decide +kernel⟩, ⟨1, by decide +kernel⟩⟩

/-! ## What is not restored -/

/-- The order of the cells of a face: without maintenance of the orientation, the back cell and the front cell
of a face are exchanged. -/
theorem C94_back_fails : ∃ (T : Topo) (A1 A2 : Adj) (f a b : El), Reach true T ∧
    (Adj.full T).removeUpper upMask = some A1 ∧ A1.restoreUpper false (fun _ _ => false) upMask = some A2 ∧
    T.high f = [a, b] ∧ A2.T.high f = [b, a] ∧ a ≠ b :=
  ⟨tets, bareUp, backUp, fc 0, ⟨3, 1⟩, ⟨3, 0⟩, reach_tets, getEq _, getEq _, by decide +kernel, by decide +kernel,
    by decide +kernel⟩

/-- The order of the nodes of an edge, and the direction in which the nodes of a face go around (hence its normal),
whether or not the orientation of faces is maintained. -/
theorem C94_direction_fails : ∃ (T : Topo) (A1 A2 : Adj) (e f a b c : El), Reach true T ∧
    (Adj.full T).removeLower loMask = some A1 ∧ A1.restoreLower loMask = some A2 ∧
    T.low e = [b, a] ∧ A2.T.low e = [a, b] ∧
    getNodes T f = some [b, a, c] ∧ getNodes A2.T f = some [a, b, c] ∧ a ≠ b ∧ b ≠ c ∧ a ≠ c :=
  ⟨tets, bareLow, backLow, ed 0, fc 0, nd 0, nd 1, nd 2, reach_tets, getEq _, getEq _, by decide +kernel, by decide +kernel,
    by decide +kernel, by decide +kernel, by decide +kernel, by decide +kernel, by decide +kernel⟩

/-- Restoring the edges of faces while the nodes of edges are missing has no defined outcome, although all that is needed
for the edges of faces is there. -/
theorem C94_face_fails : ∃ (T : Topo) (A1 : Adj), Reach true T ∧ (Adj.full T).removeLower loMask = some A1 ∧
    A1.up 1 = true ∧ A1.restoreLower (fun t => decide (t = 2)) = none :=
  ⟨tets, bareLow, reach_tets, getEq _, by decide +kernel, by
    have h : (bareLow.restoreLower (fun t => decide (t = 2))).isNone = true := by decide +kernel
    exact Option.isNone_iff_eq_none.1 h⟩

end Verif.Adjacency
