import Verif.EdgeLoop.Nodes
import Verif.Topology.Build

/-!
# Properties C56, C57: the order of the edges of a face
-/

namespace Verif.EdgeLoop
open Verif.Topology

/-! ## Concrete meshes

Four nodes, the four sides of a square and a diagonal, a face with the sides in a wrong order, a
face that lists the diagonal as its last edge, a face whose last edge is not connected. -/

/-- Face 0: the sides in a wrong order; face 1: the diagonal last; face 2: not closed; face 3: the
diagonal first. -/
def s14 : Topo := (build (Topo.init true) [(0, 0, [], []), (0, 1, [], []), (0, 2, [], []), (0, 3, [], []),
  (1, 0, [nd 0, nd 1], []), (1, 1, [nd 2, nd 3], []), (1, 2, [nd 2, nd 1], []), (1, 3, [nd 3, nd 0], []),
  (1, 4, [nd 0, nd 2], []), (2, 0, [ed 0, ed 1, ed 2, ed 3], []),
  (2, 1, [ed 0, ed 2, ed 1, ed 3, ed 4], []), (2, 2, [ed 0, ed 2, ed 3], []),
  (2, 3, [ed 4, ed 0, ed 2, ed 1, ed 3], [])]).get (by decide +kernel)
/-- A mesh of dimension two: edges are points, faces are the sides of a pentagon, the cell lists
them in a wrong order. -/
def penta : Topo := (build (Topo.init true) [(0, 0, [], []), (0, 1, [], []), (0, 2, [], []), (0, 3, [], []),
  (0, 4, [], []), (1, 0, [nd 0], []), (1, 1, [nd 1], []), (1, 2, [nd 2], []), (1, 3, [nd 3], []),
  (1, 4, [nd 4], []), (2, 0, [ed 0, ed 1], []), (2, 1, [ed 1, ed 2], []), (2, 2, [ed 2, ed 3], []),
  (2, 3, [ed 3, ed 4], []), (2, 4, [ed 4, ed 0], []),
  (3, 0, [fc 0, fc 1, fc 3, fc 4, fc 2], [nd 0, nd 1, nd 2, nd 3, nd 4])]).get (by decide +kernel)
def s15 : Topo := (s14.beginMod).get (by decide +kernel)
/-- The diagonal is hidden. -/
def s16 : Topo := (s15.hideOp (fun _ _ => false) (ed 4)).get (by decide +kernel)
/-- A side is hidden too. -/
def s17 : Topo := (s15.hideOp (fun _ _ => false) (ed 3)).get (by decide +kernel)

theorem reach_s14 : Reach true s14 := build_reach _ _ _ .init (getEq _)
theorem reach_penta : Reach true penta := build_reach _ _ _ .init (getEq _)
theorem reach_s16 : Reach true s16 := .hideOp _ _ (.beginMod reach_s14 (getEq _)) (getEq _)
theorem reach_s17 : Reach true s17 := .hideOp _ _ (.beginMod reach_s14 (getEq _)) (getEq _)

/-- Decidable form of `Loop` for concrete meshes. -/
theorem loop_of {T : Topo} {es ns : List El} (h3 : 3 ≤ es.length) (hl : ns.length = es.length)
    (h : ∀ i < es.length, ∀ e ∈ es[i]?, ∀ a ∈ ns[i]?, ∀ b ∈ ns[(i + 1) % es.length]?,
      (T.low e).filter (fun x => !T.hid x) = [a, b] ∨ (T.low e).filter (fun x => !T.hid x) = [b, a]) :
    Loop T es ns :=
  ⟨h3, hl, fun i e a b he ha hb =>
    h i (List.getElem?_eq_some_iff.1 he).1 e he a ha b hb⟩

/-! ## C56 -/

section
variable {cn : Bool} {T : Topo}

theorem fixEdgeOrder_some {f : El} {r : Bool} {T' : Topo} (e : fixEdgeOrder T f = some (r, T')) :
    ∃ lc', fixOrder T (T.low f) = some (r, lc') ∧ T' = { T with low := set1 T.low f lc' } := by
  unfold fixEdgeOrder at e
  split at e
  · cases e
  next lc hlc =>
  have hl := lcOf_some hlc
  split at e
  · cases e
  next r' lc' hf =>
  unfold Topo.modLow at e
  rw [hlc] at e
  simp only [Option.map_some, Option.some.injEq, Prod.mk.injEq] at e
  obtain ⟨rfl, rfl⟩ := e
  exact ⟨lc', by rw [hl]; exact hf, rfl⟩

theorem edge_ne (r : Reach cn T) {f e : El} (hf : f.ty = 2) (h : e ∈ T.low f) : e ≠ f := by
  rintro rfl
  rcases C11_types r _ _ h with h' | ⟨-, -, h'⟩ <;> omega

/-- C56: `FixEdgeOrder` has a defined outcome on every face; it only reorders the array of edges of
this face (and so keeps the links between elements, C11). -/
theorem C56_fix_changes (r : Reach cn T) (f : El) (hf : f.ty = 2) (ha : T.alive f = true) :
    ∃ res T', fixEdgeOrder T f = some (res, T') ∧ (T'.low f).Perm (T.low f) ∧
      (∀ x, x ≠ f → T'.low x = T.low x) ∧ T'.high = T.high ∧ T'.alive = T.alive ∧
      T'.hidden = T.hidden ∧ T'.hide = T.hide ∧ Reach cn T' := by
  obtain ⟨res, lc', h⟩ := fixOrder_total T (T.low f)
  have hlc : T.lcOf f = some (T.low f) := by unfold Topo.lcOf; rw [if_pos ⟨ha, Or.inl (by omega)⟩]
  have hm : T.modLow f (fun _ => lc') = some { T with low := set1 T.low f lc' } := by
    unfold Topo.modLow; rw [hlc]
  refine ⟨res, { T with low := set1 T.low f lc' }, ?_, ?_, ?_, rfl, rfl, rfl, rfl, ?_⟩
  · unfold fixEdgeOrder; rw [hlc]; simp only [h, hm, Option.map_some]
  · simp only [set1_same]; exact fixOrder_perm h
  · intro x hx; exact set1_ne _ _ hx
  · exact .permLow f lc' r (fixOrder_perm h) hm

/-- C56: if `FixEdgeOrder` returns true, the visible edges of the face, in their new order, are a
closed polygon.  Missing: faces whose last stored edge is hidden (`C56_true_fails`). -/
theorem C56_fix_sound_partial (r : Reach cn T) (f : El) (hf : f.ty = 2)
    (hlast : ∀ e, (T.low f)[(T.low f).length - 1]? = some e → T.hid e = false) {T' : Topo}
    (h : fixEdgeOrder T f = some (true, T')) : ∃ ns, Loop T' (edgesOf T' f) ns := by
  obtain ⟨lc', h1, rfl⟩ := fixEdgeOrder_some h
  obtain ⟨a, ns, hp, h3⟩ := fixOrder_sound hlast h1
  have hperm := fixOrder_perm h1
  obtain ⟨l1, l2, l3⟩ := hp.loop h3
  refine ⟨ns, ?_⟩
  have he : edgesOf { T with low := set1 T.low f lc' } f = vis T lc' := by
    unfold edgesOf; simp only [set1_same]; rfl
  rw [he]
  refine ⟨l1, l2, fun i e x y he hx hy => ?_⟩
  have hne : e ≠ f := edge_ne r hf (hperm.mem_iff.1 (mem_vis.1 (List.mem_of_getElem? he)).1)
  have := l3 i e x y he hx hy
  unfold Joins at this ⊢
  simp only [set1_ne _ _ hne]
  exact this

/-- C56: if the visible edges of a face, taken in a suitable order, are a closed polygon with distinct
corners, `FixEdgeOrder` returns true, whatever the stored order is.
Missing: faces whose last stored edge is hidden (`C56_false_fails`). -/
theorem C56_fix_complete_partial (f : El) (hf : f.ty = 2) (ha : T.alive f = true)
    (hlast : ∀ e, (T.low f)[(T.low f).length - 1]? = some e → T.hid e = false) (es ns : List El)
    (hes : es.Perm (edgesOf T f)) (hl : Loop T es ns) (hn : ns.Nodup) :
    ∃ T', fixEdgeOrder T f = some (true, T') := by
  obtain ⟨x, hp⟩ := hl.path
  obtain ⟨lc', h, -⟩ := fixOrder_complete hlast hp hl.three hn hes
  have hlc : T.lcOf f = some (T.low f) := by unfold Topo.lcOf; rw [if_pos ⟨ha, Or.inl (by omega)⟩]
  unfold fixEdgeOrder Topo.modLow
  rw [hlc]
  exact ⟨{ T with low := set1 T.low f lc' }, by simp only [h, Option.map_some]⟩

/-- The square: the sides are stored in a wrong order, in a suitable order they are a polygon,
`FixEdgeOrder` finds this order. -/
example : Loop s14 [ed 0, ed 2, ed 1, ed 3] [nd 0, nd 1, nd 2, nd 3] ∧
    [ed 0, ed 2, ed 1, ed 3].Perm (edgesOf s14 (fc 0)) ∧ s14.low (fc 0) = [ed 0, ed 1, ed 2, ed 3] ∧
    (fixEdgeOrder s14 (fc 0)).map (fun p => (p.1, p.2.low (fc 0))) = some (true, [ed 0, ed 2, ed 1, ed 3]) :=
  ⟨loop_of (by decide) (by decide) (by decide +kernel), by decide +kernel, by decide +kernel,
    by decide +kernel⟩

/-- With a hidden last edge `FixEdgeOrder` returns false although the visible edges are a closed polygon
and stored in the right order. -/
theorem C56_false_fails : ∃ (T : Topo) (f : El) (ns : List El), Reach true T ∧ f.ty = 2 ∧
    Loop T (edgesOf T f) ns ∧ ns.Nodup ∧ (fixEdgeOrder T f).map (·.1) = some false :=
  ⟨s16, fc 1, [nd 0, nd 1, nd 2, nd 3], reach_s16, rfl,
    loop_of (by decide +kernel) (by decide +kernel) (by decide +kernel), by decide +kernel, by decide +kernel⟩

/-- The node at which visible edges end is not shared: a polygon that is not closed. -/
theorem not_loop_of_dangling {T : Topo} {es ns : List El} {e a b : El} (h : Loop T es ns) (he : e ∈ es)
    (hab : ends T e = some (a, b)) (hd : ∀ e' ∈ es, e' ≠ e → ∀ p, ends T e' = some p → touches a p = false)
    (hne : a ≠ b) (hc : es.count e = 1) : False := by
  obtain ⟨x, hp⟩ := h.path
  obtain ⟨es1, es2, rfl⟩ := List.append_of_mem he
  have h3 := h.three
  have hn1 : e ∉ es1 ∧ e ∉ es2 := by
    simp only [List.count_append, List.count_cons_self] at hc
    exact ⟨List.count_eq_zero.1 (by omega), List.count_eq_zero.1 (by omega)⟩
  obtain ⟨u, n1, n2, rfl, p1, p2⟩ := hp.split
  cases p2 with
  | @cons _ _ v _ _ n2 hj p2 =>
  have hp2 := p2.append p1
  have hnd : ∀ e' ∈ es2 ++ es1, ∀ p, ends T e' = some p → touches a p = false := by
    intro e' h' p hp'
    rcases List.mem_append.1 h' with h'' | h''
    · exact hd e' (by simp [h'']) (by rintro rfl; exact hn1.2 h'') p hp'
    · exact hd e' (by simp [h'']) (by rintro rfl; exact hn1.1 h'') p hp'
  have huv : (a = u ∧ b = v) ∨ (a = v ∧ b = u) := by
    rcases hj.ends with h | h <;> rw [h] at hab <;> cases hab <;> simp
  obtain ⟨ns', r1, -⟩ := hp2.rev
  have hlen : 2 ≤ (es2 ++ es1).length := by
    simp only [List.length_append, List.length_cons] at h3 ⊢; omega
  rcases huv with ⟨rfl, rfl⟩ | ⟨rfl, rfl⟩
  · revert r1
    generalize hgen : (es2 ++ es1).reverse = L
    intro r1
    cases r1 with
    | nil => exact hne rfl
    | @cons e' _ _ _ _ _ hj' _ =>
      obtain ⟨p, hp'⟩ : ∃ p, ends T e' = some p := by rcases hj'.ends with h | h <;> exact ⟨_, h⟩
      have := hnd e' (by rw [← List.mem_reverse, hgen]; simp) p hp'
      rw [(hj'.touch hp').2 (Or.inl rfl)] at this
      cases this
  · clear r1
    revert hp2
    generalize hgen : es2 ++ es1 = L
    generalize n2 ++ n1 = N
    intro hp2
    cases hp2 with
    | nil => exact hne rfl
    | @cons e' _ _ _ _ _ hj' _ =>
      obtain ⟨p, hp'⟩ : ∃ p, ends T e' = some p := by rcases hj'.ends with h | h <;> exact ⟨_, h⟩
      have := hnd e' (by rw [hgen]; simp) p hp'
      rw [(hj'.touch hp').2 (Or.inl rfl)] at this
      cases this

/-- With a hidden last edge `FixEdgeOrder` can return true although the visible edges are not a closed
polygon in any order: the hidden edge is taken to close it. -/
theorem C56_true_fails : ∃ (T : Topo) (f : El), Reach true T ∧ f.ty = 2 ∧
    (fixEdgeOrder T f).map (·.1) = some true ∧
    ¬ ∃ es ns, es.Perm (edgesOf T f) ∧ Loop T es ns := by
  refine ⟨s17, fc 0, reach_s17, rfl, by decide +kernel, ?_⟩
  rintro ⟨es, ns, hp, hl⟩
  have he : edgesOf s17 (fc 0) = [ed 0, ed 1, ed 2] := by decide +kernel
  rw [he] at hp
  refine not_loop_of_dangling (e := ed 0) (a := nd 0) (b := nd 1) hl (hp.mem_iff.2 (by decide))
    (by decide +kernel) ?_ (by decide) (by rw [hp.count_eq]; decide)
  intro e' h' hne p hp'
  have h' := hp.mem_iff.1 h'
  simp only [List.mem_cons, List.not_mem_nil, or_false] at h'
  have e1 : ends s17 (ed 1) = some (nd 2, nd 3) := by decide +kernel
  have e2 : ends s17 (ed 2) = some (nd 2, nd 1) := by decide +kernel
  rcases h' with rfl | rfl | rfl
  · exact absurd rfl hne
  · rw [e1] at hp'; cases hp'; decide
  · rw [e2] at hp'; cases hp'; decide

/-- C56: `CheckEdgeOrder` returns true if the visible edges of the face are stored in the order of a closed
polygon with distinct corners.  Missing: faces whose first stored edge is hidden
(`C56_check_hidden_fails`). -/
theorem C56_check_complete_partial (f : El) (ns : List El) (h : Loop T (edgesOf T f) ns)
    (hn : ns.Nodup) (hfirst : ∀ e, (T.low f)[0]? = some e → T.hid e = false) :
    checkEdgeOrder T f = some true := check_of_loop h hn hfirst

/-- C56: if `CheckEdgeOrder` returns true, then successive edges share nodes, except
for the last edge, of which nothing is known (`C56_check_open_fails`): the edges without the last one are a
path.  Missing: hidden edges at both ends of the array. -/
theorem C56_check_sound_partial (f : El) (hfirst : ∀ e, (T.low f)[0]? = some e → T.hid e = false)
    (hlast : ∀ e, (T.low f)[(T.low f).length - 1]? = some e → T.hid e = false)
    (hedges : ∀ e ∈ T.low f, ((T.low e).filter fun x => !T.hid x).length ≤ 2)
    (h : checkEdgeOrder T f = some true) :
    3 ≤ (edgesOf T f).length ∧ ∃ ns : List El, ns.length = (edgesOf T f).length ∧
      ∀ (i : Nat) (e a b : El), i + 1 < (edgesOf T f).length → (edgesOf T f)[i]? = some e →
        ns[i]? = some a → ns[i + 1]? = some b → Joins T e a b := by
  have hends : ∀ e ∈ T.low f, ∀ p, ends2 T e = some p → ends T e = some p := by
    intro e he p hp
    have hl := hedges e he
    unfold ends2 vis at hp
    unfold ends vis
    match hm : (T.low e).filter fun x => !T.hid x with
    | [] => rw [hm] at hp; cases hp
    | [_] => rw [hm] at hp; cases hp
    | [a, b] => rw [hm] at hp; exact hp
    | _ :: _ :: _ :: _ => rw [hm] at hl; simp at hl
  obtain ⟨h3, a, ns, b, hp⟩ := check_sound hfirst hlast hends h
  have hlen := hp.length
  rw [List.length_dropLast] at hlen
  refine ⟨h3, ns ++ [b], by
    rw [List.length_append, hlen]
    change (vis T (T.low f)).length - 1 + 1 = (vis T (T.low f)).length
    omega, fun i e x y hi he hx hy => ?_⟩
  refine hp.idx.2 i e x y ?_ hx hy
  rw [List.getElem?_dropLast, if_pos]
  · exact he
  · change i + 1 < (vis T (T.low f)).length at hi
    omega

/-- `CheckEdgeOrder` returns true for edges that are not closed: the last edge is not looked at. -/
theorem C56_check_open_fails : ∃ (T : Topo) (f : El), Reach true T ∧ f.ty = 2 ∧ T.hide = false ∧
    checkEdgeOrder T f = some true ∧ ¬ ∃ ns, Loop T (edgesOf T f) ns := by
  refine ⟨s14, fc 2, reach_s14, rfl, by decide +kernel, by decide +kernel, ?_⟩
  rintro ⟨ns, hl⟩
  have he : edgesOf s14 (fc 2) = [ed 0, ed 2, ed 3] := by decide +kernel
  rw [he] at hl
  refine not_loop_of_dangling (e := ed 3) (a := nd 3) (b := nd 0) hl (by decide)
    (by decide +kernel) ?_ (by decide) (by decide)
  intro e' h' hne p hp'
  simp only [List.mem_cons, List.not_mem_nil, or_false] at h'
  have e1 : ends s14 (ed 0) = some (nd 0, nd 1) := by decide +kernel
  have e2 : ends s14 (ed 2) = some (nd 2, nd 1) := by decide +kernel
  rcases h' with rfl | rfl | rfl
  · rw [e1] at hp'; cases hp'; decide
  · rw [e2] at hp'; cases hp'; decide
  · exact absurd rfl hne

/-- `CheckEdgeOrder` returns false for a polygon in the right order when the first stored edge is hidden. -/
theorem C56_check_hidden_fails : ∃ (T : Topo) (f : El) (ns : List El), Reach true T ∧ f.ty = 2 ∧
    Loop T (edgesOf T f) ns ∧ ns.Nodup ∧ checkEdgeOrder T f = some false :=
  ⟨s16, fc 3, [nd 0, nd 1, nd 2, nd 3], reach_s16, rfl,
    loop_of (by decide +kernel) (by decide +kernel) (by decide +kernel), by decide +kernel, by decide +kernel⟩

/-- `Cell::FixEdgeOrder` for cells of dimension two does not end on a pentagon whose sides are stored in an
order for which the algorithm of `Face::FixEdgeOrder` succeeds. -/
theorem C56_cell_fails : ∃ (T : Topo) (c : El) (es ns : List El), Reach true T ∧ T.alive c = true ∧
    c.ty = 3 ∧ T.hide = false ∧ es.Perm (T.low c) ∧ Loop T es ns ∧ ns.Nodup ∧
    (fixOrder T (T.low c)).map (·.1) = some true ∧ cellFixOrder T (T.low c) = none :=
  ⟨penta, cl 0, [fc 0, fc 1, fc 2, fc 3, fc 4], [ed 0, ed 1, ed 2, ed 3, ed 4], reach_penta,
    by decide +kernel, rfl, by decide +kernel, by decide +kernel,
    loop_of (by decide +kernel) (by decide +kernel) (by decide +kernel), by decide +kernel,
    by decide +kernel, by decide +kernel⟩

end

/-! ## C57 -/

section
variable {T : Topo}

/-- C57: if the visible edges of a face, in their stored order, are a closed polygon with distinct corners,
`getNodes` returns these corners: edge number `i` joins the returned nodes `i` and `i+1`. -/
theorem C57_nodes (f : El) (ns : List El) (h : Loop T (edgesOf T f) ns) (hn : ns.Nodup) :
    getNodes T f = some ns := getNodes_spec h hn

/-- C57: with a mask `getNodes` returns the corners selected by the mask, in the same order.
Missing: faces whose first stored edge is hidden and, for private markers, faces whose last stored edge is
hidden (`C57_mask_fails`). -/
theorem C57_mask_partial (priv : Bool) (p : El → Bool) (f : El) (ns : List El)
    (h : Loop T (edgesOf T f) ns) (hn : ns.Nodup)
    (hfirst : ∀ e, (T.low f)[0]? = some e → T.hid e = false)
    (hlast : priv = true → ∀ e, (T.low f)[(T.low f).length - 1]? = some e → T.hid e = false) :
    getNodesMask T priv p f = some (ns.filter p) := getNodesMask_spec h hn hfirst hlast

/-- With a hidden first edge, or with a private marker and a hidden last edge, `getNodes(mask)` returns
nodes twice. -/
theorem C57_mask_fails : ∃ (T : Topo) (f f' : El) (ns : List El), Reach true T ∧ ns.Nodup ∧
    Loop T (edgesOf T f) ns ∧ Loop T (edgesOf T f') ns ∧
    getNodesMask T false (fun _ => true) f = some [nd 0, nd 1, nd 0, nd 2, nd 3] ∧
    getNodesMask T true (fun _ => true) f' = some (ns ++ [nd 0]) :=
  ⟨s16, fc 3, fc 1, [nd 0, nd 1, nd 2, nd 3], reach_s16, by decide +kernel,
    loop_of (by decide +kernel) (by decide +kernel) (by decide +kernel),
    loop_of (by decide +kernel) (by decide +kernel) (by decide +kernel), by decide +kernel, by decide +kernel⟩

/-- C57, C56 together: for a face with a simple boundary, stored in any order, `FixEdgeOrder` returns true and
`getNodes` then returns the corners of the face in the order of the polygon.
Missing: faces whose last stored edge is hidden. -/
theorem C57_after_fix_partial {cn : Bool} (r : Reach cn T) (f : El) (hf : f.ty = 2) (ha : T.alive f = true)
    (hlast : ∀ e, (T.low f)[(T.low f).length - 1]? = some e → T.hid e = false) (es ns : List El)
    (hes : es.Perm (edgesOf T f)) (hl : Loop T es ns) (hn : ns.Nodup) :
    ∃ T' ns', fixEdgeOrder T f = some (true, T') ∧ Loop T' (edgesOf T' f) ns' ∧ ns'.Nodup ∧
      getNodes T' f = some ns' := by
  obtain ⟨x, hp⟩ := hl.path
  obtain ⟨lc', h, a, ns', hp', hn'⟩ := fixOrder_complete hlast hp hl.three hn hes
  have hperm := fixOrder_perm h
  have hlc : T.lcOf f = some (T.low f) := by unfold Topo.lcOf; rw [if_pos ⟨ha, Or.inl (by omega)⟩]
  have he : edgesOf { T with low := set1 T.low f lc' } f = vis T lc' := by
    unfold edgesOf; simp only [set1_same]; rfl
  have h3 : 3 ≤ (vis T lc').length := by
    rw [(vis_perm hperm).length_eq]
    change 3 ≤ (edgesOf T f).length
    rw [← hes.length_eq]; exact hl.three
  obtain ⟨l1, l2, l3⟩ := hp'.loop h3
  have hloop : Loop { T with low := set1 T.low f lc' } (edgesOf { T with low := set1 T.low f lc' } f) ns' := by
    rw [he]
    refine ⟨l1, l2, fun i e x y he hx hy => ?_⟩
    have hne : e ≠ f := edge_ne r hf (hperm.mem_iff.1 (mem_vis.1 (List.mem_of_getElem? he)).1)
    have := l3 i e x y he hx hy
    unfold Joins at this ⊢
    simp only [set1_ne _ _ hne]
    exact this
  refine ⟨{ T with low := set1 T.low f lc' }, ns', ?_, hloop, hn', C57_nodes f ns' hloop hn'⟩
  unfold fixEdgeOrder Topo.modLow
  rw [hlc]
  simp only [h, Option.map_some]

/-- The square during modification, with its hidden diagonal stored as the first edge or the last edge. -/
example : getNodes s16 (fc 1) = some [nd 0, nd 1, nd 2, nd 3] ∧
    getNodes s16 (fc 3) = some [nd 0, nd 1, nd 2, nd 3] ∧
    getNodesMask s16 false (fun x => x.id ≠ 1) (fc 1) = some [nd 0, nd 2, nd 3] := by
  decide +kernel

end

end Verif.EdgeLoop
