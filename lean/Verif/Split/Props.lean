import Verif.Split.Loop
import Verif.EdgeLoop.Props

/-!
# Property C58: splitting an edge

`SplitEdge(e, nodes)` replaces the edge by a chain of edges through the given nodes.  Every face of the edge
must remain a closed polygon: the chain takes the place of the edge, in the right direction.
-/

namespace Verif.Split
open Verif.Topology Verif.EdgeLoop

section
variable {cn : Bool} {T T' : Topo} {flip : Topo → El → Bool} {dup prot : Bool} {e f : El}
  {nodes ret ids : List El} {ids : List Nat}

/-- The arguments of the call: an edge that is not hidden, nodes that are not hidden.  With the topology check
`DUPLICATE_EDGE` (`dup`) existing edges may be reused: then all edges join two different nodes and
the nodes differ from each other and from the ends of the edge. -/
structure SplitArgs (T : Topo) (dup : Bool) (e : El) (nodes : List El) : Prop where
  edge : e.ty = 1
  visible : T.hid e = false
  alive : ∀ x ∈ nodes, T.alive x = true ∧ x.ty = 0 ∧ T.hid x = false
  check : dup = true → (∀ x, T.alive x = true → x.ty = 1 → T.hid x = false → ∃ a b, a ≠ b ∧ Joins T x a b) ∧
    nodes.Nodup ∧ ∀ x ∈ nodes, x ∉ T.low e

theorem split_loop (I : Inv T (fun _ => False)) (A : SplitArgs T dup e nodes) (hret : ret ≠ [])
    (h : T.splitEdge flip dup prot e nodes ids = some (T', ret))
    (hf : f ∈ T.high e) (fv : T.hid f = false) (hone : (T.low f).count e = 1) {ns : List El}
    (L : Loop T (edgesOf T f) ns)
    (hg : ∀ a es1 es2 ns1 ns2 u v, edgesOf T f = es1 ++ e :: es2 → ns = ns1 ++ u :: ns2 →
      Path T a es1 ns1 u → Joins T e u v → Path T v es2 ns2 a → u ≠ v ∧ Guides T f e u v) :
    ∃ es1 es2 ns1 ns2 u v new mid, edgesOf T f = es1 ++ e :: es2 ∧ ns = ns1 ++ u :: ns2 ∧
      ns1.length = es1.length ∧ Joins T e u v ∧
      ((new = ret ∧ mid = nodes) ∨ (new = ret.reverse ∧ mid = nodes.reverse)) ∧
      edgesOf T' f = es1 ++ new ++ es2 ∧ Loop T' (edgesOf T' f) (ns1 ++ (u :: mid) ++ ns2) := by
  have hft : f.ty = 2 := by
    have := (I.highTy (fun h => h) hf).1 (by have := A.edge; omega)
    have := A.edge
    omega
  have hlen : 2 ≤ (T.low f).length := by
    have h1 := L.three
    have h2 : (edgesOf T f).length ≤ (T.low f).length := List.length_filter_le _ _
    omega
  have B := split_face I A.edge A.alive A.check A.visible hret h hf fv hone hlen
  obtain ⟨a, P⟩ := L.path
  obtain ⟨es1, es2, ns1, ns2, u, v, new, mid, h1, h2, h3, h4, h5, h6, h7⟩ :=
    split_path I A.edge hft A.visible B P (fun es1 es2 ns1 ns2 u v => hg a es1 es2 ns1 ns2 u v)
  refine ⟨es1, es2, ns1, ns2, u, v, new, mid, h1, h2, h3, h4, h5, h6, ?_⟩
  rw [h6]
  obtain ⟨l1, l2, l3⟩ := h7.loop (by
    have h8 := L.three
    have h9 : 0 < new.length := by
      have := List.length_pos_iff.2 hret
      rcases h5 with ⟨rfl, -⟩ | ⟨rfl, -⟩
      · exact this
      · simpa using this
    rw [h1] at h8
    simp only [List.length_append, List.length_cons] at h8 ⊢
    omega)
  exact ⟨l1, l2, l3⟩

/-- C58: after `SplitEdge` every face of the edge that was a closed polygon is a closed polygon again; the new
edges stand in the place of the edge, in the order in which the polygon passes them, and the new
corners are the given nodes in this order.
Missing: faces in which the edge stored before the split edge is hidden or has hidden nodes; this
can only be during a modification of the mesh (`C58_hidden_fails`, `C58_loop_guided`). -/
theorem C58_loop_partial (r : Reach cn T) (A : SplitArgs T dup e nodes) (hret : ret ≠ [])
    (h : T.splitEdge flip dup prot e nodes ids = some (T', ret))
    (hf : f ∈ T.high e) (fv : T.hid f = false) (hone : (T.low f).count e = 1) {ns : List El}
    (L : Loop T (edgesOf T f) ns) (hn : ns.Nodup)
    (hvp : ∀ pre post p, T.low f = pre ++ e :: post → (post ++ pre).getLast? = some p →
      T.hid p = false ∧ ∀ n ∈ T.low p, T.hid n = false) :
    ∃ es1 es2 ns1 ns2 u v new mid, edgesOf T f = es1 ++ e :: es2 ∧ ns = ns1 ++ u :: ns2 ∧
      ns1.length = es1.length ∧ Joins T e u v ∧
      ((new = ret ∧ mid = nodes) ∨ (new = ret.reverse ∧ mid = nodes.reverse)) ∧
      edgesOf T' f = es1 ++ new ++ es2 ∧ Loop T' (edgesOf T' f) (ns1 ++ (u :: mid) ++ ns2) := by
  refine split_loop (reach_inv r).1 A hret h hf fv hone L ?_
  rintro a es1 es2 ns1 ns2 u v he rfl P1 hj P2
  exact guides_vis A.visible hone hvp L.three he hn P1 P2

/-- C58, outside of modifications nothing is hidden and the restriction disappears. -/
theorem C58_loop_plain (r : Reach cn T) (hh : T.hide = false) (A : SplitArgs T dup e nodes) (hret : ret ≠ [])
    (h : T.splitEdge flip dup prot e nodes ids = some (T', ret))
    (hf : f ∈ T.high e) (hone : (T.low f).count e = 1) {ns : List El}
    (L : Loop T (T.low f) ns) (hn : ns.Nodup) :
    ∃ es1 es2 ns1 ns2 u v new mid, T.low f = es1 ++ e :: es2 ∧ ns = ns1 ++ u :: ns2 ∧
      ns1.length = es1.length ∧ Joins T e u v ∧
      ((new = ret ∧ mid = nodes) ∨ (new = ret.reverse ∧ mid = nodes.reverse)) ∧
      T'.low f = es1 ++ new ++ es2 ∧ Loop T' (T'.low f) (ns1 ++ (u :: mid) ++ ns2) := by
  have hv : ∀ x, T.hid x = false := fun x => by unfold Topo.hid; rw [hh]; rfl
  have hv' : ∀ x, T'.hid x = false := fun x => by
    have : T'.hide = false := by
      obtain ⟨pos, T1, T2, T3, -, hdrop, C, F, -⟩ := split_run (reach_inv r).1 A.edge A.alive hret h
      have h1 : T1.hide = false := by
        rcases (dropEdge_spec (reach_inv r).1 A.edge hdrop).2 with ⟨h', -⟩ | ⟨-, D⟩
        · rw [h'] at hh; cases hh
        · rw [D.hide, hh]
      rw [F.hide, C.hide, h1]
    unfold Topo.hid; rw [this]; rfl
  have k : ∀ g, edgesOf T g = T.low g := fun g => List.filter_eq_self.2 fun x _ => by simp [hv x]
  have k' : ∀ g, edgesOf T' g = T'.low g := fun g => List.filter_eq_self.2 fun x _ => by simp [hv' x]
  rw [← k f] at L
  have := C58_loop_partial r A hret h hf (hv f) hone L hn (fun _ _ p _ _ => ⟨hv p, fun n _ => hv n⟩)
  rw [k, k'] at this
  exact this

/-- C58, the general condition for the right direction: of the two ends of the split edge, the edge stored
before it (hidden or not) has, among its first two nodes, only the one from which the polygon
enters the split edge. -/
theorem C58_loop_guided (r : Reach cn T) (A : SplitArgs T dup e nodes) (hret : ret ≠ [])
    (h : T.splitEdge flip dup prot e nodes ids = some (T', ret))
    (hf : f ∈ T.high e) (fv : T.hid f = false) (hone : (T.low f).count e = 1) {ns : List El}
    (L : Loop T (edgesOf T f) ns)
    (hg : ∀ (i : Nat) u v pre post p, (edgesOf T f)[i]? = some e → ns[i]? = some u →
      ns[(i + 1) % ns.length]? = some v → T.low f = pre ++ e :: post → (post ++ pre).getLast? = some p →
      ∃ a b l, T.low p = a :: b :: l ∧ (u = a ∨ u = b) ∧ v ≠ a ∧ v ≠ b) :
    ∃ es1 es2 ns1 ns2 u v new mid, edgesOf T f = es1 ++ e :: es2 ∧ ns = ns1 ++ u :: ns2 ∧
      ns1.length = es1.length ∧ Joins T e u v ∧
      ((new = ret ∧ mid = nodes) ∨ (new = ret.reverse ∧ mid = nodes.reverse)) ∧
      edgesOf T' f = es1 ++ new ++ es2 ∧ Loop T' (edgesOf T' f) (ns1 ++ (u :: mid) ++ ns2) := by
  refine split_loop (reach_inv r).1 A hret h hf fv hone L ?_
  rintro a es1 es2 ns1 ns2 u v he rfl P1 hj P2
  have hl1 := P1.length
  have hl2 := P2.length
  have hv : (ns1 ++ u :: ns2)[(es1.length + 1) % (ns1 ++ u :: ns2).length]? = some v := by
    cases P2 with
    | nil =>
      rw [show (es1.length + 1) % (ns1 ++ [u]).length = 0 by
        simp only [List.length_append, List.length_cons, List.length_nil]
        rw [hl1]; exact Nat.mod_self _]
      cases P1 with
      | nil => 
        have := L.three
        rw [he] at this; simp at this
      | cons => rfl
    | @cons _ _ m _ es ns hj' P2 =>
      rw [Nat.mod_eq_of_lt (by simp only [List.length_append, List.length_cons]; omega)]
      rw [List.getElem?_append_right (by omega), hl1]
      simp
  have hu : (ns1 ++ u :: ns2)[es1.length]? = some u := by
    rw [List.getElem?_append_right (by omega), hl1]; simp
  have he1 : (edgesOf T f)[es1.length]? = some e := by rw [he]; simp
  have hG : Guides T f e u v := fun pre post p h1 h2 => hg es1.length u v pre post p he1 hu hv h1 h2
  refine ⟨?_, hG⟩
  obtain ⟨pre, post, hpp⟩ := List.append_of_mem (List.mem_of_mem_filter (by rw [he]; simp : e ∈ edgesOf T f) : e ∈ T.low f)
  cases hlast : (post ++ pre).getLast? with
  | none =>
    have h0 := List.append_eq_nil_iff.1 (List.getLast?_eq_none_iff.1 hlast)
    have h1 := L.three
    have h2 : (edgesOf T f).length ≤ (T.low f).length := List.length_filter_le _ _
    rw [hpp, h0.1, h0.2] at h2
    simp at h2; omega
  | some p =>
    obtain ⟨a, b, l, -, h1, h2, h3⟩ := hG pre post p hpp hlast
    rintro rfl
    rcases h1 with h1 | h1
    · exact h2 h1
    · exact h3 h1

/-- C58: the other faces keep their edges, all edges but the split one keep their nodes; the new edges belong to
all visible faces of the split edge. -/
theorem C58_elsewhere (r : Reach cn T) (A : SplitArgs T dup e nodes) (hret : ret ≠ [])
    (h : T.splitEdge flip dup prot e nodes ids = some (T', ret)) :
    (∀ g, g.ty = 2 → T.alive g = true → e ∉ T.low g → T'.low g = T.low g) ∧
    (∀ x, x.ty = 1 → T.alive x = true → x ≠ e → T'.low x = T.low x) ∧
    (∀ c, c.ty = 3 → T.alive c = true → T'.low c = T.low c) ∧
    (∀ x ∈ ret, x.ty = 1 ∧ T'.alive x = true ∧ T'.hid x = false ∧
      ∀ g ∈ T.high e, T.hid g = false → g ∈ T'.high x) ∧
    (cn = true → ∀ x ∈ nodes, ∀ g ∈ T.high e, T.hid g = false → ∀ c ∈ T.high g, T.hid c = false →
      x ∈ T'.high c) ∧
    (e ∈ ret ∨ T'.alive e = false ∨ T'.hid e = true) := by
  have I := (reach_inv r).1
  have ht := A.edge
  obtain ⟨pos, T1, T2, T3, hpf, hdrop, C, F, hsame, hlow, hret', hcell⟩ := split_run I ht A.alive hret h
  obtain ⟨d1, d2, d3, d4⟩ := drop_frame I ht hdrop
  have hfty : ∀ x ∈ pos.map Prod.fst, x ∈ T.high e ∧ x.ty = 2 := fun x hx => by
    rw [hpf] at hx
    have h1 := (List.mem_filter.1 hx).1
    have := (I.highTy (fun h => h) h1).1 (by omega)
    exact ⟨h1, by omega⟩
  have hl1 : ∀ x, x ≠ e → e ∉ T.low x → T1.low x = T.low x := fun x hx hm => by
    rcases (dropEdge_spec I ht hdrop).2 with ⟨-, rfl⟩ | ⟨-, D⟩
    · rfl
    · rw [D.low, if_neg hx, eraseAll_not_mem hm]
  have key : ∀ x, x.ty ≠ 0 → x ≠ e → T.alive x = true → e ∉ T.low x → x ∉ T.high e → T'.low x = T.low x := by
    intro x h0 hx ha hm hh
    rw [hlow x h0, hsame x (fun h => hh (hfty x h).1), C.low x (by rw [d3 x hx]; exact ha), hl1 x hx hm]
  have hid : ∀ x, T'.hid x = T2.hid x := fun x => by unfold Topo.hid; rw [F.hide, F.hidden]
  refine ⟨fun g hg ha hm => key g (by omega) (by rintro rfl; omega) ha hm
      (fun h => hm ((I.mem (fun h => h)).2 h)), fun x hx ha hne => key x (by omega) hne ha (fun h => ?_) (fun h => ?_),
    fun c hc ha => key c (by omega) (by rintro rfl; omega) ha (fun h => ?_) (fun h => ?_), fun x hx => ?_, ?_, ?_⟩
  · have := (I.lowTy x e h).1 (by omega); omega
  · have := (I.highTy (fun h => h) h).1 (by omega); omega
  · have := (I.lowTy c e h).1 (by omega); omega
  · have := (I.highTy (fun h => h) h).1 (by omega); omega
  · obtain ⟨h1, h2, h3⟩ := C.ret x hx
    exact ⟨h2, by rw [F.alive]; exact h1, by rw [hid]; exact h3, fun g hg gv => hret' x hx g hg gv⟩
  · intro hcn
    exact hcell (by rw [(reach_inv r).2]; exact hcn)
  · by_cases hm : e ∈ ret
    · exact Or.inl hm
    right
    rcases d4 with d4 | d4
    · right; rw [hid, Chained.hid C]; exact d4
    · left
      rw [F.alive]
      cases hc : T2.alive e with
      | false => rfl
      | true =>
        rcases C.kinds e hc with h | h
        · rw [d4] at h; cases h
        · exact absurd h.1 hm

end

/-! ## Concrete meshes -/

/-- Two triangles with the common edge `ed 2`, passed in opposite directions; two more nodes. -/
def q1 : Topo := (build (Topo.init true) [(0, 0, [], []), (0, 1, [], []), (0, 2, [], []), (0, 3, [], []),
  (0, 4, [], []), (0, 5, [], []),
  (1, 0, [nd 0, nd 1], []), (1, 1, [nd 1, nd 2], []), (1, 2, [nd 0, nd 2], []), (1, 3, [nd 2, nd 3], []),
  (1, 4, [nd 3, nd 0], []), (2, 0, [ed 0, ed 1, ed 2], []), (2, 1, [ed 2, ed 3, ed 4], [])]).get
  (by decide +kernel)
def q2 : Topo × List El := (q1.splitEdge (fun _ _ => false) false false (ed 2) [nd 4, nd 5] [5, 6, 7]).get
  (by decide +kernel)

theorem reach_q1 : Reach true q1 := build_reach _ _ _ .init (getEq _)

theorem args_q1 : SplitArgs q1 false (ed 2) [nd 4, nd 5] :=
  ⟨rfl, by decide +kernel, by decide +kernel, by intro h; cases h⟩

theorem q2_eq : q1.splitEdge (fun _ _ => false) false false (ed 2) [nd 4, nd 5] [5, 6, 7] = some q2 := getEq _

/-- The edge has the places 2 and 0 in its faces; the first face passes the chain backwards. -/
example : q2.2 = [ed 5, ed 6, ed 7] ∧ q2.1.low (fc 0) = [ed 0, ed 1, ed 7, ed 6, ed 5] ∧
    q2.1.low (fc 1) = [ed 5, ed 6, ed 7, ed 3, ed 4] ∧
    Loop q2.1 (q2.1.low (fc 0)) [nd 0, nd 1, nd 2, nd 5, nd 4] ∧
    Loop q1 (q1.low (fc 0)) [nd 0, nd 1, nd 2] ∧ (q1.low (fc 0)).count (ed 2) = 1 ∧ q1.hide = false ∧
    fc 0 ∈ q1.high (ed 2) :=
  ⟨by decide +kernel, by decide +kernel, by decide +kernel,
    loop_of (by decide +kernel) (by decide +kernel) (by decide +kernel),
    loop_of (by decide +kernel) (by decide +kernel) (by decide +kernel), by decide +kernel, by decide +kernel,
    by decide +kernel⟩

/-- The theorem applied to this mesh. -/
example : ∃ ns, Loop q2.1 (q2.1.low (fc 0)) ns ∧ ns.length = 5 := by
  obtain ⟨es1, es2, ns1, ns2, u, v, new, mid, h1, h2, h3, h4, h5, h6, h7⟩ :=
    C58_loop_plain reach_q1 (by decide +kernel) args_q1 (by decide +kernel : q2.2 ≠ []) q2_eq (f := fc 0)
      (by decide +kernel) (by decide +kernel) (ns := [nd 0, nd 1, nd 2])
      (loop_of (by decide +kernel) (by decide +kernel) (by decide +kernel)) (by decide +kernel)
  exact ⟨_, h7, by rw [h7.corners]; decide +kernel⟩

/-- A triangle `0, 1, 2` whose third edge `ed 2` was replaced by `ed 3`, with the same ends, and then hidden. -/
def q3 : Topo := (build (Topo.init true) [(0, 0, [], []), (0, 1, [], []), (0, 2, [], []), (0, 3, [], []),
  (1, 0, [nd 0, nd 1], []), (1, 1, [nd 1, nd 2], []), (1, 2, [nd 0, nd 2], []), (1, 3, [nd 0, nd 2], []),
  (2, 0, [ed 0, ed 1, ed 2, ed 3], [])]).get (by decide +kernel)
def q4 : Topo := (q3.beginMod).get (by decide +kernel)
def q5 : Topo := (q4.hideOp (fun _ _ => false) (ed 2)).get (by decide +kernel)
/-- The edges of a face can be given after the edge was hidden; here hiding the edge hid the face, it is
shown again. -/
def q6 : Topo := (q5.showOp (fc 0)).get (by decide +kernel)
def q7 : Topo × List El := (q6.splitEdge (fun _ _ => false) false false (ed 3) [nd 3] [4, 5]).get
  (by decide +kernel)

theorem reach_q6 : Reach true q6 :=
  .showOp _ (.hideOp _ _ (.beginMod (build_reach _ _ _ .init (getEq _)) (getEq _)) (getEq _)) (getEq _)

theorem q7_eq : q6.splitEdge (fun _ _ => false) false false (ed 3) [nd 3] [4, 5] = some q7 := getEq _

/-- With a hidden edge stored before the split one, `SplitEdge` can insert the new edges in the wrong
direction: the face was a closed polygon with different corners and is none afterwards. -/
theorem C58_hidden_fails : ∃ (T T' : Topo) (e f : El) (nodes ret ns : List El) (ids : List Nat),
    Reach true T ∧ SplitArgs T false e nodes ∧ ret ≠ [] ∧
    T.splitEdge (fun _ _ => false) false false e nodes ids = some (T', ret) ∧
    f ∈ T.high e ∧ T.hid f = false ∧ (T.low f).count e = 1 ∧ Loop T (edgesOf T f) ns ∧ ns.Nodup ∧
    ¬ ∃ ns', Loop T' (edgesOf T' f) ns' := by
  refine ⟨q6, q7.1, ed 3, fc 0, [nd 3], q7.2, [nd 0, nd 1, nd 2], [4, 5], reach_q6,
    ⟨rfl, by decide +kernel, by decide +kernel, by intro h; cases h⟩, by decide +kernel, q7_eq,
    by decide +kernel, by decide +kernel, by decide +kernel,
    loop_of (by decide +kernel) (by decide +kernel) (by decide +kernel), by decide +kernel, ?_⟩
  rintro ⟨ns', L⟩
  have he : edgesOf q7.1 (fc 0) = [ed 0, ed 1, ed 4, ed 5] := by decide +kernel
  rw [he] at L
  obtain ⟨a, P⟩ := L.path
  cases P with
  | cons _ P => cases P with
    | @cons _ _ m _ _ _ j1 P => cases P with
      | cons j2 _ =>
        have h1 : m = nd 1 ∨ m = nd 2 := by
          have : m ∈ (q7.1.low (ed 1)).filter fun x => !q7.1.hid x := by
            rcases j1 with h | h <;> rw [h] <;> simp
          rw [show ((q7.1.low (ed 1)).filter fun x => !q7.1.hid x) = [nd 1, nd 2] by decide +kernel] at this
          exact mem_two.1 this
        have h2 : m = nd 0 ∨ m = nd 3 := by
          have : m ∈ (q7.1.low (ed 4)).filter fun x => !q7.1.hid x := by
            rcases j2 with h | h <;> rw [h] <;> simp
          rw [show ((q7.1.low (ed 4)).filter fun x => !q7.1.hid x) = [nd 0, nd 3] by decide +kernel] at this
          exact mem_two.1 this
        rcases h1 with rfl | rfl <;> rcases h2 with h | h <;> exact absurd h (by decide)

end Verif.Split
