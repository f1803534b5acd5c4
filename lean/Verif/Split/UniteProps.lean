import Verif.Split.Unite
import Verif.Split.Props

/-!
# Property C59: uniting edges

`UniteEdges(edges)` replaces edges that follow one another by a single edge.  Every face of which the edges are a
part of the boundary must remain a closed polygon: the new edge joins the ends of the chain and takes its place.
-/

namespace Verif.Split
open Verif.Topology Verif.EdgeLoop

variable {cn : Bool} {T T' : Topo} {flip : Topo → El → Bool} {dup : Bool} {prot : El → Bool} {edges : List El}
  {id : Nat} {e f : El}

theorem _root_.Verif.EdgeLoop.Path.first {a b : El} {es ns : List El} (h : Path T a es ns b) (hne : es ≠ []) :
    ns[0]? = some a := by
  cases h with
  | nil => exact absurd rfl hne
  | cons => rfl

/-- Every visible edge joins two different nodes. -/
def ProperEdges (T : Topo) : Prop :=
  ∀ x, T.alive x = true → x.ty = 1 → T.hid x = false → ∃ a b, a ≠ b ∧ Joins T x a b

/-- C59: if the edges (in some order) are a connected piece `mid` of the boundary of a face, then afterwards the face
is a closed polygon with the new edge in the place of this piece, and the corners are the old ones without the
inner nodes of the piece. -/
theorem C59_loop (r : Reach cn T) (A : UniteOk T edges) (hok : dup = true → ProperEdges T)
    (h : T.uniteEdges flip dup prot edges id = some (T', some e))
    (hf : f.ty = 2) (fv : T.hid f = false) {pre mid post ns : List El}
    (he : edgesOf T f = pre ++ mid ++ post) (hm : mid.Perm edges) (h2 : 2 ≤ pre.length + post.length)
    (L : Loop T (edgesOf T f) ns) (hn : ns.Nodup) :
    ∃ n1 u n2 n3 v, ns = n1 ++ u :: n2 ++ n3 ∧ n1.length = pre.length ∧ n2.length + 1 = mid.length ∧
      (n3 ++ n1)[0]? = some v ∧ Joins T' e u v ∧ edgesOf T' f = pre ++ [e] ++ post ∧
      Loop T' (edgesOf T' f) (n1 ++ u :: n3) := by
  have I := (reach_inv r).1
  obtain ⟨a, P⟩ := L.path
  have hes := cycle_nodup P hn L.three
  rw [he] at P hes
  obtain ⟨v, n12, n3, rfl, P12, P3⟩ := P.split
  obtain ⟨u, n1, n2', rfl, P1, P2⟩ := P12.split
  have hmne : mid ≠ [] := by
    rintro rfl
    have : edges = [] := List.nil_perm.1 hm |>.symm ▸ rfl
    rw [this] at h
    unfold Topo.uniteEdges at h
    rw [if_pos rfl] at h
    cases h
  have hrne : post ++ pre ≠ [] := by
    intro h0
    have := List.append_eq_nil_iff.1 h0
    rw [this.1, this.2] at h2; simp at h2
  have hperm : (pre ++ mid ++ post).Perm (mid ++ (post ++ pre)) := by
    rw [List.append_assoc, ← List.append_assoc mid]
    exact List.perm_append_comm
  have hpn : (n1 ++ n2' ++ n3).Perm (n2' ++ (n3 ++ n1)) := by
    rw [List.append_assoc, ← List.append_assoc n2']
    exact List.perm_append_comm
  obtain ⟨inner, rfl, U, hst⟩ := unite_cycle I A hok h hf P2 (P3.append P1) hm (hpn.nodup_iff.1 hn) hmne hrne
    (fun x hx => by
      have : x ∈ edgesOf T f := by
        rw [he]; rcases List.mem_append.1 hx with hx | hx <;> simp [hx]
      exact (List.mem_filter.1 this).1) (hperm.nodup_iff.1 hes)
  have hnd := List.nodup_append.1 (hperm.nodup_iff.1 hes)
  have hout : ∀ x ∈ post ++ pre, x ∉ edges := fun x hx hme => hnd.2.2 x (hm.mem_iff.2 hme) x hx rfl
  obtain ⟨m, tl, hmid⟩ := List.exists_cons_of_ne_nil hmne
  have hme : m ∈ edges := hm.mem_iff.1 (by rw [hmid]; simp)
  have hmf : m ∈ T.low f := by
    have : m ∈ edgesOf T f := by rw [he, hmid]; simp
    exact (List.mem_filter.1 this).1
  obtain ⟨B1, x, B2, hl, hx, hB, hnew⟩ := U.face m hme f ((I.mem (fun h => h)).1 hmf) fv
  have hxv : T.hid x = false := by
    have : x ∈ edgesOf T f := by rw [he]; simp [hm.mem_iff.2 hx]
    simpa using (List.mem_filter.1 this).2
  have hold : (B1.filter fun x => !T.hid x) ++ x :: (B2.filter fun x => !T.hid x) = pre ++ m :: (tl ++ post) := by
    have h1 : edgesOf T f = (B1.filter fun x => !T.hid x) ++ x :: (B2.filter fun x => !T.hid x) := by
      unfold edgesOf; rw [hl, List.filter_append, List.filter_cons_of_pos (by simp [hxv])]
    rw [← h1, he, hmid]; simp
  obtain ⟨g1, g2⟩ := first_marked (l := []) hold hx (fun y hy => hB y (List.mem_filter.1 hy).1) hme
    (fun y hy => hout y (by simp [hy]))
  have hE : edgesOf T' f = pre ++ [e] ++ post := by
    rw [hnew, g1, List.filter_cons_of_pos (by simp [hxv]), g2]
    congr 1
    have h3 : m :: (tl ++ post) = mid ++ post := by rw [hmid]; rfl
    rw [h3, List.filter_append]
    have h4 : mid.filter (fun y => decide (y ∉ edges)) = [] :=
      List.filter_eq_nil_iff.2 fun y hy => by simp [hm.mem_iff.1 hy]
    have h5 : post.filter (fun y => decide (y ∉ edges)) = post :=
      List.filter_eq_self.2 fun y hy => by simp [hout y (by simp [hy])]
    rw [h4, h5, List.nil_append]
  refine ⟨n1, u, inner, n3, v, rfl, P1.length, ?_, (P3.append P1).first hrne, U.joins, hE, ?_⟩
  · have := P2.length; simpa using this
  · rw [hE]
    have R := (path_map P1 fun x hx => hst x (by simp [hx])).append
      ((Path.cons U.joins (path_map P3 fun x hx => hst x (by simp [hx]))))
    have h3 : n1 ++ u :: n3 = n1 ++ (u :: n3) := rfl
    obtain ⟨l1, l2, l3⟩ := R.loop (by simp only [List.length_append, List.length_cons]; omega)
    rw [List.append_assoc]
    exact ⟨l1, l2, l3⟩

/-- C59 for a piece that contains the beginning and the end of the stored array: the new edge comes first. -/
theorem C59_loop_wrap (r : Reach cn T) (A : UniteOk T edges) (hok : dup = true → ProperEdges T)
    (h : T.uniteEdges flip dup prot edges id = some (T', some e))
    (hf : f.ty = 2) (fv : T.hid f = false) {pre mid post ns : List El}
    (he : edgesOf T f = pre ++ mid ++ post) (hm : (post ++ pre).Perm edges) (hpre : pre ≠ [])
    (h2 : 2 ≤ mid.length) (L : Loop T (edgesOf T f) ns) (hn : ns.Nodup) :
    ∃ n1 n2 n3 u v, ns = n1 ++ n2 ++ n3 ∧ n1.length = pre.length ∧ n2.length = mid.length ∧
      (n3 ++ n1)[0]? = some u ∧ n2[0]? = some v ∧ Joins T' e u v ∧ edgesOf T' f = e :: mid ∧
      Loop T' (edgesOf T' f) (u :: n2) := by
  have I := (reach_inv r).1
  obtain ⟨a, P⟩ := L.path
  have hes := cycle_nodup P hn L.three
  rw [he] at P hes
  obtain ⟨u, n12, n3, rfl, P12, P3⟩ := P.split
  obtain ⟨v, n1, n2, rfl, P1, P2⟩ := P12.split
  have hmne : mid ≠ [] := by rintro rfl; simp at h2
  have hrne : post ++ pre ≠ [] := fun h0 => hpre (List.append_eq_nil_iff.1 h0).2
  have hperm : (pre ++ mid ++ post).Perm ((post ++ pre) ++ mid) := by
    rw [List.append_assoc post]
    exact List.perm_append_comm
  have hpn : (n1 ++ n2 ++ n3).Perm ((n3 ++ n1) ++ n2) := by
    rw [List.append_assoc n3]
    exact List.perm_append_comm
  obtain ⟨inner, hinner, U, hst⟩ := unite_cycle I A hok h hf (P3.append P1) P2 hm (hpn.nodup_iff.1 hn) hrne hmne
    (fun x hx => by
      have : x ∈ edgesOf T f := by rw [he]; simp [hx]
      exact (List.mem_filter.1 this).1) (hperm.nodup_iff.1 hes)
  have hnd := List.nodup_append.1 (hperm.nodup_iff.1 hes)
  have hout : ∀ x ∈ mid, x ∉ edges := fun x hx hme => hnd.2.2 x (hm.mem_iff.2 hme) x hx rfl
  obtain ⟨m, tl, hp⟩ := List.exists_cons_of_ne_nil hpre
  have hme : m ∈ edges := hm.mem_iff.1 (by rw [hp]; simp)
  have hmf : m ∈ T.low f := by
    have : m ∈ edgesOf T f := by rw [he, hp]; simp
    exact (List.mem_filter.1 this).1
  obtain ⟨B1, x, B2, hl, hx, hB, hnew⟩ := U.face m hme f ((I.mem (fun h => h)).1 hmf) fv
  have hxv : T.hid x = false := by
    have : x ∈ edgesOf T f := by
      rw [he]
      rcases List.mem_append.1 (hm.mem_iff.2 hx) with h | h <;> simp [h]
    simpa using (List.mem_filter.1 this).2
  have hold : (B1.filter fun x => !T.hid x) ++ x :: (B2.filter fun x => !T.hid x) = [] ++ m :: (tl ++ mid ++ post) := by
    have h1 : edgesOf T f = (B1.filter fun x => !T.hid x) ++ x :: (B2.filter fun x => !T.hid x) := by
      unfold edgesOf; rw [hl, List.filter_append, List.filter_cons_of_pos (by simp [hxv])]
    rw [← h1, he, hp]; simp
  obtain ⟨g1, g2⟩ := first_marked (l := []) hold hx (fun y hy => hB y (List.mem_filter.1 hy).1) hme (by simp)
  have hE : edgesOf T' f = e :: mid := by
    rw [hnew, g1, List.filter_cons_of_pos (by simp [hxv]), g2]
    have h3 : m :: (tl ++ mid ++ post) = pre ++ mid ++ post := by rw [hp]; rfl
    rw [h3, List.filter_append, List.filter_append]
    have h4 : pre.filter (fun y => decide (y ∉ edges)) = [] :=
      List.filter_eq_nil_iff.2 fun y hy => by simp [hm.mem_iff.1 (List.mem_append_right _ hy)]
    have h5 : mid.filter (fun y => decide (y ∉ edges)) = mid :=
      List.filter_eq_self.2 fun y hy => by simp [hout y hy]
    have h6 : post.filter (fun y => decide (y ∉ edges)) = [] :=
      List.filter_eq_nil_iff.2 fun y hy => by simp [hm.mem_iff.1 (List.mem_append_left _ hy)]
    rw [h4, h5, h6]; simp
  refine ⟨n1, n2, n3, u, v, rfl, P1.length, P2.length, by rw [hinner]; rfl, P2.first hmne, U.joins, hE, ?_⟩
  rw [hE]
  have R := Path.cons U.joins (path_map P2 hst)
  obtain ⟨l1, l2, l3⟩ := R.loop (by simp only [List.length_cons]; omega)
  exact ⟨l1, l2, l3⟩

/-- C59: under the same conditions every visible face of one of the edges is a face of the new edge; a visible face
with none of them keeps its edges; edges that end in none of the inner nodes of the piece keep their nodes; the
edges of the piece are gone or hidden. -/
theorem C59_elsewhere (r : Reach cn T) (A : UniteOk T edges) (hok : dup = true → ProperEdges T)
    (h : T.uniteEdges flip dup prot edges id = some (T', some e))
    (hf : f.ty = 2) {pre mid post ns : List El}
    (he : edgesOf T f = pre ++ mid ++ post) (hm : mid.Perm edges) (h2 : 2 ≤ pre.length + post.length)
    (L : Loop T (edgesOf T f) ns) (hn : ns.Nodup) :
    (∀ x ∈ edges, ∀ g ∈ T.high x, T.hid g = false → g ∈ T'.high e ∧ e ∈ T'.low g) ∧
    (∀ g, g.ty = 2 → T.alive g = true → T.hid g = false → (∀ x ∈ edges, x ∉ T.low g) → edgesOf T' g = edgesOf T g) ∧
    (∀ x a b, x.ty = 1 → T.alive x = true → x ∉ edges → Joins T x a b → (∀ y ∈ edges, a ∉ T.low y ∧ b ∉ T.low y) →
      Joins T' x a b) ∧
    (∀ x ∈ edges, x = e ∨ T'.alive x = false ∨ T'.hid x = true) ∧
    T'.alive e = true ∧ e.ty = 1 ∧ T'.hid e = false := by
  have I := (reach_inv r).1
  have I' := (reach_inv (.uniteEdges flip dup prot edges id r A h)).1
  obtain ⟨a, P⟩ := L.path
  have hes := cycle_nodup P hn L.three
  rw [he] at P hes
  obtain ⟨v, n12, n3, rfl, P12, P3⟩ := P.split
  obtain ⟨u, n1, n2', rfl, P1, P2⟩ := P12.split
  have hmne : mid ≠ [] := by
    rintro rfl
    have : edges = [] := List.nil_perm.1 hm |>.symm ▸ rfl
    rw [this] at h
    unfold Topo.uniteEdges at h
    rw [if_pos rfl] at h
    cases h
  have hrne : post ++ pre ≠ [] := by
    intro h0
    have := List.append_eq_nil_iff.1 h0
    rw [this.1, this.2] at h2; simp at h2
  have hperm : (pre ++ mid ++ post).Perm (mid ++ (post ++ pre)) := by
    rw [List.append_assoc, ← List.append_assoc mid]
    exact List.perm_append_comm
  have hpn : (n1 ++ n2' ++ n3).Perm (n2' ++ (n3 ++ n1)) := by
    rw [List.append_assoc, ← List.append_assoc n2']
    exact List.perm_append_comm
  obtain ⟨inner, rfl, U, -⟩ := unite_cycle I A hok h hf P2 (P3.append P1) hm (hpn.nodup_iff.1 hn) hmne hrne
    (fun x hx => by
      have : x ∈ edgesOf T f := by
        rw [he]; rcases List.mem_append.1 hx with hx | hx <;> simp [hx]
      exact (List.mem_filter.1 this).1) (hperm.nodup_iff.1 hes)
  have hin : ∀ n ∈ inner, ∃ y ∈ edges, n ∈ T.low y := by
    intro n hn
    have h1 := path_ends P2 n
    have h3 : 0 < (T.endsOf mid).count n := by
      have := List.count_pos_iff.2 hn
      simp only [List.count_cons, List.count_nil] at h1
      split at h1 <;> split at h1 <;> omega
    obtain ⟨y, hy, hl, -⟩ := mem_endsOf.1 (List.count_pos_iff.1 h3)
    exact ⟨y, hm.mem_iff.1 hy, hl⟩
  refine ⟨fun x hx g hg gv => ⟨U.faces x hx g hg gv, (I'.mem (fun h => h)).2 (U.faces x hx g hg gv)⟩, U.other,
    fun x a b hx ha hxe hj hno => ?_, fun x hx => U.gone x (by simp [hx]), U.result⟩
  refine U.stay x a b hx ha hxe hj (fun hm => ?_) (fun hm => ?_)
  · obtain ⟨y, hy, hl⟩ := hin a hm
    exact (hno y hy).1 hl
  · obtain ⟨y, hy, hl⟩ := hin b hm
    exact (hno y hy).2 hl

/-- C59: `TestUniteEdges` agrees with `UniteEdges` where the latter has a defined outcome: it returns true if and only
if an edge is created. -/
theorem C59_test_partial {res : Option El} (h : T.uniteEdges flip dup prot edges id = some (T', res)) :
    T.testUnite prot edges = some res.isSome := by
  unfold Topo.uniteEdges at h
  unfold Topo.testUnite
  split at h
  · next h1 => cases h; rw [if_pos h1]; rfl
  next h1 =>
  rw [if_neg h1]
  split at h
  · cases h
  next h2 =>
  rw [if_neg h2]
  cases h3 : T.facesOf [] edges with
  | none => rw [h3] at h; cases h
  | some faces =>
  rw [h3] at h
  simp only at h ⊢
  split at h
  · next h4 => cases h; rw [if_pos h4]; rfl
  next h4 =>
  rw [if_neg h4]
  split at h
  · cases h
  split at h
  · cases h
  next h5 =>
  rw [if_neg h5]
  split at h
  · next h6 => cases h; rw [if_pos h6]; rfl
  next h6 =>
  rw [if_neg h6]
  cases h7 : T.remPos edges faces with
  | none => rw [h7] at h; cases h
  | some pos =>
  rw [h7] at h
  simp only at h ⊢
  have : ∃ e, res = some e := by
    unfold Topo.uniteRun at h
    split at h
    · cases h
    split at h
    · cases h
    split at h
    · cases h
    split at h
    · split at h
      · cases h
      · cases h; exact ⟨_, rfl⟩
    · cases h
  obtain ⟨e, rfl⟩ := this
  rfl

/-! ## Concrete meshes -/

/-- The three edges that replaced the common edge of two triangles (`q2`), united again. -/
def u1 : Option (Topo × Option El) :=
  q2.1.uniteEdges (fun _ _ => false) false (fun _ => false) [ed 6, ed 7, ed 5] 8

def u2 : Topo × Option El := u1.get (by decide +kernel)

theorem reach_q2 : Reach true q2.1 :=
  .splitEdge _ false false (ed 2) [nd 4, nd 5] [5, 6, 7] reach_q1 rfl (by decide +kernel) q2_eq

/-- Uniting the three edges of the split restores the triangles, with a new edge; the hypotheses of `C59_loop` hold. -/
example : u2.2 = some (ed 8) ∧ u2.1.low (fc 0) = [ed 0, ed 1, ed 8] ∧ u2.1.low (fc 1) = [ed 8, ed 3, ed 4] ∧
    edgesOf q2.1 (fc 0) = [ed 0, ed 1] ++ [ed 7, ed 6, ed 5] ++ [] ∧ [ed 7, ed 6, ed 5].Perm [ed 6, ed 7, ed 5] ∧
    Loop q2.1 (edgesOf q2.1 (fc 0)) [nd 0, nd 1, nd 2, nd 5, nd 4] ∧ q2.1.testUnite (fun _ => false) [ed 6, ed 7, ed 5] = some true :=
  ⟨by decide +kernel, by decide +kernel, by decide +kernel, by decide +kernel, by decide +kernel,
    loop_of (by decide +kernel) (by decide +kernel) (by decide +kernel), by decide +kernel⟩

theorem free_of (r : Reach cn T) (ty : ∀ x ∈ edges, x.ty = 1) (nd : edges.Nodup)
    (h : ∀ n ∈ T.endsOf edges, 2 ≤ (T.endsOf edges).count n → ∀ x ∈ T.high n, x ∈ edges) : UniteOk T edges :=
  ⟨ty, nd, fun _ n hn => h n (List.count_pos_iff.1 (by omega)) hn⟩

example : UniteOk q2.1 [ed 6, ed 7, ed 5] := free_of reach_q2 (by decide +kernel) (by decide +kernel) (by decide +kernel)

/-- A pentagon; the edges `ed 4`, `ed 0` at the end and at the beginning of its array are united. -/
def u4 : Topo := (build (Topo.init true) [(0, 0, [], []), (0, 1, [], []), (0, 2, [], []), (0, 3, [], []), (0, 4, [], []),
  (1, 0, [nd 0, nd 1], []), (1, 1, [nd 1, nd 2], []), (1, 2, [nd 2, nd 3], []), (1, 3, [nd 3, nd 4], []),
  (1, 4, [nd 4, nd 0], []), (2, 0, [ed 0, ed 1, ed 2, ed 3, ed 4], [])]).get (by decide +kernel)

theorem reach_u4 : Reach true u4 := build_reach _ _ _ .init (getEq _)

example : UniteOk u4 [ed 0, ed 4] ∧ edgesOf u4 (fc 0) = [ed 0] ++ [ed 1, ed 2, ed 3] ++ [ed 4] ∧
    ([ed 4] ++ [ed 0]).Perm [ed 0, ed 4] ∧ Loop u4 (edgesOf u4 (fc 0)) [nd 0, nd 1, nd 2, nd 3, nd 4] ∧
    (u4.uniteEdges (fun _ _ => false) true (fun _ => false) [ed 0, ed 4] 5).map (fun p => (p.2, p.1.low (fc 0))) =
      some (some (ed 5), [ed 5, ed 1, ed 2, ed 3]) :=
  ⟨free_of reach_u4 (by decide +kernel) (by decide +kernel) (by decide +kernel), by decide +kernel, by decide +kernel,
    loop_of (by decide +kernel) (by decide +kernel) (by decide +kernel), by decide +kernel⟩

/-- Two edges without a common node: `TestUniteEdges` allows to unite them, `UniteEdges` runs into an assertion. -/
theorem C59_test_disjoint_fails : ∃ (T : Topo) (edges : List El), Reach true T ∧ UniteOk T edges ∧
    T.testUnite (fun _ => false) edges = some true ∧
    ∀ flip dup id, T.uniteEdges flip dup (fun _ => false) edges id = none := by
  refine ⟨q1, [ed 0, ed 3], reach_q1, free_of reach_q1 (by decide +kernel) (by decide +kernel) (by decide +kernel),
    by decide +kernel, fun flip dup id => ?_⟩
  unfold Topo.uniteEdges
  rw [if_neg (by decide), if_neg (by decide +kernel)]
  have : q1.facesOf [] [ed 0, ed 3] = some [fc 0, fc 1] := by decide +kernel
  rw [this]
  simp only
  rw [if_neg (by decide +kernel), if_pos (by decide +kernel)]

/-- Two edges whose common node has a third edge, which belongs to no face. -/
def u3 : Topo := (build (Topo.init true) [(0, 0, [], []), (0, 1, [], []), (0, 2, [], []), (0, 3, [], []),
  (1, 0, [nd 0, nd 1], []), (1, 1, [nd 1, nd 2], []), (1, 2, [nd 1, nd 3], [])]).get (by decide +kernel)

def u6 : Topo × Option El :=
  (u3.uniteEdges (fun _ _ => false) false (fun _ => false) [ed 0, ed 1] 3).get (by decide +kernel)

theorem u6_eq : u3.uniteEdges (fun _ _ => false) false (fun _ => false) [ed 0, ed 1] 3 = some u6 := getEq _

/-- `TestUniteEdges` allows to unite two edges at whose common node a third edge ends; `UniteEdges` then deletes
the third edge, which is not one of its arguments. -/
theorem C59_third_fails : ∃ (T T' : Topo) (edges : List El) (e x : El), Reach true T ∧
    T.testUnite (fun _ => false) edges = some true ∧
    T.uniteEdges (fun _ _ => false) false (fun _ => false) edges 3 = some (T', some e) ∧
    x ∉ edges ∧ T.alive x = true ∧ T'.alive x = false :=
  ⟨u3, u6.1, [ed 0, ed 1], ed 3, ed 2, build_reach _ _ _ .init (getEq _), by decide +kernel,
    u6_eq.trans (congrArg some (Prod.ext rfl (by decide +kernel))), by decide, by decide +kernel, by decide +kernel⟩

end Verif.Split
