import Verif.Split.FaceOut
import Mathlib.Tactic.IntervalCases

/-!
# Property C87: splitting a face by edges

`SplitFace` replaces a polygon by the polygons that given edges cut out of it.  `splitFace W flip T dup prot f edges ids` is
the call for the state `T`; the result is the new state and the returned faces.
-/

namespace Verif.Split
open Verif.Topology Verif.EdgeLoop

variable {cn : Bool} {T T' : Topo} {flip : Topo → El → Bool} {K : Type} {W : Incident.Meas El K} {dup prot : Bool} {f : El}
  {edges ret : List El} {ids : List Nat}

/-- C87: nothing happens if there are no edges or the face is protected, and the face itself is returned if all
edges are in its boundary. -/
theorem C87_noop (h : splitFace W flip T dup prot f edges ids = some (T', ret)) :
    (edges = [] ∨ prot = true → T' = T ∧ ret = []) ∧
    (edges ≠ [] → prot = false → (∀ e ∈ edges, e ∈ edgesOf T f) → T' = T ∧ ret = [f]) := by
  unfold splitFace at h
  split at h
  · cases h
  refine ⟨fun hp => ?_, fun h1 h2 h3 => ?_⟩
  · rw [if_pos hp] at h
    cases h
    exact ⟨rfl, rfl⟩
  · rw [if_neg (by simp [h1, h2])] at h
    split at h
    · cases h
    split at h
    · cases h
      exact ⟨rfl, rfl⟩
    next hne =>
      exfalso
      apply hne
      rw [List.eq_nil_iff_forall_not_mem]
      exact fun e he => (mem_innerOf.1 he).2 (h3 e (mem_innerOf.1 he).1)

section
variable (r : Reach cn T) (A : FaceArgs T dup f edges) (hin : ∃ e ∈ edges, e ∉ edgesOf T f)
  (hfar : Incident.Far W (innerOf T f edges) (edgesOf T f))
  (h : splitFace W flip T dup false f edges ids = some (T', ret))
include r A hin hfar h

theorem face_out' : ∃ cnodes ls, innerNodes T f edges = some cnodes ∧
      Incident.loops W T.low (innerOf T f edges) (edgesOf T f) = some ls ∧
      T.splitFaceRun flip dup f cnodes ls ids = some (T', ret) ∧ FaceOut T dup f cnodes ls ret T' := by
  obtain ⟨e, h1, h2⟩ := hin
  obtain ⟨-, hal, cnodes, ls, hcn, hl, hr⟩ := splitFace_parts h (List.ne_nil_of_mem (mem_innerOf.2 ⟨h1, h2⟩))
  exact ⟨cnodes, ls, hcn, hl, hr, face_out (reach_inv r).1 A hfar hal hcn hl hr⟩

/-- C87: the state after the call is a state of a mesh: upward and downward connections agree (C11). -/
theorem C87_reach : Reach cn T' := by
  obtain ⟨cnodes, ls, -, -, hr, O⟩ := face_out' r A hin hfar h
  exact .splitFace flip dup f cnodes ls ids r O.ok hr

theorem edge_hid {O : FaceOut T dup f cnodes ls ret T'} {x : El} (hx : T.alive x = true) (h1 : x.ty ≤ 1) :
    T'.hid x = T.hid x := by
  have := A.face
  exact (O.keep x (by rintro rfl; omega) hx).2.1

theorem loop_keep {O : FaceOut T dup f cnodes ls ret T'} {l ns : List El} (hl : ∀ e ∈ l, T.alive e = true ∧ e.ty = 1)
    (L : Loop T l ns) : Loop T' l ns := by
  have I := (reach_inv r).1
  have hf := A.face
  refine ⟨L.three, L.corners, fun i e a b he ha hb => ?_⟩
  obtain ⟨k1, k2⟩ := hl e (List.mem_of_getElem? he)
  have k3 := (O.keep e (by rintro rfl; omega) k1).2.2 (Or.inl k2)
  refine joins_congr' k3 (fun n hn => ?_) (L.joins i e a b he ha hb)
  have := (I.lowTy e n hn).1 (by omega)
  exact (O.keep n (by rintro rfl; omega) (I.lowLive hn).1).2.1

/-- C87: the returned faces are different faces of the mesh, are polygons of the given edges and the edges of the face, and
belong to the cells of the face; the face itself is gone. -/
theorem C87_faces : ret.Nodup ∧ (∀ g ∈ ret, g.ty = 2 ∧ T'.alive g = true ∧ T'.hid g = false ∧
      (∃ ns, Loop T' (edgesOf T' g) ns ∧ ns.Nodup) ∧ (∀ e ∈ edgesOf T' g, e ∈ edges ∨ e ∈ edgesOf T f) ∧
      ∀ c ∈ T.cellsOf f, g ∈ T'.low c ∧ c ∈ T'.high g) ∧
    (f ∈ ret ∨ T'.alive f = false ∨ T'.hid f = true) := by
  obtain ⟨cnodes, ls, hcn, hl, hr, O⟩ := face_out' r A hin hfar h
  have r' := C87_reach r A hin hfar h
  have I := (reach_inv r).1
  have hf := A.face
  refine ⟨O.nodup, fun g hg => ?_, ?_⟩
  · obtain ⟨k1, k2, k3⟩ := O.rets g hg
    have hm : ∃ l, (l, g) ∈ ls.zip ret := by
      rw [← zip_snd O.len] at hg
      obtain ⟨⟨l, g'⟩, hp, rfl⟩ := List.mem_map.1 hg
      exact ⟨l, hp⟩
    obtain ⟨l, hp⟩ := hm
    have hl' := (List.of_mem_zip hp).1
    have hle : ∀ e ∈ l, T.alive e = true ∧ e.ty = 1 := O.ok.edges l hl'
    have hlv : ∀ e ∈ l, T.hid e = false := by
      intro e he
      rcases (Incident.C86_closed hl hl').2.2.1 e he with h | h
      · exact (A.edge e (mem_innerOf.1 h).1).2
      · simpa using (List.mem_filter.1 h).2
    have hlo : ∀ e ∈ l, e ∈ edges ∨ e ∈ edgesOf T f := fun e he =>
      A.inner ((Incident.C86_closed hl hl').2.2.1 e he)
    refine ⟨k1, k2, k3, ?_, ?_, fun c hc => ?_⟩
    · rcases O.pair l g hp with ⟨-, e⟩ | ⟨q1, q2, q3, q4, q5, q6, q7⟩
      · obtain ⟨ns, L, hn⟩ := A.loop hl hfar hl'
        refine ⟨ns, ?_, hn⟩
        have : edgesOf T' g = l := by
          unfold edgesOf
          rw [e]
          refine List.filter_eq_self.2 fun x hx => ?_
          have := hle x hx
          rw [edge_hid r A hin hfar h (O := O) this.1 (by omega), hlv x hx]; rfl
        rw [this]
        exact loop_keep r A hin hfar h (O := O) hle L
      · obtain ⟨ns, L, hn⟩ := A.polygons q1 g q3 k1 q4
        refine ⟨ns, ?_, hn⟩
        have : edgesOf T' g = edgesOf T g := by
          unfold edgesOf
          rw [q5]
          refine List.filter_congr fun x hx => ?_
          have h1 := (I.lowTy g x hx).1 (by omega)
          rw [edge_hid r A hin hfar h (O := O) (I.lowLive hx).1 (by omega)]
        rw [this]
        refine loop_keep r A hin hfar h (O := O) (fun e he => ?_) L
        have hx := (List.mem_filter.1 he).1
        have h1 := (I.lowTy g e hx).1 (by omega)
        exact ⟨(I.lowLive hx).1, by omega⟩
    · intro e he
      obtain ⟨he1, he2⟩ := List.mem_filter.1 he
      rcases O.pair l g hp with ⟨-, q⟩ | ⟨q1, q2, q3, q4, q5, q6, q7⟩
      · exact hlo e (q ▸ he1)
      · rw [q5] at he1
        have h1 := (I.lowTy g e he1).1 (by omega)
        rw [edge_hid r A hin hfar h (O := O) (I.lowLive he1).1 (by omega)] at he2
        exact hlo e (q7 e (List.mem_filter.2 ⟨he1, he2⟩))
    · obtain ⟨l0, e, -⟩ := O.cell c hc
      have : g ∈ T'.low c := by rw [e]; exact List.mem_append_right _ hg
      exact ⟨this, ((reach_inv r').1.mem (fun h => h)).1 this⟩
  · cases hfa : T'.alive f with
    | false => exact Or.inr (Or.inl rfl)
    | true =>
      rcases O.back f hfa with ⟨k, -⟩ | k | ⟨-, k⟩
      · exact absurd rfl k
      · exact Or.inl k
      · exact Or.inr (Or.inr k)

omit r A hin hfar h in
theorem zip_count {α β : Type} {p : α → Bool} {q : β → Bool} : ∀ {a : List α} {b : List β}, b.length = a.length →
    (∀ x y, (x, y) ∈ a.zip b → p x = q y) → a.countP p = b.countP q
  | [], [], _, _ => rfl
  | x :: a, y :: b, hl, hp => by
    rw [List.countP_cons, List.countP_cons, hp x y (by simp),
      zip_count (a := a) (b := b) (by simpa using hl) fun u v huv => hp u v (by simp [huv])]

theorem ret_count {O : FaceOut T dup f cnodes ls ret T'} {e : El} (he : T.hid e = false) :
    (ret.countP fun g => decide (e ∈ T'.low g)) = ls.countP fun l => decide (e ∈ l) := by
  refine (zip_count O.len fun l g hp => ?_).symm
  rcases O.pair l g hp with ⟨-, q⟩ | ⟨q1, q2, q3, q4, q5, q6, q7⟩
  · rw [q]
  · rw [q5]
    refine decide_eq_decide.2 ⟨fun h => (List.mem_filter.1 (q6 e h)).1, fun h => ?_⟩
    exact q7 e (List.mem_filter.2 ⟨h, by simp [he]⟩)

/-- C87: every edge of the face belongs to exactly one returned face, every other given edge to two of them or to none, and
no further edge to any. -/
theorem C87_cover (e : El) (he : T.hid e = false) :
    (e ∈ edgesOf T f → (ret.countP fun g => decide (e ∈ T'.low g)) = 1) ∧
    (e ∉ edgesOf T f → e ∈ edges → (ret.countP fun g => decide (e ∈ T'.low g)) = 2 ∨
      (ret.countP fun g => decide (e ∈ T'.low g)) = 0) ∧
    (e ∉ edgesOf T f → e ∉ edges → (ret.countP fun g => decide (e ∈ T'.low g)) = 0) := by
  obtain ⟨cnodes, ls, hcn, hl, hr, O⟩ := face_out' r A hin hfar h
  obtain ⟨k1, k2⟩ := Incident.C86_outer A.cols hfar (fun c hc => A.two hc) A.even hl
  rw [ret_count r A hin hfar h (O := O) he]
  refine ⟨k1 e, fun h1 h2 => k2 e (mem_innerOf.2 ⟨h2, h1⟩), fun h1 h2 => ?_⟩
  rw [List.countP_eq_zero]
  intro l hl' hm
  rcases (Incident.C86_closed hl hl').2.2.1 e (by simpa using hm) with h | h
  · exact h2 (mem_innerOf.1 h).1
  · exact h1 h

omit r A hin hfar h in
theorem countP_without (p q : El → Bool) (f : El) : ∀ l : List El, (l.filter p).countP q =
    (l.filter fun x => p x && decide (x ≠ f)).countP q + if p f && q f then l.count f else 0
  | [] => by simp
  | x :: xs => by
    have ih := countP_without p q f xs
    by_cases hx : x = f
    · subst hx
      rw [List.filter_cons_of_neg (p := fun y => p y && decide (y ≠ x)) (by simp), List.count_cons_self]
      by_cases hp : p x = true
      · rw [List.filter_cons_of_pos hp, List.countP_cons, ih]
        by_cases hq : q x = true <;> simp [hp, hq]; omega
      · rw [List.filter_cons_of_neg hp, ih]
        simp [hp]
    · rw [List.count_cons_of_ne hx]
      by_cases hp : p x = true
      · rw [List.filter_cons_of_pos hp, List.filter_cons_of_pos (by simp [hp, hx]), List.countP_cons, List.countP_cons, ih]
        omega
      · rw [List.filter_cons_of_neg hp, List.filter_cons_of_neg (by simp [hp]), ih]

/-- C87: the cells of the face stay closed: the number of faces at an edge does not change, but it may grow from 0 to 2
for the given edges. -/
theorem C87_cells (c e : El) (hc : c ∈ T.cellsOf f) (he : T.hid e = false) :
    facesAt T' c e = facesAt T c e ∨
    (e ∈ edges ∧ e ∉ edgesOf T f ∧ facesAt T' c e = facesAt T c e + 2) := by
  obtain ⟨k1, k2, k3⟩ := C87_cover r A hin hfar h e he
  obtain ⟨cnodes, ls, hcn, hl, hr, O⟩ := face_out' r A hin hfar h
  have I := (reach_inv r).1
  have hf := A.face
  obtain ⟨l0, e1, e2⟩ := O.cell c hc
  obtain ⟨hc1, hc2⟩ := List.mem_filter.1 hc
  have hc3 : c.ty = 3 := by have := (I.highTy (fun h => h) hc1).1 (by omega); omega
  have hone : (T.low c).count f = 1 := by
    rw [I.mirror f c (fun h => h)]
    have : (T.cellsOf f).count c = (T.high f).count c := by
      unfold Topo.cellsOf
      exact List.count_filter (by simpa using hc2)
    rw [← this]
    exact count_one A.once hc
  have s1 : facesAt T' c e = (l0.filter fun x => !T'.hid x).countP (fun g => decide (e ∈ T'.low g)) +
      ret.countP fun g => decide (e ∈ T'.low g) := by
    unfold facesAt
    rw [e1, List.filter_append, List.countP_append]
    congr 2
    exact List.filter_eq_self.2 fun g hg => by simp [(O.rets g hg).2.2]
  have s2 : facesAt T c e = (l0.filter fun x => !T'.hid x).countP (fun g => decide (e ∈ T'.low g)) +
      if e ∈ edgesOf T f then 1 else 0 := by
    unfold facesAt
    rw [countP_without _ _ f, e2, hone]
    congr 1
    · refine List.countP_congr fun g hg => ?_
      obtain ⟨h1, h2⟩ := List.mem_filter.1 hg
      have h3 := (I.lowTy c g h1).1 (by omega)
      rw [(O.keep g (by simpa using (Bool.and_eq_true_iff.1 h2).2) (I.lowLive h1).1).2.2 (Or.inr (by omega))]
    · unfold edgesOf
      simp [A.shown, List.mem_filter, he]
  rw [s1, s2]
  by_cases h1 : e ∈ edgesOf T f
  · left; rw [k1 h1, if_pos h1]
  · rw [if_neg h1]
    by_cases h2 : e ∈ edges
    · rcases k2 h1 h2 with h | h
      · right; exact ⟨h2, h1, by rw [h]⟩
      · left; rw [h]
    · left; rw [k3 h1 h2]

/-- C87: a closed cell stays closed, if the given edges are not yet among its edges. -/
theorem C87_closed (c : El) (hc : c ∈ T.cellsOf f)
    (hcl : ∀ e, T.hid e = false → facesAt T c e = 0 ∨ facesAt T c e = 2)
    (hnew : ∀ e ∈ edges, e ∉ edgesOf T f → facesAt T c e = 0) (e : El) (he : T.hid e = false) :
    facesAt T' c e = 0 ∨ facesAt T' c e = 2 := by
  rcases C87_cells r A hin hfar h c e hc he with k | ⟨k1, k2, k3⟩
  · rw [k]; exact hcl e he
  · rw [k3, hnew e k1 k2]; exact Or.inr rfl

/-- C87: the rest of the mesh does not change: no element disappears but the face, no element appears but the
returned faces, edges and faces keep their boundary, and so do other cells. -/
theorem C87_elsewhere :
    (∀ x, x ≠ f → T.alive x = true → T'.alive x = true ∧ T'.hid x = T.hid x) ∧
    (∀ x, T'.alive x = true → T'.hid x = false → (x ≠ f ∧ T.alive x = true) ∨ x ∈ ret) ∧
    (∀ x, x ≠ f → T.alive x = true → x.ty = 1 ∨ x.ty = 2 → T'.low x = T.low x) ∧
    (∀ c, c.ty = 3 → T.alive c = true → c ∉ T.cellsOf f → T'.low c = T.low c) ∧
    ∀ c ∈ T.cellsOf f, ∀ g, g ∉ ret → g ≠ f → (g ∈ T'.low c ∧ T'.hid g = false ↔ g ∈ T.low c ∧ T.hid g = false) := by
  obtain ⟨cnodes, ls, hcn, hl, hr, O⟩ := face_out' r A hin hfar h
  refine ⟨fun x h1 h2 => ⟨(O.keep x h1 h2).1, (O.keep x h1 h2).2.1⟩, fun x h1 h2 => ?_,
    fun x h1 h2 h3 => (O.keep x h1 h2).2.2 h3, O.cells, fun c hc g h1 h2 => ?_⟩
  · rcases O.back x h1 with k | k | ⟨rfl, k⟩
    · exact Or.inl k
    · exact Or.inr k
    · rw [k] at h2; cases h2
  · obtain ⟨l0, e1, e2⟩ := O.cell c hc
    have h3 : g ∈ l0.filter (fun x => !T'.hid x) ↔ g ∈ (T.low c).filter fun x => !T.hid x && decide (x ≠ f) := by rw [e2]
    rw [List.mem_filter, List.mem_filter] at h3
    rw [e1, List.mem_append]
    simp only [h1, or_false]
    simpa [h2] using h3

/-- C87: with cell-node connections the cells get the nodes of the given edges that are not in the boundary of the
face. -/
theorem C87_nodes (c n : El) (hc : c ∈ T.cellsOf f) :
    n ∈ T'.high c ↔ n ∈ T.high c ∨ (T.cn = true ∧ (∃ e ∈ edges, n ∈ T.low e) ∧ ∀ e' ∈ edgesOf T f, n ∉ T.low e') := by
  obtain ⟨cnodes, ls, hcn, hl, hr, O⟩ := face_out' r A hin hfar h
  obtain ⟨-, k⟩ := A.newNodes hcn
  rw [O.cnode c hc, List.mem_append]
  by_cases hcn' : T.cn = true
  · rw [if_pos hcn', k]
  · rw [if_neg hcn']; simp [hcn']

end

/-! ## Concrete meshes -/

/-- All edges have length one. -/
def unit : Incident.Meas El Int := Incident.Meas.exact (fun _ => 1) 0 1000

theorem unit_far (inner outer : List El) : Incident.Far unit inner outer := by
  intro l _ _
  exact decide_eq_false (not_lt.2 (abs_nonneg _))

/-- Decidable forms of the conditions about the edges. -/
theorem ends_of {L M : List El} (h : ∀ e ∈ L ++ M, ∃ a ∈ T.low e, ∃ b ∈ T.low e, a ≠ b ∧ T.low e = [a, b] ∧ T.hid a = false ∧
    T.hid b = false) (e : El) (he : e ∈ L ∨ e ∈ M) :
    ∃ a b, a ≠ b ∧ T.low e = [a, b] ∧ T.hid a = false ∧ T.hid b = false := by
  obtain ⟨a, -, b, -, k⟩ := h e (List.mem_append.2 he)
  exact ⟨a, b, k⟩

theorem apart_of {L M : List El} (h : ∀ e ∈ L ++ M, ∀ e' ∈ L ++ M, (∀ n ∈ T.low e, n ∈ T.low e') → e = e') (e e' : El)
    (h1 : e ∈ L ∨ e ∈ M) (h2 : e' ∈ L ∨ e' ∈ M) (hs : ∀ n, n ∈ T.low e ↔ n ∈ T.low e') : e = e' :=
  h e (List.mem_append.2 h1) e' (List.mem_append.2 h2) fun n hn => (hs n).1 hn

theorem others_of {l : List El} (h : ∀ c ∈ T.cellsOf f, ∀ g ∈ T.low c, g = f ∨ T.hid g = true ∨
      (edgesOf T g).any (fun e => decide (e ∉ l) && decide (e ∉ edgesOf T f)) = true) (c : El) (hc : c ∈ T.cellsOf f) (g : El)
    (hg : g ∈ T.low c) (hgf : g ≠ f) (hv : T.hid g = false) : ∃ e ∈ edgesOf T g, e ∉ l ∧ e ∉ edgesOf T f := by
  rcases h c hc g hg with k | k | k
  · exact absurd k hgf
  · rw [k] at hv; cases hv
  · obtain ⟨e, h1, h2⟩ := List.any_eq_true.1 k
    exact ⟨e, h1, by simpa using h2⟩

theorem facesAt_of {c : El} (h : ∀ e ∈ (T.low c).flatMap T.low, facesAt T c e = 0 ∨ facesAt T c e = 2) (e : El) :
    facesAt T c e = 0 ∨ facesAt T c e = 2 := by
  by_cases he : e ∈ (T.low c).flatMap T.low
  · exact h e he
  · left
    unfold facesAt
    rw [List.countP_eq_zero]
    intro g hg hm
    exact he (List.mem_flatMap.2 ⟨g, (List.mem_filter.1 hg).1, by simpa using hm⟩)

/-- The faces of a concrete mesh. -/
theorem faces_of (r : Reach cn T) {n : Nat} (hn : T.last 2 = n) {P : El → Prop} (h : ∀ i < n, P (fc i)) (g : El)
    (hg : T.alive g = true) (h2 : g.ty = 2) : P g := by
  obtain ⟨ty, id⟩ := g
  simp only at h2
  subst h2
  have := (reach_inv r).1.lastLt _ hg
  exact h id (by rw [hn] at this; exact this)

/-- A pyramid over a square with the diagonal `ed 8`. -/
def pyr : Topo := (build (Topo.init true) [(0, 0, [], []), (0, 1, [], []), (0, 2, [], []), (0, 3, [], []), (0, 4, [], []),
  (1, 0, [nd 0, nd 1], []), (1, 1, [nd 1, nd 2], []), (1, 2, [nd 2, nd 3], []), (1, 3, [nd 3, nd 0], []),
  (1, 4, [nd 0, nd 4], []), (1, 5, [nd 1, nd 4], []), (1, 6, [nd 2, nd 4], []), (1, 7, [nd 3, nd 4], []),
  (1, 8, [nd 0, nd 2], []), (2, 0, [ed 0, ed 1, ed 2, ed 3], []), (2, 1, [ed 0, ed 5, ed 4], []),
  (2, 2, [ed 1, ed 6, ed 5], []), (2, 3, [ed 2, ed 7, ed 6], []), (2, 4, [ed 3, ed 4, ed 7], []),
  (3, 0, [fc 0, fc 1, fc 2, fc 3, fc 4], [nd 0, nd 1, nd 2, nd 3, nd 4])]).get (by decide +kernel)

theorem reach_pyr : Reach true pyr := build_reach _ _ _ .init (getEq _)

def pyr1 : Topo × List El := (splitFace unit (fun _ _ => false) pyr true false (fc 0) [ed 8] [5, 6]).get (by decide +kernel)

/-- The corners of the faces. -/
def pyrCorners : Nat → List El
  | 0 => [nd 0, nd 1, nd 2, nd 3]
  | 1 => [nd 0, nd 1, nd 4]
  | 2 => [nd 1, nd 2, nd 4]
  | 3 => [nd 2, nd 3, nd 4]
  | _ => [nd 3, nd 0, nd 4]

theorem args_pyr : FaceArgs pyr true (fc 0) [ed 8] := by
  refine ⟨rfl, by decide +kernel, by decide +kernel, by decide +kernel, by decide +kernel,
    ⟨[nd 0, nd 1, nd 2, nd 3], loop_of (by decide +kernel) (by decide +kernel) (by decide +kernel), by decide +kernel⟩,
    ends_of (by decide +kernel), apart_of (by decide +kernel), by decide +kernel, fun _ g hg h2 _ => ?_,
    fun _ => others_of (by decide +kernel)⟩
  refine faces_of reach_pyr (n := 5) (by decide +kernel) (P := fun g => ∃ ns, Loop pyr (edgesOf pyr g) ns ∧ ns.Nodup) ?_ g hg h2
  intro i hi
  refine ⟨pyrCorners i, ?_⟩
  interval_cases i <;>
    exact ⟨loop_of (by decide +kernel) (by decide +kernel) (by decide +kernel), by decide +kernel⟩

theorem pyr1_eq : splitFace unit (fun _ _ => false) pyr true false (fc 0) [ed 8] [5, 6] = some pyr1 := getEq _

/-- The square is replaced by two triangles; the number of the square is not used again here. -/
example : pyr1.2 = [fc 5, fc 6] ∧ pyr1.1.low (fc 5) = [ed 0, ed 8, ed 1] ∧ pyr1.1.low (fc 6) = [ed 8, ed 3, ed 2] ∧
    pyr1.1.low ⟨3, 0⟩ = [fc 1, fc 2, fc 3, fc 4, fc 5, fc 6] ∧ facesAt pyr ⟨3, 0⟩ (ed 8) = 0 ∧
    facesAt pyr1.1 ⟨3, 0⟩ (ed 8) = 2 := by decide +kernel

/-- The theorems applied to this mesh. -/
example : Reach true pyr1.1 := C87_reach reach_pyr args_pyr (by decide +kernel) (unit_far _ _) pyr1_eq
example : pyr1.2.Nodup := (C87_faces reach_pyr args_pyr (by decide +kernel) (unit_far _ _) pyr1_eq).1
example := C87_cover reach_pyr args_pyr (by decide +kernel) (unit_far _ _) pyr1_eq (ed 8) (by decide +kernel)
example := C87_cells reach_pyr args_pyr (by decide +kernel) (unit_far _ _) pyr1_eq ⟨3, 0⟩ (ed 8) (by decide +kernel)
  (by decide +kernel)
example := C87_closed reach_pyr args_pyr (by decide +kernel) (unit_far _ _) pyr1_eq ⟨3, 0⟩ (by decide +kernel)
  (fun e _ => facesAt_of (by decide +kernel) e) (by decide +kernel)
example := C87_elsewhere reach_pyr args_pyr (by decide +kernel) (unit_far _ _) pyr1_eq
example := C87_nodes reach_pyr args_pyr (by decide +kernel) (unit_far _ _) pyr1_eq ⟨3, 0⟩ (nd 2) (by decide +kernel)

end Verif.Split
