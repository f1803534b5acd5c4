import Verif.Search.Inside
import Mathlib.Tactic.Tauto
import Mathlib.Data.List.Nodup
import Mathlib.Algebra.Field.Rat
import Mathlib.Algebra.Order.Ring.Rat

/-!
# Orientation of faces in the test whether a point is inside of a cell (C158)

Models the part of `Cell::Inside` that finds the orientation of faces when it was not computed before, `/repo/Source/Mesh/geometry.cpp` L371-489. The reference `cur_edges` (L387) is bound to the edges
of the first face before the loop and is not bound again, so the loop of L409-433 goes around the first face in each turn.

Simplifications: markers are functions from handles to `Bool`. A face with less than two edges is an access out of range, `none`. The nodes `n1`, `n2` after the last edge of a face are not used by
the code and left out.
-/

namespace Verif.Search.Orient

/-- Connections of a mesh: nodes of edges, edges of faces, faces of edges. -/
structure Topo where
  beg : Nat → Nat
  fin : Nat → Nat
  edges : Nat → List Nat
  faces : Nat → List Nat

/-- The first node and the second, L391-407 and L442-459. -/
def start (T : Topo) : List Nat → Option (Nat × Nat)
  | e0 :: e1 :: _ => some (if T.beg e0 = T.beg e1 ∨ T.beg e0 = T.fin e1 then (T.fin e0, T.beg e0) else (T.beg e0, T.fin e0))
  | _ => none

/-- The next node, L426-432 and L478-483. -/
def other (T : Topo) (en n2 : Nat) : Nat := if n2 = T.beg en then T.fin en else T.beg en

/-- Edges with `n1` and `n2` in the turns of the loops of L409-433 and L461-484. -/
def walk (T : Topo) : List Nat → Nat → Nat → List (Nat × Nat × Nat)
  | [], _, _ => []
  | [e], n1, n2 => [(e, n1, n2)]
  | e :: en :: r, n1, n2 => (e, n1, n2) :: walk T (en :: r) n2 (other T en n2)

/-- `orient_face`, L14-23 -/
structure Entry where
  bridge : Nat
  first : Nat
  face : Nat
deriving DecidableEq

/-- L418-422 for one face of one edge. -/
def visit (s : (Nat → Bool) × List Entry) (x : Entry) : (Nat → Bool) × List Entry :=
  if s.1 x.face then (fun y => if y = x.face then false else s.1 y, s.2 ++ [x]) else s

/-- The faces of edges in the order of the loops of L409 and L416. -/
def around (T : Topo) (reverse : Bool) (w : List (Nat × Nat × Nat)) : List Entry :=
  w.flatMap fun t => (T.faces t.1).map fun f => ⟨t.1, if reverse then t.2.2 else t.2.1, f⟩

/-- The loop of L461-484: whether the face is to be reversed. -/
def same (bridge first : Nat) : List (Nat × Nat × Nat) → Bool
  | [] => false
  | (e, n1, _) :: r => if e = bridge then decide (first = n1) else same bridge first r

/-- The loop of L389-485. -/
def orientLoop (T : Topo) (cur : Nat) : Nat → (Nat → Bool) × List Entry → Bool → (Nat → Bool) → Option (Nat → Bool)
  | 0, _, _, _ => none
  | n + 1, s, reverse, rev =>
    match start T (T.edges cur) with
    | none => none
    | some (n1, n2) =>
      match (around T reverse (walk T (T.edges cur) n1 n2)).foldl visit s with
      | (_, []) => some rev
      | (m, r :: st) =>
        match start T (T.edges r.face) with
        | none => none
        | some (m1, m2) =>
          let reverse := same r.bridge r.first (walk T (T.edges r.face) m1 m2)
          orientLoop T cur n (m, st) reverse (if reverse then fun y => if y = r.face then true else rev y else rev)

/-- The marker `rev` for the faces `data` of a cell, L371-489. -/
def orient (T : Topo) (n : Nat) (data : List Nat) : Option (Nat → Bool) :=
  match data with
  | [] => none
  | cur :: _ => orientLoop T cur n (fun y => decide (y ∈ data ∧ y ≠ cur), []) false fun _ => false

/-! ## Specification -/

/-- The edges of the face `f` join consecutive nodes of the closed chain `vs`. -/
structure Polygon (T : Topo) (f : Nat) (vs : List Nat) : Prop where
  size : vs.length = (T.edges f).length
  three : 3 ≤ vs.length
  nodup : vs.Nodup
  joins : ∀ i (h : i < (T.edges f).length) (a b : Nat), vs[i]? = some a → vs[(i + 1) % vs.length]? = some b →
    (T.beg (T.edges f)[i] = a ∧ T.fin (T.edges f)[i] = b) ∨ (T.beg (T.edges f)[i] = b ∧ T.fin (T.edges f)[i] = a)

/-- The face with nodes `vs` goes along the edge `e` from the node `a`. -/
def GoesFrom (T : Topo) (f : Nat) (vs : List Nat) (e a : Nat) : Prop := ∃ i : Nat, (T.edges f)[i]? = some e ∧ vs[i]? = some a

/-! ## Lemmas -/

theorem walk_spec (T : Topo) : ∀ (es vs : List Nat) (n1 n2 : Nat), vs.length = es.length + 1 → vs[0]? = some n1 → vs[1]? = some n2 →
    (∀ i, i + 1 < vs.length → vs[i]? ≠ vs[i + 1]?) →
    (∀ i (h : i < es.length) (a b : Nat), vs[i]? = some a → vs[i + 1]? = some b → (T.beg es[i] = a ∧ T.fin es[i] = b) ∨ (T.beg es[i] = b ∧ T.fin es[i] = a)) →
    (walk T es n1 n2).length = es.length ∧ ∀ i (h : i < es.length), ∃ b, (walk T es n1 n2)[i]? = some (es[i], vs[i]?.getD 0, b)
  | [], vs, n1, n2, _, _, _, _, _ => by simp [walk]
  | [e], vs, n1, n2, hl, h0, h1, _, _ => by
    refine ⟨rfl, fun i h => ?_⟩
    have : i = 0 := by simpa using h
    subst this
    exact ⟨n2, by simp [walk, h0]⟩
  | e :: en :: r, vs, n1, n2, hl, h0, h1, hn, hj => by
    cases vs with
    | nil => simp at h0
    | cons v0 vs =>
      simp only [List.length_cons] at hl
      have l3 : 2 < (v0 :: vs).length := by simp; omega
      obtain ⟨n3, e3⟩ : ∃ n3, vs[1]? = some n3 := ⟨_, List.getElem?_eq_getElem (by simp at l3; omega)⟩
      have j1 := hj 1 (by simp) n2 n3 h1 (by simpa using e3)
      have d := hn 1 (by simp at l3 ⊢; omega)
      rw [h1] at d
      have d' : n2 ≠ n3 := by
        intro q; subst q; apply d; simpa using e3.symm
      have o : other T en n2 = n3 := by
        simp only [List.getElem_cons_succ, List.getElem_cons_zero] at j1
        rw [other]
        rcases j1 with ⟨p, q⟩ | ⟨p, q⟩
        · rw [if_pos p.symm, q]
        · rw [if_neg (by rw [p]; exact d'), p]
      have ih := walk_spec T (en :: r) vs n2 n3 (by simp; omega) (by simpa using h1) e3
        (fun i hi => by simpa using hn (i + 1) (by simp; omega))
        (fun i h a b ha hb => hj (i + 1) (Nat.succ_lt_succ h) a b (by simpa using ha) (by simpa using hb))
      rw [walk, o]
      refine ⟨by simp [ih.1], fun i h => ?_⟩
      cases i with
      | zero =>
        have h0' : v0 = n1 := by simpa using h0
        exact ⟨n2, by simp [h0']⟩
      | succ i =>
        obtain ⟨b, hb⟩ := ih.2 i (by simpa using h)
        exact ⟨b, by simpa using hb⟩

theorem polygon_walk {T : Topo} {f : Nat} {vs : List Nat} (h : Polygon T f vs) :
    ∃ n1 n2, start T (T.edges f) = some (n1, n2) ∧ (walk T (T.edges f) n1 n2).length = (T.edges f).length ∧
      ∀ i (hi : i < (T.edges f).length), ∃ b, (walk T (T.edges f) n1 n2)[i]? = some ((T.edges f)[i], vs[i]?.getD 0, b) := by
  have sz := h.size
  have th := h.three
  have nd := h.nodup
  have jo := h.joins
  generalize T.edges f = es at *
  match vs, th with
  | v0 :: v1 :: v2 :: r, _ =>
    match es, sz with
    | e0 :: e1 :: e2 :: er, sz =>
      have len : (v0 :: v1 :: v2 :: r).length = r.length + 3 := rfl
      have j0 := jo 0 (by simp) v0 v1 (by simp) (by rw [len, Nat.mod_eq_of_lt (by omega)]; simp)
      have j1 := jo 1 (by simp) v1 v2 (by simp) (by rw [len, Nat.mod_eq_of_lt (by omega)]; simp)
      simp only [List.getElem_cons_zero, List.getElem_cons_succ] at j0 j1
      simp only [List.nodup_cons, List.mem_cons, not_or] at nd
      have st : start T (e0 :: e1 :: e2 :: er) = some (v0, v1) := by
        rw [start]
        rcases j0 with ⟨p, q⟩ | ⟨p, q⟩ <;> rcases j1 with ⟨p', q'⟩ | ⟨p', q'⟩ <;> simp [p, q, p', q', nd.1.1, nd.1.2.1]
      refine ⟨v0, v1, st, ?_⟩
      have nd' := h.nodup
      have w := walk_spec T (e0 :: e1 :: e2 :: er) ((v0 :: v1 :: v2 :: r) ++ [v0]) v0 v1 (by simp at sz ⊢; omega) (by simp) (by simp) ?_ ?_
      · refine ⟨w.1, fun i hi => ?_⟩
        obtain ⟨b, hb⟩ := w.2 i hi
        refine ⟨b, ?_⟩
        rw [List.getElem?_append_left (by rw [sz]; exact hi)] at hb
        exact hb
      · intro i hi
        rw [List.length_append, List.length_singleton] at hi
        by_cases g : i + 1 < (v0 :: v1 :: v2 :: r).length
        · rw [List.getElem?_append_left (by omega), List.getElem?_append_left g, List.getElem?_eq_getElem (by omega), List.getElem?_eq_getElem g]
          intro q
          have := (List.Nodup.getElem_inj_iff nd').1 (Option.some.inj q)
          omega
        · have gi : i = (v0 :: v1 :: v2 :: r).length - 1 := by omega
          rw [List.getElem?_append_left (by omega), List.getElem?_append_right (by omega), List.getElem?_eq_getElem (by omega)]
          rw [show i + 1 - (v0 :: v1 :: v2 :: r).length = 0 by omega]
          simp only [List.getElem?_cons_zero]
          intro q
          have q' : (v0 :: v1 :: v2 :: r)[i]'(by omega) = (v0 :: v1 :: v2 :: r)[0]'(by simp) := Option.some.inj q
          have := (List.Nodup.getElem_inj_iff nd').1 q'
          omega
      · intro i hi a b ha hb
        rw [← sz] at hi
        rw [List.getElem?_append_left hi] at ha
        refine jo i (by rw [← sz]; exact hi) a b ha ?_
        by_cases g : i + 1 < (v0 :: v1 :: v2 :: r).length
        · rw [List.getElem?_append_left g] at hb
          rw [Nat.mod_eq_of_lt g]; exact hb
        · have gi : i + 1 = (v0 :: v1 :: v2 :: r).length := by omega
          rw [gi, List.getElem?_append_right (by omega), Nat.sub_self] at hb
          rw [gi, Nat.mod_self]
          simpa using hb

theorem visit_all : ∀ (D : List Entry) (m : Nat → Bool) (st : List Entry), ∃ new, (D.foldl visit (m, st)).2 = st ++ new ∧ (new.map Entry.face).Nodup ∧
    (∀ x ∈ new, x ∈ D ∧ m x.face = true) ∧ (∀ x ∈ D, m x.face = true → x.face ∈ new.map Entry.face) ∧
    ∀ y, (D.foldl visit (m, st)).1 y = true ↔ m y = true ∧ y ∉ D.map Entry.face
  | [], m, st => ⟨[], by simp⟩
  | x :: D, m, st => by
    rw [List.foldl_cons, visit]
    by_cases g : m x.face = true
    · simp only [g, if_true]
      obtain ⟨new, h1, h2, h3, h4, h5⟩ := visit_all D (fun y => if y = x.face then false else m y) (st ++ [x])
      refine ⟨x :: new, by rw [h1]; simp, ?_, ?_, ?_, ?_⟩
      · rw [List.map_cons, List.nodup_cons]
        refine ⟨fun q => ?_, h2⟩
        obtain ⟨z, hz, e⟩ := List.mem_map.1 q
        have := (h3 z hz).2
        simp [e] at this
      · intro z hz
        rcases List.mem_cons.1 hz with rfl | hz
        · exact ⟨by simp, g⟩
        · have := h3 z hz
          refine ⟨List.mem_cons_of_mem _ this.1, ?_⟩
          have q := this.2
          by_cases e : z.face = x.face
          · simp [e] at q
          · simpa [e] using q
      · intro z hz mz
        by_cases e : z.face = x.face
        · rw [List.map_cons, e]; simp
        · rcases List.mem_cons.1 hz with rfl | hz
          · exact absurd rfl e
          · rw [List.map_cons]
            exact List.mem_cons_of_mem _ (h4 z hz (by simpa [e] using mz))
      · intro y
        rw [h5]
        by_cases e : y = x.face
        · simp [e]
        · simp [e]
    · simp only [g, if_false, Bool.false_eq_true]
      obtain ⟨new, h1, h2, h3, h4, h5⟩ := visit_all D m st
      refine ⟨new, h1, h2, fun z hz => ⟨List.mem_cons_of_mem _ (h3 z hz).1, (h3 z hz).2⟩, ?_, ?_⟩
      · intro z hz mz
        rcases List.mem_cons.1 hz with rfl | hz
        · exact absurd mz g
        · exact h4 z hz mz
      · intro y
        rw [h5, List.map_cons, List.mem_cons, not_or]
        constructor
        · rintro ⟨a, b⟩
          exact ⟨a, fun q => g (q ▸ a), b⟩
        · rintro ⟨a, _, b⟩
          exact ⟨a, b⟩

theorem visit_none : ∀ (D : List Entry) (s : (Nat → Bool) × List Entry), (∀ x ∈ D, s.1 x.face = false) → D.foldl visit s = s
  | [], s, _ => rfl
  | x :: D, s, h => by
    rw [List.foldl_cons]
    have : visit s x = s := by simp [visit, h x (by simp)]
    rw [this]
    exact visit_none D s fun y hy => h y (by simp [hy])

/-- the comparison for one entry -/
def flip (T : Topo) (r : Entry) : Bool :=
  match start T (T.edges r.face) with
  | none => false
  | some (m1, m2) => same r.bridge r.first (walk T (T.edges r.face) m1 m2)

theorem loop_spec (T : Topo) (cur : Nat) {n1 n2 : Nat} (hs : start T (T.edges cur) = some (n1, n2)) (m : Nat → Bool)
    (hm : ∀ y, m y = true → ∀ t ∈ walk T (T.edges cur) n1 n2, y ∉ T.faces t.1) : ∀ (st : List Entry) (n : Nat) (reverse : Bool) (rev : Nat → Bool), st.length < n →
    (∀ x ∈ st, ∃ a, start T (T.edges x.face) = some a) →
    ∃ rev', orientLoop T cur n (m, st) reverse rev = some rev' ∧ ∀ y, rev' y = true ↔ rev y = true ∨ ∃ x ∈ st, x.face = y ∧ flip T x = true
  | st, 0, reverse, rev, hn, _ => by omega
  | st, n + 1, reverse, rev, hn, hst => by
    have none : (around T reverse (walk T (T.edges cur) n1 n2)).foldl visit (m, st) = (m, st) := by
      apply visit_none
      intro x hx
      simp only [around, List.mem_flatMap, List.mem_map] at hx
      obtain ⟨t, ht, f, hf, rfl⟩ := hx
      cases g : m f with
      | false => exact g
      | true => exact absurd hf (hm f g t ht)
    cases st with
    | nil => exact ⟨rev, by simp [orientLoop, hs, none], by simp⟩
    | cons r st =>
      obtain ⟨⟨m1, m2⟩, hr⟩ := hst r (by simp)
      have fl : flip T r = same r.bridge r.first (walk T (T.edges r.face) m1 m2) := by simp [flip, hr]
      obtain ⟨rev', h1, h2⟩ := loop_spec T cur hs m hm st n (flip T r) (if flip T r then fun y => if y = r.face then true else rev y else rev)
        (by simp at hn; omega) (fun x hx => hst x (by simp [hx]))
      refine ⟨rev', by rw [orientLoop, hs]; simp only [none, hr, ← fl]; exact h1, fun y => ?_⟩
      rw [h2]
      simp only [List.mem_cons, exists_eq_or_imp]
      cases g : flip T r with
      | false => simp
      | true =>
        by_cases e : y = r.face
        · simp [e]
        · have e' : r.face ≠ y := fun q => e q.symm
          simp [e, e']

theorem same_spec {bridge first : Nat} : ∀ (w : List (Nat × Nat × Nat)), (∃ (i : Nat) (t : Nat × Nat × Nat), w[i]? = some t ∧ t.1 = bridge) →
    ∃ (i : Nat) (t : Nat × Nat × Nat), w[i]? = some t ∧ t.1 = bridge ∧ (same bridge first w = true ↔ first = t.2.1)
  | [], h => by simp at h
  | (e, a, b) :: r, h => by
    by_cases g : e = bridge
    · exact ⟨0, (e, a, b), rfl, g, by simp [same, g]⟩
    · obtain ⟨i, t, h1, h2⟩ := h
      cases i with
      | zero => simp at h1; subst h1; exact absurd h2 g
      | succ i =>
        obtain ⟨j, t', g1, g2, g3⟩ := same_spec (bridge := bridge) (first := first) r ⟨i, t, by simpa using h1, h2⟩
        exact ⟨j + 1, t', by simpa using g1, g2, by rw [same, if_neg g]; exact g3⟩

/-! ## C158 -/

/-- For faces that are closed chains of edges: the code returns a marker; each other face that shares an edge with the first is marked exactly if along a shared edge both faces go from the same node
(so that with the marked faces reversed all neighbours of the first face agree with it); no face that shares no edge with the first is marked. -/
theorem C158_neighbours_partial (T : Topo) (cur : Nat) (rest : List Nat) (vs : Nat → List Nat) (hp : ∀ f ∈ cur :: rest, Polygon T f (vs f))
    (hm : ∀ f ∈ cur :: rest, ∀ e, f ∈ T.faces e ↔ e ∈ T.edges f) :
    ∃ rev N, (∀ n, N ≤ n → orient T n (cur :: rest) = some rev) ∧
      (∀ f ∈ rest, f ≠ cur → (∃ e, e ∈ T.edges cur ∧ e ∈ T.edges f) →
        ∃ e a b, GoesFrom T cur (vs cur) e a ∧ GoesFrom T f (vs f) e b ∧ (rev f = true ↔ a = b)) ∧
      ∀ f, (f ∉ rest ∨ f = cur ∨ ¬ ∃ e, e ∈ T.edges cur ∧ e ∈ T.edges f) → rev f = false := by
  obtain ⟨n1, n2, hs, wl, wi⟩ := polygon_walk (hp cur (by simp))
  have wm : ∀ t ∈ walk T (T.edges cur) n1 n2, ∃ i : Nat, (T.edges cur)[i]? = some t.1 ∧ (vs cur)[i]? = some t.2.1 := by
    intro t ht
    obtain ⟨i, hi, e⟩ := List.mem_iff_getElem.1 ht
    obtain ⟨b, hb⟩ := wi i (by omega)
    rw [List.getElem?_eq_getElem hi, e] at hb
    have q := Option.some.inj hb
    subst q
    have sz := (hp cur (by simp)).size
    exact ⟨i, by simp [wl ▸ hi], by rw [List.getElem?_eq_getElem (by omega)]; simp⟩
  have we : ∀ e ∈ T.edges cur, ∃ t ∈ walk T (T.edges cur) n1 n2, t.1 = e := by
    intro e he
    obtain ⟨i, hi, q⟩ := List.mem_iff_getElem.1 he
    obtain ⟨b, hb⟩ := wi i hi
    exact ⟨_, List.mem_of_getElem? hb, q⟩
  let m0 : Nat → Bool := fun y => decide (y ∈ cur :: rest ∧ y ≠ cur)
  obtain ⟨new, v1, v2, v3, v4, v5⟩ := visit_all (around T false (walk T (T.edges cur) n1 n2)) m0 []
  rw [List.nil_append] at v1
  have m0s : ∀ y, m0 y = true ↔ y ∈ rest ∧ y ≠ cur := by intro y; simp [m0]; tauto
  have am : ∀ x, x ∈ around T false (walk T (T.edges cur) n1 n2) ↔ ∃ t ∈ walk T (T.edges cur) n1 n2, x.face ∈ T.faces t.1 ∧ x.bridge = t.1 ∧ x.first = t.2.1 := by
    intro x
    simp only [around, List.mem_flatMap, List.mem_map]
    constructor
    · rintro ⟨t, ht, f, hf, rfl⟩; exact ⟨t, ht, hf, rfl, rfl⟩
    · rintro ⟨t, ht, hf, e1, e2⟩; exact ⟨t, ht, x.face, hf, by cases x; simp at e1 e2; simp [e1, e2]⟩
  have newMem : ∀ x ∈ new, x.face ∈ rest ∧ x.face ≠ cur ∧ ∃ t ∈ walk T (T.edges cur) n1 n2, x.face ∈ T.faces t.1 ∧ x.bridge = t.1 ∧ x.first = t.2.1 := by
    intro x hx
    have := v3 x hx
    exact ⟨((m0s _).1 this.2).1, ((m0s _).1 this.2).2, (am x).1 this.1⟩
  obtain ⟨m', sm⟩ : ∃ m', (around T false (walk T (T.edges cur) n1 n2)).foldl visit (m0, []) = (m', new) := ⟨_, by rw [← v1]⟩
  rw [sm] at v5
  simp only at v5
  have hm' : ∀ y, m' y = true → ∀ t ∈ walk T (T.edges cur) n1 n2, y ∉ T.faces t.1 := by
    intro y hy t ht hf
    refine ((v5 y).1 hy).2 (List.mem_map.2 ⟨⟨t.1, t.2.1, y⟩, (am _).2 ⟨t, ht, hf, rfl, rfl⟩, rfl⟩)
  have starts : ∀ x ∈ new, ∃ a, start T (T.edges x.face) = some a := by
    intro x hx
    obtain ⟨a, b, h, _⟩ := polygon_walk (hp x.face (List.mem_cons_of_mem _ (newMem x hx).1))
    exact ⟨_, h⟩
  have again : (around T false (walk T (T.edges cur) n1 n2)).foldl visit (m', new) = (m', new) := by
    apply visit_none
    intro x hx
    obtain ⟨t, ht, hf, _⟩ := (am x).1 hx
    cases g : m' x.face with
    | false => exact g
    | true => exact absurd hf (hm' _ g t ht)
  have first : ∀ n, orient T n (cur :: rest) = orientLoop T cur n (m', new) false fun _ => false := by
    intro n
    cases n with
    | zero => rfl
    | succ n => rw [orient, orientLoop, orientLoop, hs]; simp only [again]; rw [show (fun y => decide (y ∈ cur :: rest ∧ y ≠ cur)) = m0 from rfl, sm]
  obtain ⟨rev, r1, r2⟩ := loop_spec T cur hs m' hm' new (new.length + 1) false (fun _ => false) (by omega) starts
  have r2' : ∀ y, rev y = true ↔ ∃ x ∈ new, x.face = y ∧ flip T x = true := by intro y; rw [r2]; simp
  refine ⟨rev, new.length + 1, fun n hn => ?_, ?_, ?_⟩
  · rw [first]
    obtain ⟨rev', q1, q2⟩ := loop_spec T cur hs m' hm' new n false (fun _ => false) (by omega) starts
    rw [q1]
    congr 1
    funext y
    rw [Bool.eq_iff_iff, q2, r2]
  · rintro f hf hne ⟨e, he, hef⟩
    have hfm := List.mem_cons_of_mem cur hf
    obtain ⟨t, ht, q⟩ := we e he
    have inNew := v4 ⟨t.1, t.2.1, f⟩ ((am _).2 ⟨t, ht, by rw [q]; exact (hm f hfm e).2 hef, rfl, rfl⟩) ((m0s f).2 ⟨hf, hne⟩)
    obtain ⟨x, hx, xf⟩ := List.mem_map.1 inNew
    simp only at xf
    obtain ⟨_, _, t', ht', f1, f2, f3⟩ := newMem x hx
    obtain ⟨a1, a2, k1, k2, k3⟩ := polygon_walk (hp f hfm)
    have br : x.bridge ∈ T.edges f := by rw [f2]; rw [xf] at f1; exact (hm f hfm _).1 f1
    obtain ⟨j, hj, qj⟩ := List.mem_iff_getElem.1 br
    obtain ⟨b, hb⟩ := k3 j hj
    obtain ⟨j', t'', g1, g2, g3⟩ := same_spec (bridge := x.bridge) (first := x.first) (walk T (T.edges f) a1 a2) ⟨j, _, hb, qj⟩
    obtain ⟨i, i1, i2⟩ := wm t' ht'
    have hj' : j' < (T.edges f).length := by
      rw [← k2]
      exact (List.getElem?_eq_some_iff.1 g1).1
    obtain ⟨b', hb'⟩ := k3 j' hj'
    rw [g1] at hb'
    have eq := Option.some.inj hb'
    have szf := (hp f hfm).size
    have gf : GoesFrom T f (vs f) x.bridge t''.2.1 := by
      refine ⟨j', ?_, ?_⟩
      · rw [List.getElem?_eq_getElem hj', ← g2, eq]
      · rw [List.getElem?_eq_getElem (by omega), eq, List.getElem?_eq_getElem (by omega)]; rfl
    refine ⟨x.bridge, x.first, t''.2.1, ⟨i, by rw [i1, f2], by rw [i2, f3]⟩, gf, ?_⟩
    have fx : flip T x = same x.bridge x.first (walk T (T.edges f) a1 a2) := by simp [flip, xf, k1]
    rw [r2', ← g3, ← fx]
    constructor
    · rintro ⟨z, hz, zf, fz⟩
      have : z = x := by
        have inj := List.inj_on_of_nodup_map v2
        exact inj hz hx (by rw [zf, xf])
      rw [← this]; exact fz
    · intro h; exact ⟨x, hx, xf, h⟩
  · intro f hf
    cases g : rev f with
    | false => rfl
    | true =>
      exfalso
      obtain ⟨x, hx, rfl, _⟩ := (r2' f).1 g
      obtain ⟨c1, c2, t, ht, d1, _⟩ := newMem x hx
      obtain ⟨i, i1, _⟩ := wm t ht
      rcases hf with h | h | h
      · exact h c1
      · exact c2 h
      · exact h ⟨t.1, List.mem_of_getElem? i1, (hm _ (List.mem_cons_of_mem _ c1) _).1 d1⟩

/-! ## A cube -/

/-- Nodes of the faces of the cube with node `4 z + 2 y + x` at `(x, y, z)`; all but the last (the one opposite to the first) turn around the outward normal. -/
def cubeNodes (f : Nat) : List Nat :=
  if f = 0 then [0, 2, 3, 1] else if f = 1 then [0, 1, 5, 4] else if f = 2 then [1, 3, 7, 5] else if f = 3 then [3, 2, 6, 7] else if f = 4 then [2, 0, 4, 6] else if f = 5 then [4, 6, 7, 5] else []

/-- number of the edge between two nodes -/
def edgeOf (a b : Nat) : Nat := 8 * min a b + max a b

def cube : Topo where
  beg e := e / 8
  fin e := e % 8
  edges f := List.zipWith edgeOf (cubeNodes f) ((cubeNodes f).rotate 1)
  faces e := (List.range 6).filter fun f => decide (e ∈ List.zipWith edgeOf (cubeNodes f) ((cubeNodes f).rotate 1))

/-- position of a node -/
def pos (v : Nat) : V ℚ := ⟨(v % 2 : Nat), (v / 2 % 2 : Nat), (v / 4 % 2 : Nat)⟩

/-- the faces of the cube with the orientation found -/
def cubeFaces (rev : Nat → Bool) : List (FaceGeom ℚ) :=
  (List.range 6).map fun f =>
    { cen := ⟨((cubeNodes f).map fun v => (pos v).x).sum / 4, ((cubeNodes f).map fun v => (pos v).y).sum / 4, ((cubeNodes f).map fun v => (pos v).z).sum / 4⟩
      nodes := (cubeNodes f).map pos, out := !rev f }

theorem cube_polygon : ∀ f ∈ [0, 1, 2, 3, 4, 5], Polygon cube f (cubeNodes f) := by
  intro f hf
  have aux : ∀ f ∈ [0, 1, 2, 3, 4, 5], ((cubeNodes f).length = (cube.edges f).length ∧ 3 ≤ (cubeNodes f).length ∧ (cubeNodes f).Nodup) ∧
      ∀ i : Fin (cube.edges f).length,
        (cube.beg (cube.edges f)[i.1] = (cubeNodes f)[i.1]?.getD 0 ∧ cube.fin (cube.edges f)[i.1] = (cubeNodes f)[(i.1 + 1) % (cubeNodes f).length]?.getD 0) ∨
        (cube.beg (cube.edges f)[i.1] = (cubeNodes f)[(i.1 + 1) % (cubeNodes f).length]?.getD 0 ∧ cube.fin (cube.edges f)[i.1] = (cubeNodes f)[i.1]?.getD 0) := by
    decide +kernel
  obtain ⟨⟨h1, h2, h3⟩, h4⟩ := aux f hf
  refine ⟨h1, h2, h3, fun i h a b ha hb => ?_⟩
  have := h4 ⟨i, h⟩
  simpa [ha, hb] using this

theorem cube_mutual : ∀ f ∈ [0, 1, 2, 3, 4, 5], ∀ e, f ∈ cube.faces e ↔ e ∈ cube.edges f := by
  intro f hf e
  have : f < 6 := by revert f; decide
  simp [cube, this]

/-- The face opposite to the first shares no edge with it. The code leaves it as it is although it turns the other way, and does not find the centre of the cube inside of the cube
(with that face reversed it does). -/
theorem C158_opposite_fails : ∃ rev N, (∀ n, N ≤ n → orient cube n [0, 1, 2, 3, 4, 5] = some rev) ∧ insideSolid (1 / 10 ^ 8) (cubeFaces rev) ⟨1 / 2, 1 / 2, 1 / 2⟩ = some false ∧
    insideSolid (1 / 10 ^ 8) (cubeFaces fun f => f == 5) ⟨1 / 2, 1 / 2, 1 / 2⟩ = some true := by
  obtain ⟨rev, N, h, h1, h2⟩ := C158_neighbours_partial cube 0 [1, 2, 3, 4, 5] cubeNodes cube_polygon cube_mutual
  refine ⟨rev, N, h, ?_, by decide +kernel⟩
  have e : orient cube (N + 9) [0, 1, 2, 3, 4, 5] = some rev := h _ (by omega)
  have r : ∀ f ∈ List.range 6, rev f = false := by
    intro f hf
    have hf : f < 6 := List.mem_range.1 hf
    by_cases g : f = 0 ∨ f = 5
    · apply h2
      rcases g with rfl | rfl
      · exact .inr (.inl rfl)
      · exact .inr (.inr (by decide +kernel))
    · have near : ∀ f ∈ [1, 2, 3, 4], (∃ e, e ∈ cube.edges 0 ∧ e ∈ cube.edges f) ∧ ∀ i : Fin 4, ∀ j : Fin 4, (cube.edges 0)[i.1]? = (cube.edges f)[j.1]? →
          (cubeNodes 0)[i.1]? ≠ (cubeNodes f)[j.1]? := by decide +kernel
      have four : ∀ f ∈ [0, 1, 2, 3, 4, 5], (cube.edges f).length = 4 := by decide +kernel
      have m1 : f ∈ [1, 2, 3, 4] := by simp; omega
      obtain ⟨n1, n2⟩ := near f m1
      obtain ⟨e, a, b, ⟨i, i1, i2⟩, ⟨j, j1, j2⟩, hab⟩ := h1 f (by simp; omega) (by omega) n1
      cases q : rev f with
      | false => rfl
      | true =>
        exfalso
        have li : i < 4 := by rw [← four 0 (by simp)]; exact (List.getElem?_eq_some_iff.1 i1).1
        have lj : j < 4 := by rw [← four f (by simp; omega)]; exact (List.getElem?_eq_some_iff.1 j1).1
        exact n2 ⟨i, li⟩ ⟨j, lj⟩ (i1.trans j1.symm) (by rw [i2, j2, hab.1 q])
  have c : cubeFaces rev = cubeFaces fun _ => false := by
    unfold cubeFaces
    apply List.map_congr_left
    intro f hf
    rw [r f hf]
  rw [c]
  decide +kernel

end Verif.Search.Orient
