import Verif.Transfer.Coding
import Verif.Topology.ReachInv
import Verif.Topology.Queries

/-! # Lemmas: creation of an element in a part of the mesh -/

namespace Verif.Transfer

open Verif.Topology

/-- A creation over existing elements succeeds. -/
theorem createUp_total {T : Topo} {he : El} {elems nodes : List El} (h0 : 0 < he.ty) (h3 : he.ty ≤ 3)
    (hel : ∀ x ∈ elems, T.alive x = true ∧ x.ty + 1 = he.ty) (hnd : ∀ x ∈ nodes, T.alive x = true ∧ x.ty = 0) :
    ∃ T', T.createUp he elems nodes = some T' := by
  have key : ∀ y, T.alive y = true → (T.tie he).alive y = true := by
    intro y hy; simp only [Topo.tie, set1]; split <;> simp [hy]
  have hself : (T.tie he).alive he = true := by simp [Topo.tie, set1]
  obtain ⟨T1, e1, a1, c1⟩ := forEach_ok (f := fun T x => T.modHigh x (· ++ [he]))
    (fun U => U.alive = (T.tie he).alive ∧ U.cn = T.cn) elems (by
      rintro U x hx ⟨ha, hc⟩
      have : U.hcOf x = some (U.high x) :=
        if_pos ⟨by rw [ha]; exact key x (hel x hx).1, Or.inl (by have := (hel x hx).2; omega)⟩
      exact ⟨{ U with high := set1 U.high x (U.high x ++ [he]) }, by simp only [Topo.modHigh, this], ha, hc⟩) (T.tie he) ⟨rfl, rfl⟩
  have e2 : T1.modLow he (· ++ elems) = some { T1 with low := set1 T1.low he (T1.low he ++ elems) } := by
    have : T1.lcOf he = some (T1.low he) := if_pos ⟨by rw [a1]; exact hself, Or.inl h0⟩
    simp only [Topo.modLow, this]
  by_cases hc : he.ty = 3 ∧ T.cn = true
  · obtain ⟨T3, e3, a3, c3⟩ := forEach_ok (f := fun T x => T.modLow x (· ++ [he]))
      (fun U => U.alive = (T.tie he).alive ∧ U.cn = T.cn) nodes (by
        rintro U x hx ⟨ha, hcn⟩
        have : U.lcOf x = some (U.low x) :=
          if_pos ⟨by rw [ha]; exact key x (hnd x hx).1, Or.inr (by rw [hcn]; exact hc.2)⟩
        exact ⟨{ U with low := set1 U.low x (U.low x ++ [he]) }, by simp only [Topo.modLow, this], ha, hcn⟩)
      { T1 with low := set1 T1.low he (T1.low he ++ elems) } ⟨a1, c1⟩
    have e4 : ∃ T4, T3.modHigh he (nodes ++ ·) = some T4 := by
      have : T3.hcOf he = some (T3.high he) := if_pos ⟨by rw [a3]; exact hself, Or.inr (by rw [c3]; exact hc.2)⟩
      exact ⟨_, by simp only [Topo.modHigh, this]; rfl⟩
    obtain ⟨T4, e4⟩ := e4
    exact ⟨T4, by simp only [Topo.createUp, e1, e2, if_pos hc, e3, e4]⟩
  · exact ⟨_, by simp only [Topo.createUp, e1, e2, if_neg hc]; rfl⟩

/-- What a creation changes. -/
structure Created (T T' : Topo) (he : El) (elems nodes : List El) : Prop where
  cn : T'.cn = T.cn
  hide : T'.hide = T.hide
  alive : T'.alive = set1 T.alive he true
  self : T'.low he = elems
  selfHigh : he.ty = 3 → T.cn = true → T'.high he = nodes
  low : ∀ x, x ≠ he → 0 < x.ty → T'.low x = T.low x
  high : ∀ x, x ≠ he → x.ty = 3 → T'.high x = T.high x

theorem create_ok {cn : Bool} {T : Topo} (r : Reach cn T) (hp : T.hide = false) (dup : Bool) {ty id : Nat}
    {elems nodes : List El} (A : CreateArgs T ty elems nodes) (hne : elems ≠ []) (hd : T.alive ⟨ty, id⟩ = false)
    (hf : T.findShared elems = some none) :
    ∃ T', T.create dup ty id elems nodes = some (T', some ⟨ty, id⟩, true) ∧ Reach cn T' ∧
      Created T T' ⟨ty, id⟩ elems nodes := by
  have h0 : 0 < ty := by rcases A.tyOk with h | h | h <;> omega
  have h3 : ty ≤ 3 := by rcases A.tyOk with h | h | h <;> omega
  obtain ⟨T', e⟩ := createUp_total (T := T) (he := ⟨ty, id⟩) (nodes := nodes) h0 h3 A.elemsOk A.nodesOk
  have hc : T.create dup ty id elems nodes = some (T', some ⟨ty, id⟩, true) := by
    unfold Topo.create
    rw [if_neg hne]
    have : (if dup = true then T.findShared elems else some none) = some none := by
      cases dup <;> simp [hf]
    rw [this]
    simp only [hd, Bool.false_eq_true, if_false, e]
  have hel : (⟨ty, id⟩ : El) ∉ elems := fun h => by have := (A.elemsOk _ h).2; simp at this
  have hnd : (⟨ty, id⟩ : El) ∉ nodes := fun h => by have := (A.nodesOk _ h).2; simp at this; omega
  obtain ⟨c1, c2, c3, -, -, c6, c7⟩ := createUp_some (reach_inv r).1 hd h3 hel hnd (by simp; omega) e
  refine ⟨T', hc, .create dup ty id elems nodes r A hc, c1, c3, c2, ?_, ?_, ?_, ?_⟩
  · rw [c6, if_pos rfl]
  · intro ht hcn
    rw [c7, if_pos rfl, if_pos ⟨ht, hcn⟩]
  · intro x hx h0x
    rw [c6, if_neg hx]
    have : nodes.count x = 0 := List.count_eq_zero.2 fun h => by have := (A.nodesOk x h).2; omega
    split
    · rw [this]; simp
    · rfl
  · intro x hx h3x
    rw [c7, if_neg hx]
    have : elems.count x = 0 := List.count_eq_zero.2 fun h => by have := (A.elemsOk x h).2; omega
    rw [this]; simp

theorem createNode_ok {cn : Bool} {T : Topo} (r : Reach cn T) {id : Nat} (hd : T.alive ⟨0, id⟩ = false) :
    ∃ T', T.createNode id = some T' ∧ Reach cn T' ∧ Created T T' ⟨0, id⟩ [] [] := by
  have e : T.createNode id = some (T.tie ⟨0, id⟩) := by unfold Topo.createNode; rw [hd]; simp
  refine ⟨_, e, .createNode id r e, rfl, rfl, rfl, by simp [Topo.tie, set1], by simp, ?_, ?_⟩
  · intro x hx _; simp [Topo.tie, set1, hx]
  · intro x hx _; simp [Topo.tie, set1, hx]

theorem name_ty {nm : El → Nat} {a b : El} {nm' : El → Nat} (h : name nm a = name nm' b) : a.ty = b.ty := by
  have := congrArg El.ty h
  exact this

theorem map_name_congr {nm nm' : El → Nat} {l : List El} (h : ∀ x ∈ l, nm' x = nm x) :
    l.map (name nm') = l.map (name nm) :=
  List.map_congr_left fun x hx => by simp only [name, h x hx]

theorem lowAlive {cn : Bool} {T : Topo} (r : Reach cn T) {e x : El} (h : x ∈ T.low e) : T.alive x = true :=
  ((reach_inv r).1.lowLive h).1

theorem highAlive {cn : Bool} {T : Topo} (r : Reach cn T) {e x : El} (h : x ∈ T.high e) : T.alive x = true :=
  ((reach_inv r).1.highLive (fun h => h) h).2

theorem lowTy {cn : Bool} {T : Topo} (r : Reach cn T) {e x : El} (h0 : 0 < e.ty) (h : x ∈ T.low e) : x.ty + 1 = e.ty :=
  ((reach_inv r).1.lowTy e x h).1 (by omega)

theorem highTy {cn : Bool} {T : Topo} (r : Reach cn T) {e x : El} (h3 : e.ty = 3) (h : x ∈ T.high e) : x.ty = 0 :=
  (((reach_inv r).1.highTy (fun h => h) h).2 h3).2

theorem tyLe {cn : Bool} {T : Topo} (r : Reach cn T) {e : El} (h : T.alive e = true) : e.ty ≤ 3 :=
  (reach_inv r).1.tyLe e h

/-- A part stays a part when an element it does not have is created over its boundary. -/
theorem fits_created {cn : Bool} {G : Whole} {T T' : Topo} {nm : El → Nat} {he : El} {elems nodes : List El} {k : Nat}
    (r : Reach cn T) (F : Fits G T nm) (hd : T.alive he = false) (C : Created T T' he elems nodes)
    (hel : ∀ x ∈ elems, T.alive x = true) (hnd : ∀ x ∈ nodes, T.alive x = true)
    (habs : ∀ x, T.alive x = true → name nm x ≠ ⟨he.ty, k⟩)
    (hlow : 0 < he.ty → (elems.map (name nm)).Perm (G.low ⟨he.ty, k⟩) ∧ elems ≠ [])
    (hnodes : he.ty = 3 → T.cn = true → (nodes.map (name nm)).Perm (G.nodes ⟨he.ty, k⟩)) :
    Fits G T' (set1 nm he k) := by
  have hne : ∀ x, T.alive x = true → x ≠ he := fun x hx h => by rw [h, hd] at hx; cases hx
  have hnm : ∀ x, x ≠ he → set1 nm he k x = nm x := fun x hx => if_neg hx
  have hself : set1 nm he k he = k := if_pos rfl
  have hal : ∀ x, T'.alive x = true → x = he ∨ (x ≠ he ∧ T.alive x = true) := by
    intro x hx
    by_cases h : x = he
    · exact Or.inl h
    · rw [C.alive] at hx; unfold set1 at hx; rw [if_neg h] at hx; exact Or.inr ⟨h, hx⟩
  have hname : ∀ x, x ≠ he → name (set1 nm he k) x = name nm x := fun x hx => by simp only [name, hnm x hx]
  have hsn : name (set1 nm he k) he = ⟨he.ty, k⟩ := by simp only [name, hself]
  constructor
  · intro a b ha hb e
    rcases hal a ha with rfl | ⟨ha1, ha2⟩
    · rcases hal b hb with rfl | ⟨hb1, hb2⟩
      · rfl
      · rw [hsn, hname b hb1] at e; exact absurd e.symm (habs b hb2)
    · rcases hal b hb with rfl | ⟨hb1, hb2⟩
      · rw [hsn, hname a ha1] at e; exact absurd e (habs a ha2)
      · rw [hname a ha1, hname b hb1] at e; exact F.inj a b ha2 hb2 e
  · intro e he' h0
    rcases hal e he' with rfl | ⟨h1, h2⟩
    · rw [C.self, hsn, map_name_congr (nm := nm) fun x hx => hnm x (hne x (hel x hx))]
      exact (hlow h0).1
    · rw [C.low e h1 h0, hname e h1, map_name_congr (nm := nm) fun x hx => hnm x (hne x (lowAlive r hx))]
      exact F.low e h2 h0
  · intro e he' h0
    rcases hal e he' with rfl | ⟨h1, h2⟩
    · rw [C.self]; exact (hlow h0).2
    · rw [C.low e h1 h0]; exact F.full e h2 h0
  · intro e he' h3 hcn
    rw [C.cn] at hcn
    rcases hal e he' with rfl | ⟨h1, h2⟩
    · rw [C.selfHigh h3 hcn, hsn, map_name_congr (nm := nm) fun x hx => hnm x (hne x (hnd x hx))]
      exact hnodes h3 hcn
    · rw [C.high e h1 h3, hname e h1, map_name_congr (nm := nm) fun x hx => hnm x (hne x (highAlive r hx))]
      exact F.nodes e h2 h3 hcn

/-- Only the numbers of existing elements matter. -/
theorem Fits.congr {cn : Bool} {G : Whole} {T : Topo} {nm nm' : El → Nat} (r : Reach cn T) (F : Fits G T nm)
    (h : ∀ x, T.alive x = true → nm' x = nm x) : Fits G T nm' := by
  have hname : ∀ x, T.alive x = true → name nm' x = name nm x := fun x hx => by simp only [name, h x hx]
  constructor
  · intro a b ha hb e
    rw [hname a ha, hname b hb] at e
    exact F.inj a b ha hb e
  · intro e he h0
    rw [hname e he, map_name_congr (nm := nm) fun x hx => h x (lowAlive r hx)]
    exact F.low e he h0
  · exact F.full
  · intro e he h3 hcn
    rw [hname e he, map_name_congr (nm := nm) fun x hx => h x (highAlive r hx)]
    exact F.nodes e he h3 hcn

/-- Search over elements standing for the boundary of `g`. -/
theorem find_ok {cn : Bool} {G : Whole} {T : Topo} {nm : El → Nat} {es : List El} {g : El} (r : Reach cn T)
    (hp : T.hide = false) (hG : G.Ok) (F : Fits G T nm) (h0 : 0 < g.ty)
    (hes : ∀ x ∈ es, T.alive x = true ∧ x.ty + 1 = g.ty) (hne : es ≠ [])
    (h3 : g.ty ≤ 3) (hl : (es.map (name nm)).Perm (G.low g)) :
    ∃ u, T.findShared es = some u ∧ (∀ x, u = some x → T.alive x = true ∧ name nm x = g) ∧
      (u = none → ∀ x, T.alive x = true → name nm x ≠ g) := by
  have hhid : ∀ x, T.hid x = false := fun x => by simp [Topo.hid, hp]
  obtain ⟨y, hy⟩ := List.exists_mem_of_ne_nil es hne
  obtain ⟨u, h1, h2, h3'⟩ := findShared_spec (T := T) (arr := es) ⟨y, hy, hhid y⟩
    (fun x hx => ⟨(hes x hx).1, by have := (hes x hx).2; omega⟩)
  have I := (reach_inv r).1
  have hGne : G.low g ≠ [] := by
    intro h; rw [h] at hl
    exact hne (List.map_eq_nil_iff.1 (List.perm_nil.1 hl))
  refine ⟨u, h1, fun x hx => ?_, fun hn x hx hxg => ?_⟩
  · have hin : ∀ z ∈ es, z ∈ T.low x := fun z hz => (I.mem (fun h => h)).2 ((h2 x hx).2 z hz (hhid z))
    have hxa : T.alive x = true := (I.lowLive (hin y hy)).2
    have hxt : x.ty = g.ty := by
      have a := (hes y hy).2
      have b := I.lowTy x y (hin y hy)
      by_cases hx0 : x.ty = 0
      · have := (b.2 hx0).2; omega
      · have := b.1 hx0; omega
    refine ⟨hxa, (hG g (name nm x) hxt.symm h0 hGne ?_).symm⟩
    intro z hz
    obtain ⟨z', hz', rfl⟩ := List.mem_map.1 (hl.mem_iff.2 hz)
    exact (F.low x hxa (by omega)).mem_iff.1 (List.mem_map.2 ⟨z', hin z' hz', rfl⟩)
  · have hxt : x.ty = g.ty := by rw [← hxg]; rfl
    refine h3' hn ⟨x, hhid x, fun z hz _ => (I.mem (fun h => h)).1 ?_⟩
    have := hl.mem_iff.1 (List.mem_map.2 ⟨z, hz, rfl⟩)
    rw [← hxg] at this
    obtain ⟨w, hw, hwe⟩ := List.mem_map.1 ((F.low x hx (by omega)).mem_iff.2 this)
    rw [← F.inj w z (I.lowLive hw).1 (hes z hz).1 hwe]
    exact hw

end Verif.Transfer
