import Verif.Split.FacesProps
import Verif.Split.FaceTotal

/-! `UniteFaces` succeeds if the outer edges are one simple polygon. -/

namespace Verif.Split
open Verif.Topology Verif.EdgeLoop

variable {cn : Bool} {T T' : Topo} {flip : Topo → El → Bool} {dup : Bool} {prot : El → Bool} {unite : List El} {id : Nat}

theorem orderEdges_total (I : Inv T (fun _ => False)) (A : FacesArgs T unite) {es ns : List El} (hl : Loop T es ns)
    (hn : ns.Nodup) (hm : ∀ e, e ∈ es ↔ visits T unite e = 1) : ∃ es', orderEdges T unite = some es' := by
  obtain ⟨x, hp⟩ := hl.path
  have hen := cycle_nodup hp hn hl.three
  have hperm : (outerEdges T unite).Perm es :=
    (List.perm_ext_iff_of_nodup (nodup_lists I A).1 hen).2 fun e => by rw [mem_outerEdges A, hm]
  unfold orderEdges
  have h3 := hl.three
  rw [← hperm.length_eq] at h3
  cases ho : outerEdges T unite with
  | nil => rw [ho] at h3; simp at h3
  | cons first rest =>
    rw [ho] at h3 hperm
    have hv : ∀ e ∈ first :: rest, 0 < visits T unite e := fun e he => by
      have := (mem_outerEdges A (e := e)).1 (by rw [ho]; exact he)
      omega
    obtain ⟨n, b, hnb, hj, hnx⟩ : ∃ n b, n ≠ b ∧ Joins T first b n ∧ nextNode T first none = some n := by
      obtain ⟨a, b, hab, hj⟩ := edge_ends A (hv first (by simp))
      rcases hj with hj | hj
      · exact ⟨a, b, hab, Or.inr hj, by unfold nextNode; rw [hj]; simp⟩
      · exact ⟨b, a, hab.symm, Or.inr hj, by unfold nextNode; rw [hj]; simp⟩
    obtain ⟨rest', ns2, p1, p2, p3⟩ := cycle_at hp hn (hperm.mem_iff.1 (by simp)) hj
    have hrp : rest.Perm rest' := List.Perm.cons_inv (hperm.trans p3.symm)
    have hvis : ∀ e ∈ rest', T.hid e = false := fun e he =>
      (visits_ok I A (hv e (by simp [hrp.mem_iff.2 he]))).2.2
    have hnv : T.hid n = false := by
      obtain ⟨-, q, -⟩ := nextNode_some (edge_ends A (hv first (by simp))) hnx
      exact q
    have hne : rest' ≠ [] := by
      rintro rfl
      rw [hrp.eq_nil] at h3
      simp at h3
    have hw := walk_total I hj (visits_ok I A (hv first (by simp))).2.2 (rest.length + 1) rest rest' ns2 first none 1 n
      (by rw [hrp.length_eq]; omega) hnx p1 p2 hrp hvis hnv (Or.inl ⟨rfl, by
        cases p1 with
        | nil => exact absurd rfl hne
        | cons hj' p1 => exact (List.nodup_cons.1 (List.nodup_cons.1 p2).2).1, hne⟩)
    simp only [hw]
    rw [if_pos hrp.length_eq.symm]
    exact ⟨_, rfl⟩

/-- The destruction of an element without upper elements succeeds. -/
theorem bare_total {e : El} (hh : T.hide = false) (ha : T.alive e = true) (h3 : e.ty < 3) (hb : T.high e = [])
    (hl : ∀ y ∈ T.low e, T.alive y = true ∧ (y.ty < 3 ∨ T.cn = true)) : ∃ T', T.destroy flip e = some T' := by
  unfold Topo.destroy
  rw [if_neg (by simp [hh])]
  unfold destroyWith
  rw [if_pos ha]
  have e1 : T.swapBackIf flip e = some T := by unfold Topo.swapBackIf; rw [if_neg (by omega)]
  rw [e1]
  have e2 : disUpper (deleteF flip 4) T e = some { T with high := set1 T.high e [] } := by
    unfold disUpper
    rw [if_pos (Or.inl h3)]
    have : T.hcOf e = some [] := by unfold Topo.hcOf; rw [if_pos ⟨ha, Or.inl h3⟩, hb]
    rw [this]
    simp only [rmLoop, if_pos h3, forEach, Topo.modHigh, this]
  simp only [e2]
  suffices h : ∃ T2, disLower { T with high := set1 T.high e [] } e = some T2 by
    obtain ⟨T2, h⟩ := h
    exact ⟨_, by rw [h]⟩
  unfold disLower
  split
  · next hc =>
    have e5 : Topo.lcOf { T with high := set1 T.high e [] } e = some (T.low e) := if_pos ⟨ha, hc⟩
    rw [e5]
    obtain ⟨T3, e3, s3⟩ := forEach_total (P := Same T) (g := fun T y => T.modHigh y (eraseAll e)) (T.low e)
      { T with high := set1 T.high e [] } ⟨rfl, rfl⟩ (by
      rintro U y ⟨u1, u2⟩ hy
      obtain ⟨k1, k2⟩ := hl y hy
      exact ⟨_, modHigh_total _ (by rw [u1]; exact k1) (by rw [u2]; exact k2), u1, u2⟩)
    simp only [e3]
    exact ⟨_, modLow_total _ (by rw [s3.1]; exact ha) (by rw [s3.2]; exact hc)⟩
  · exact ⟨_, rfl⟩

theorem low_ok (I : Inv T (fun _ => False)) {e : El} : ∀ y ∈ T.low e, T.alive y = true ∧ (y.ty < 3 ∨ T.cn = true) := by
  intro y hy
  refine ⟨(I.lowLive hy).1, ?_⟩
  by_cases h0 : e.ty = 0
  · exact Or.inr ((I.lowTy e y hy).2 h0).1
  · have h1 := (I.lowTy e y hy).1 (by omega)
    have := I.tyLe e (I.lowLive hy).2
    exact Or.inl (by omega)

theorem inner_total : ∀ (l : List El) (T : Topo), Inv T (fun _ => False) → T.hide = false → l.Nodup →
    (∀ x ∈ l, T.alive x = true ∧ x.ty = 1 ∧ T.high x = []) → ∃ T', forEach (Topo.remInner flip) l T = some T'
  | [], T, _, _, _, _ => ⟨T, rfl⟩
  | x :: xs, T, I, hh, hnd, hx => by
    obtain ⟨a1, a2, a3⟩ := hx x (by simp)
    obtain ⟨hn, hnd⟩ := List.nodup_cons.1 hnd
    have h1 : ∃ T1, T.remInner flip x = some T1 := by
      unfold Topo.remInner
      rw [a3, if_neg (by simp), if_neg (by simp [hh]), delete_eq hh]
      exact bare_total hh a1 (by omega) a3 (low_ok I)
    obtain ⟨T1, h1⟩ := h1
    have G := remInner_gone I a2 hh h1
    obtain ⟨T2, h2⟩ := inner_total xs T1 (G.inv I) (by rw [G.hide]; exact hh) hnd fun y hy => by
      obtain ⟨b1, b2, b3⟩ := hx y (by simp [hy])
      have hyx : y ∉ [x] := by simp; rintro rfl; exact hn hy
      exact ⟨by rw [G.alive, if_neg hyx]; exact b1, b2, by rw [G.high, if_neg hyx, b3]; rfl⟩
    exact ⟨T2, by unfold forEach; rw [h1]; exact h2⟩

theorem corner_total : ∀ (l : List El) (T : Topo), Inv T (fun _ => False) → T.hide = false → l.Nodup →
    (∀ x ∈ l, T.alive x = true ∧ x.ty = 0 ∧ T.high x = []) → ∃ T', forEach (Topo.remCorner flip) l T = some T'
  | [], T, _, _, _, _ => ⟨T, rfl⟩
  | x :: xs, T, I, hh, hnd, hx => by
    obtain ⟨a1, a2, a3⟩ := hx x (by simp)
    obtain ⟨hn, hnd⟩ := List.nodup_cons.1 hnd
    have h1 : ∃ T1, T.remCorner flip x = some T1 := by
      unfold Topo.remCorner
      rw [a3, if_neg (by simp), if_neg (by simp [hh])]
      have hxx : x ∉ T.low x := fun hm => by have := ((I.lowTy x x hm).2 a2).2; omega
      by_cases hc : T.cn = true
      · rw [if_pos hc]
        have e5 : T.lcOf x = some (T.low x) := if_pos ⟨a1, Or.inr hc⟩
        rw [e5]
        obtain ⟨T3, e3, s3⟩ := forEach_total (P := Same T) (g := fun T y => T.modHigh y (eraseAll x)) (T.low x)
          T ⟨rfl, rfl⟩ (by
          rintro U y ⟨u1, u2⟩ hy
          obtain ⟨k1, k2⟩ := low_ok I y hy
          exact ⟨_, modHigh_total _ (by rw [u1]; exact k1) (by rw [u2]; exact k2), u1, u2⟩)
        have := erHigh_spec x _ _ _ e3
        subst this
        simp only [e3]
        rw [modLow_total (T := { T with high := fun y => if y ∈ T.low x then eraseAll x (T.high y) else T.high y }) _ a1
          (Or.inr hc)]
        refine bare_total (T := { T with
          low := set1 T.low x [], high := fun y => if y ∈ T.low x then eraseAll x (T.high y) else T.high y }) hh a1 (by omega) ?_ ?_
        · show (if x ∈ T.low x then _ else T.high x) = []
          rw [if_neg hxx, a3]
        · intro y hy
          simp [set1] at hy
      · rw [if_neg hc]
        exact bare_total hh a1 (by omega) a3 (low_ok I)
    obtain ⟨T1, h1⟩ := h1
    have G := remCorner_gone I a2 hh h1
    obtain ⟨T2, h2⟩ := corner_total xs T1 (G.inv I) (by rw [G.hide]; exact hh) hnd fun y hy => by
      obtain ⟨b1, b2, b3⟩ := hx y (by simp [hy])
      have hyx : y ∉ [x] := by simp; rintro rfl; exact hn hy
      exact ⟨by rw [G.alive, if_neg hyx]; exact b1, b2, by rw [G.high, if_neg hyx, b3]; rfl⟩
    exact ⟨T2, by unfold forEach; rw [h1]; exact h2⟩

theorem faces_total {E : List El} {T0 : Topo} (I : Inv T0 (fun _ => False)) (hE : ∀ x ∈ E, x.ty = 2 ∧ T0.alive x = true) :
    ∀ (todo done : List El) (T : Topo), (done ++ todo).Nodup → (∀ x ∈ done ++ todo, x ∈ E) →
    Going T0 E done todo T → T.hide = false → ∃ T', forEach (Topo.remEdge flip) todo T = some T'
  | [], _, T, _, _, _, _ => ⟨T, rfl⟩
  | e :: todo, done, T, hn, hs, G, hh => by
    have hn' : (done ++ [e] ++ todo).Nodup := by simpa using hn
    have hnd : e ∉ done := fun hm => (List.nodup_append.1 hn).2.2 e hm e (by simp) rfl
    have hnt : e ∉ todo := (List.nodup_cons.1 (List.nodup_append.1 hn).2.1).1
    obtain ⟨t2, ha⟩ := hE e (hs e (by simp))
    have ha' : T.alive e = true := by rw [G.alive, if_neg hnd]; exact ha
    have h1 : ∃ T1, T.remEdge flip e = some T1 := by
      unfold Topo.remEdge
      rw [if_neg (by simp [hh]), modHigh_total _ ha' (Or.inl (by omega))]
      simp only
      refine bare_total (T := { T with high := set1 T.high e [] }) hh ha' (by omega) (set1_same _ _ _) fun y hy => ?_
      have hy' : y ∈ T0.low e := by
        have : y ∈ T.low e := hy
        rw [G.low, if_neg hnd] at this
        exact (List.mem_filter.1 this).1
      have := (I.lowTy e y hy').1 (by omega)
      have hyd : y ∉ done := fun hm => by have := (hE y (hs y (by simp [hm]))).1; omega
      exact ⟨by show T.alive y = true; rw [G.alive, if_neg hyd]; exact (I.lowLive hy').1, Or.inl (by omega)⟩
    obtain ⟨T1, h1⟩ := h1
    have G1 := remEdge_going I (by omega) (by omega) (fun x hx => (hE x hx).1) (hs e (by simp)) hnd hnt
      (fun x hx => hs x (by simp [hx])) G hh h1
    obtain ⟨T2, h2⟩ := faces_total I hE todo (done ++ [e]) T1 hn' (by simpa using hs) G1 (by
      rw [G1.hide, ← G.hide]; exact hh)
    exact ⟨T2, by unfold forEach; rw [h1]; exact h2⟩

theorem hide_total {f : Topo → El → Option Topo} (hf : ∀ T x, T.hide = true → x.ty ≠ 3 → T.alive x = true →
      (∀ u ∈ T.high x, T.hid u = true) → f T x = some { T with hidden := set1 T.hidden x true }) :
    ∀ (l : List El) (T : Topo), T.hide = true → (∀ x ∈ l, x.ty ≠ 3 ∧ T.alive x = true ∧ ∀ u ∈ T.high x, T.hid u = true) →
      ∃ T', forEach f l T = some T'
  | [], T, _, _ => ⟨T, rfl⟩
  | x :: xs, T, hh, h => by
    obtain ⟨h1, h2, h3⟩ := h x (by simp)
    obtain ⟨T2, e2⟩ := hide_total hf xs { T with hidden := set1 T.hidden x true } hh fun y hy => by
      obtain ⟨k1, k2, k3⟩ := h y (by simp [hy])
      refine ⟨k1, k2, fun u hu => ?_⟩
      have := k3 u hu
      unfold Topo.hid at this ⊢
      simp only [set1]
      split
      · simp [hh]
      · exact this
    exact ⟨T2, by unfold forEach; rw [hf T x hh h1 h2 h3]; exact e2⟩

theorem hideEl_total {x : El} (ht : x.ty ≠ 3) (ha : T.alive x = true) :
    T.hideEl flip x = some { T with hidden := set1 T.hidden x true } := by
  have h : ∃ T', T.hideEl flip x = some T' := by
    unfold Topo.hideEl Topo.swapBackIf
    rw [if_pos ha]
    split
    · exact ⟨_, rfl⟩
    · exact ⟨_, rfl⟩
  obtain ⟨T', h⟩ := h
  rw [h, (hideEl_spec0 ht h).2]

theorem remParts_total (I : Inv T (fun _ => False)) {faces cells inner nodes : List El} (hF : ∀ x ∈ faces, x.ty = 2 ∧ T.alive x = true)
    (hnd : faces.Nodup) (hC : ∀ c, c ∈ cells ↔ ∃ f ∈ faces, c ∈ T.cellsOf f)
    (hE : ∀ x ∈ inner, x.ty = 1 ∧ T.alive x = true ∧ ∀ u ∈ T.high x, T.hid u = false → u ∈ faces) (hEn : inner.Nodup)
    (hN : ∀ x ∈ nodes, x.ty = 0 ∧ T.alive x = true ∧ ∀ u ∈ T.high x, T.hid u = false → u ∈ inner) (hNn : nodes.Nodup) :
    ∃ T', T.remParts flip faces cells inner nodes = some T' := by
  have M : ∀ {a b : El}, a ∈ T.low b ↔ b ∈ T.high a := fun {a b} => I.mem (fun h => h)
  cases hh : T.hide with
  | true =>
    have hany : ∀ {T : Topo} {l : List El}, (∀ u ∈ l, T.hid u = true) → ¬ l.any (fun u => !T.hid u) = true := by
      intro T l h hm
      obtain ⟨u, h1, h2⟩ := List.any_eq_true.1 hm
      rw [h u h1] at h2; cases h2
    have h2 : ∃ T2, forEach (Topo.remFace flip) faces T = some T2 := by
      obtain ⟨T2, h2, -⟩ := forEach_total (P := fun U => U.hide = true ∧ U.alive = T.alive) (g := Topo.remFace flip) faces T ⟨hh, rfl⟩ (by
        rintro U x ⟨u1, u2⟩ hx
        unfold Topo.remFace
        rw [if_pos u1, hideEl_total (by have := (hF x hx).1; omega) (by rw [u2]; exact (hF x hx).2)]
        exact ⟨_, rfl, u1, u2⟩)
      exact ⟨T2, h2⟩
    obtain ⟨T2, h2⟩ := h2
    obtain ⟨a1, rfl⟩ := hideLoop_spec (f := Topo.remFace flip) (fun T x T' hh ht h => by
      unfold Topo.remFace at h; rw [if_pos hh] at h; exact hideEl_spec0 ht h) faces T _ hh
      (fun x hx => by have := (hF x hx).1; omega) h2
    have hid2 : ∀ u, (T.hid u = false → u ∈ faces) →
        Topo.hid { T with hidden := fun x => if x ∈ faces then true else T.hidden x } u = true := by
      intro u h
      unfold Topo.hid at h ⊢
      rw [hh] at h ⊢
      simp only [Bool.true_and] at h ⊢
      split
      · rfl
      · next hn =>
        cases hx : T.hidden u with
        | true => rfl
        | false => exact absurd (h hx) hn
    obtain ⟨T3, h3⟩ := hide_total (f := Topo.remInner flip) (fun T x hh ht ha hu => by
      unfold Topo.remInner
      rw [if_neg (hany hu), if_pos hh, hideEl_total ht ha]) inner
      { T with hidden := fun x => if x ∈ faces then true else T.hidden x } hh (fun x hx => by
        obtain ⟨k1, k2, k3⟩ := hE x hx
        exact ⟨by omega, k2, fun u hu => hid2 u (k3 u hu)⟩)
    obtain ⟨a2, rfl⟩ := hideLoop_spec (f := Topo.remInner flip) (fun T x T' hh ht h => remInner_hide hh ht h) inner
      { T with hidden := fun x => if x ∈ faces then true else T.hidden x } T3 hh
      (fun x hx => by have := (hE x hx).1; omega) h3
    obtain ⟨T4, h4⟩ := hide_total (f := Topo.remCorner flip) (fun T x hh ht ha hu => by
      unfold Topo.remCorner
      rw [if_neg (hany hu), if_pos hh, hideEl_total ht ha]) nodes
      { T with hidden := fun x => if x ∈ inner then true else if x ∈ faces then true else T.hidden x } hh (fun x hx => by
        obtain ⟨k1, k2, k3⟩ := hN x hx
        refine ⟨by omega, k2, fun u hu => ?_⟩
        have := k3 u hu
        unfold Topo.hid at this ⊢
        rw [hh] at this ⊢
        simp only [Bool.true_and] at this ⊢
        split
        · rfl
        next hn =>
        split
        · rfl
        cases hx : T.hidden u with
        | true => rfl
        | false => exact absurd (this hx) hn)
    refine ⟨T4, ?_⟩
    unfold Topo.remParts
    rw [if_pos hh]
    simp only [h2, h3, h4]
  | false =>
    have hvis := hid_false hh
    have hct : ∀ c ∈ cells, T.alive c = true ∧ c.ty = 3 := by
      intro c hc
      obtain ⟨f, hf, hm⟩ := (hC c).1 hc
      have h1 := (mem_cellsOf'.1 hm).1
      have := (hF f hf).1
      have := (I.highTy (fun h => h) h1).1 (by omega)
      exact ⟨(I.highLive (fun h => h) h1).2, by omega⟩
    obtain ⟨T1, h1, -⟩ := forEach_total (P := Same T) (g := fun T c => T.modLow c (·.filter (· ∉ faces))) cells T ⟨rfl, rfl⟩ (by
      rintro U c ⟨u1, u2⟩ hc
      obtain ⟨k1, k2⟩ := hct c hc
      exact ⟨_, modLow_total _ (by rw [u1]; exact k1) (Or.inl (by omega)), u1, u2⟩)
    have := filtLow_spec faces cells _ _ h1
    subst this
    have hfc : ∀ y, y ∈ cells ↔ ∃ e ∈ faces, y ∈ T.high e := by
      intro y
      rw [hC]
      unfold Topo.cellsOf
      simp [hvis]
    have G0 : Going T faces [] faces { T with low := fun x => if x ∈ cells then (T.low x).filter (· ∉ faces) else T.low x } := by
      refine ⟨rfl, rfl, rfl, by simp, by simp, fun x => ?_, fun x => ?_⟩
      · simp only [List.not_mem_nil, if_false]
        split
        · rfl
        · next hx =>
          refine (List.filter_eq_self.2 fun y hy => ?_).symm
          have : y ∉ faces := fun hy' => hx ((hfc x).2 ⟨y, hy', M.1 hy⟩)
          simpa using this
      · simp only [List.not_mem_nil, if_false, not_false_eq_true, decide_true]
        split
        · rfl
        · exact (List.filter_eq_self.2 (by simp)).symm
    obtain ⟨T2, h2⟩ := faces_total (flip := flip) I hF faces [] _ (by simpa using hnd) (by simp) G0 hh
    have G1 := remEdges_going I (by omega) (by omega) (fun x hx => (hF x hx).1) faces [] _ T2 (by simpa using hnd) (fun _ h => h) G0 hh h2
    have G2 : Topology.Gone T faces T2 := by
      refine ⟨G1.cn, G1.last, G1.hide, by simpa using G1.alive, by simpa using G1.hidden,
        by simpa using G1.low, fun x => ?_⟩
      rw [G1.high]; simp
    have hh2 : T2.hide = false := by rw [G2.hide]; exact hh
    obtain ⟨T3, h3⟩ := inner_total (flip := flip) inner T2 (G2.inv I) hh2 hEn fun x hx => by
      obtain ⟨k1, k2, k3⟩ := hE x hx
      have hxf : x ∉ faces := fun hm => by have := (hF x hm).1; omega
      refine ⟨by rw [G2.alive, if_neg hxf]; exact k2, k1, ?_⟩
      rw [G2.high, if_neg hxf]
      exact List.filter_eq_nil_iff.2 fun u hu => by simpa using k3 u hu (hvis u)
    have G3 := goneLoop (f := Topo.remInner flip) (fun T x T' I hh ht h => remInner_gone I ht hh h) inner T2 T3
      (G2.inv I) hh2 (fun x hx => (hE x hx).1) h3
    have G23 := G2.trans G3
    obtain ⟨T4, h4⟩ := corner_total (flip := flip) nodes T3 (G3.inv (G2.inv I)) (by rw [G3.hide]; exact hh2) hNn fun x hx => by
      obtain ⟨k1, k2, k3⟩ := hN x hx
      have hxf : x ∉ faces ++ inner := fun hm => by
        rcases List.mem_append.1 hm with h | h
        · have := (hF x h).1; omega
        · have := (hE x h).1; omega
      refine ⟨by rw [G23.alive, if_neg hxf]; exact k2, k1, ?_⟩
      rw [G23.high, if_neg hxf]
      exact List.filter_eq_nil_iff.2 fun u hu => by simpa using fun _ => k3 u hu (hvis u)
    refine ⟨T4, ?_⟩
    unfold Topo.remParts
    rw [if_neg (by simp [hh])]
    simp only [h1]
    rw [remFace_eq]
    simp only [h2, h3, h4]

/-- C90: the call succeeds if the united faces have at most two cells, no edge belongs to three of them, the outer edges are one
simple polygon, no other face has an inner edge, and every cell of the united faces keeps three other faces. -/
theorem C90_defined (r : Reach cn T) (A : FacesArgs T unite) (hne : unite ≠ []) (hp : ∀ x, Absorbed T unite x → prot x = false)
    (hc : ∃ a b, ∀ f ∈ unite, ∀ c ∈ T.cellsOf f, c = a ∨ c = b) (h2 : ∀ e, visits T unite e ≤ 2)
    (hpoly : ∃ es ns, Loop T es ns ∧ ns.Nodup ∧ ∀ e, e ∈ es ↔ visits T unite e = 1)
    (hin : ∀ e, visits T unite e = 2 → ∀ f ∈ T.cellsOf e, f ∈ unite)
    (h4 : ∀ f ∈ unite, ∀ c ∈ T.cellsOf f, 3 ≤ ((facesOf T c).filter fun g => decide (g ∉ unite)).length)
    (hid : T.alive ⟨2, id⟩ = false) : ∃ T', uniteFaces flip T false prot unite id = some (T', some ⟨2, id⟩) := by
  have I := (reach_inv r).1
  obtain ⟨es0, ns0, q1, q2, q3⟩ := hpoly
  obtain ⟨es, ho⟩ := orderEdges_total I A q1 q2 q3
  obtain ⟨s1, s2, ns, s3⟩ := orderEdges_sound I A h2 ho
  have U := run_ok I A h2 ho
  have hnod := nodup_lists I A
  have hes : es ≠ [] := by rintro rfl; have := s3.three; simp at this
  unfold uniteFaces
  rw [if_neg (by
    intro h
    obtain ⟨c, h1, h2⟩ := List.any_eq_true.1 h
    rw [(A.face c h1).2.1] at h2
    cases h2), if_neg hne, if_neg (by
    intro h
    obtain ⟨c, h1, h2⟩ := List.any_eq_true.1 h
    rw [hp c (Or.inl h1)] at h2
    cases h2), if_neg (by
    obtain ⟨a, b, hab⟩ := hc
    have : (unitedCells T unite).length ≤ [a, b].length :=
      (List.subperm_of_subset nodup_unitedCells fun c hc => by
        obtain ⟨f, hf, hm⟩ := mem_unitedCells.1 hc
        simpa using hab f hf c hm).length_le
    simp at this
    omega), if_neg (by
    intro h
    obtain ⟨e, -, h3⟩ := List.any_eq_true.1 h
    have := of_decide_eq_true h3
    rw [visited_visits A] at this
    have := h2 e
    omega), if_neg (by
    intro h
    obtain ⟨c, h1, h2⟩ := List.any_eq_true.1 h
    rw [hp c (Or.inr ((List.mem_append.1 h1).imp (mem_innerEdges A).1 (mem_innerCorners A).1))] at h2
    cases h2), ho]
  simp only
  obtain ⟨T1, e1⟩ := remParts_total (flip := flip) I (fun x hx => ⟨(A.face x hx).1, (A.face x hx).2.1⟩) A.nodup U.cellsOk
    (inner := innerEdges T unite) (nodes := innerCorners T unite) (fun x hx => by
      have hv := (mem_innerEdges A).1 hx
      obtain ⟨k1, k2⟩ := visits_ok I A (e := x) (by omega)
      exact ⟨k1, k2.1, fun u hu hv' => hin x hv u (mem_cellsOf'.2 ⟨hu, hv'⟩)⟩) hnod.2.1 (fun x hx => by
      obtain ⟨⟨e, k1, k2, k3⟩, k4⟩ := (mem_innerCorners A).1 hx
      exact ⟨(absorbed_ok I A).2 x hx, (I.lowLive k2).1, fun u hu hv => (mem_innerEdges A).2 (k4 u hu hv)⟩) hnod.2.2
  have C : Cleared T (absorbed T unite) T1 := by
    rcases remParts_spec I U.face U.nodup U.cellsOk U.innerOk U.nodesOk e1 with ⟨hh, ha, rfl⟩ | ⟨hh, G⟩
    · exact hide_cleared I hh ha
    · exact gone_cleared I hh G
  have hd : T1.alive ⟨2, id⟩ = false := by
    cases h : T1.alive ⟨2, id⟩ with
    | false => rfl
    | true => rw [C.mono _ h] at hid; cases hid
  obtain ⟨T2, g, new, e2, -, -, -, -⟩ := createFace_total (T := T1) (dup := false) (l := es) (id := id) (fun e g h1 hg => by
      have k1 := (C.inv.mem (fun h => h)).2 hg
      have := (C.inv.highTy (fun h => h) hg).1 (by omega)
      exact ⟨k1, (C.inv.highLive (fun h => h) hg).2, by omega⟩) hes (fun e he => by
      obtain ⟨k1, k2, k3⟩ := U.edgesOk e he
      have hv := (s2 e).1 he
      have hx : e ∉ absorbed T unite := fun hm => by
        rcases absorbed_ty r A ((mem_absorbed A).1 hm) with h | h | h <;> omega
      obtain ⟨j1, j2⟩ := C.keep e k1 hx
      exact ⟨j1, k2, by rw [j2]; exact (visits_ok I A (e := e) (by omega)).2.2⟩) hd
  have hct : ∀ c ∈ unitedCells T unite, Visible T c ∧ c.ty = 3 ∧ c ∉ absorbed T unite := by
    intro c hc
    obtain ⟨f, hf, hm⟩ := mem_unitedCells.1 hc
    obtain ⟨k1, k2⟩ := mem_cellsOf'.1 hm
    have := (A.face f hf).1
    have := (I.highTy (fun h => h) k1).1 (by omega)
    refine ⟨⟨(I.highLive (fun h => h) k1).2, k2⟩, by omega, fun hm => ?_⟩
    rcases absorbed_ty r A ((mem_absorbed A).1 hm) with h | h | h <;> omega
  rcases createFace_cases hes e2 with ⟨-, hd', -, -⟩ | ⟨-, rfl, -, -, -, hT2⟩
  · cases hd'
  have hal2 : T2.alive = set1 T1.alive (⟨2, id⟩ : El) true := by rw [hT2]; rfl
  have hal : ∀ x, T1.alive x = true → set1 T1.alive (⟨2, id⟩ : El) true x = true := by
    intro x hx
    unfold set1; split
    · rfl
    · exact hx
  have hr0 : (⟨2, id⟩ : El) ∉ unitedCells T unite := fun h => by have := (hct _ h).2.1; simp at this
  obtain ⟨T3, e3, -⟩ := forEach_total (P := fun U => U.alive = set1 T1.alive (⟨2, id⟩ : El) true) (g := Topo.tieCell ⟨2, id⟩)
    (unitedCells T unite) T2 hal2 (by
    intro U c u1 hcm
    obtain ⟨k1, k2, k3⟩ := hct c hcm
    unfold Topo.tieCell
    rw [modHigh_total _ (by rw [u1]; exact set1_same _ _ _) (Or.inl (by simp))]
    simp only
    rw [modLow_total _ (by show U.alive c = true; rw [u1]; exact hal c (C.keep c k1.1 k3).1) (Or.inl (by omega))]
    exact ⟨_, rfl, u1⟩)
  refine ⟨T3, ?_⟩
  unfold Topo.uniteFacesRun
  simp only [e1, e2, e3]
  rw [if_neg]
  intro hany
  obtain ⟨c, hcm, hlt⟩ := List.any_eq_true.1 hany
  have hlt := of_decide_eq_true hlt
  obtain ⟨F, -, -, t3, t4⟩ := tieCells_spec _ _ T3 hr0 e3
  obtain ⟨k1, k2, k3⟩ := hct c hcm
  obtain ⟨f, hf, hm⟩ := mem_unitedCells.1 hcm
  have h4c := h4 f hf c hm
  have hlow := C.low c k3
  have hdh := (C.inv.dead _ hd).2.2
  have hhid : ∀ x, T3.hid x = T1.hid x := by
    intro x
    rw [F.hid, hT2]
    show (T1.hide && set1 T1.hidden ⟨2, id⟩ false x) = _
    unfold Topo.hid
    by_cases hx : x = ⟨2, id⟩
    · subst hx; rw [set1_same, hdh]
    · rw [set1_ne _ _ hx]
  have hcr : c ≠ ⟨2, id⟩ := by rintro rfl; simp at k2
  have hg : T1.hid ⟨2, id⟩ = false := by unfold Topo.hid; rw [hdh, Bool.and_false]
  have hl3 : (T3.low c).filter (fun y => !T3.hid y) =
      (facesOf T c).filter (fun y => decide (y ∉ absorbed T unite)) ++ [⟨2, id⟩] := by
    rw [← hlow]
    unfold facesOf
    have : (fun y => !T3.hid y) = fun y => !T1.hid y := by funext y; rw [hhid]
    rw [t3, this, List.filter_append, List.count_eq_one_of_mem nodup_unitedCells hcm]
    congr 1
    · rw [hT2]
      show (set1 T1.low _ _ c).filter _ = _
      rw [set1_ne _ _ hcr]
    · simp [hg]
  have hff : (facesOf T c).filter (fun y => decide (y ∉ absorbed T unite)) = (facesOf T c).filter fun g => decide (g ∉ unite) := by
    refine List.filter_congr fun y hy => decide_eq_decide.2 (not_congr ?_)
    rw [mem_absorbed A]
    refine ⟨fun hm => ?_, Or.inl⟩
    have := (I.lowTy c y (mem_facesOf.1 hy).1).1 (by omega)
    rcases absorbed_ty r A hm with h | h | h
    · exact h.2
    · omega
    · omega
  rw [hl3, hff, List.length_append, List.length_singleton] at hlt
  omega

end Verif.Split
