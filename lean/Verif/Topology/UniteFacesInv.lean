import Verif.Topology.UniteFaces
import Verif.Topology.SplitFaceInv

/-! Uniting faces keeps the connections mutual. -/

namespace Verif.Topology

variable {T T' : Topo} {flip : Topo → El → Bool}

theorem delete_eq (hh : T.hide = false) (x : El) : T.delete flip x = T.destroy flip x := by
  unfold Topo.delete Topo.destroy
  rw [if_neg (by simp [hh]), deleteF, if_neg (by simp [hh])]

theorem remFace_eq : Topo.remFace flip = Topo.remEdge flip := by
  funext T f
  unfold Topo.remFace Topo.remEdge
  split
  · rfl
  next hh =>
  cases h1 : T.modHigh f fun _ => [] with
  | none => rfl
  | some T1 =>
    obtain ⟨-, -, rfl⟩ := modHigh_some h1
    exact delete_eq (T := { T with high := set1 T.high f [] }) (by simpa using hh) f

theorem hid_false (hh : T.hide = false) (x : El) : T.hid x = false := by
  unfold Topo.hid; rw [hh]; rfl

theorem any_none (hh : T.hide = false) {l : List El} (h : ¬ l.any (fun u => !T.hid u) = true) : l = [] := by
  refine List.eq_nil_iff_forall_not_mem.2 fun x hx => h (List.any_eq_true.2 ⟨x, hx, ?_⟩)
  rw [hid_false hh]; rfl

theorem remInner_hide {x : El} (hh : T.hide = true) (ht : x.ty ≠ 3) (h : T.remInner flip x = some T') :
    T.alive x = true ∧ T' = { T with hidden := set1 T.hidden x true } := by
  unfold Topo.remInner at h
  split at h
  · cases h
  exact hideEl_spec0 ht h

theorem remCorner_hide {x : El} (hh : T.hide = true) (ht : x.ty ≠ 3) (h : T.remCorner flip x = some T') :
    T.alive x = true ∧ T' = { T with hidden := set1 T.hidden x true } := by
  unfold Topo.remCorner at h
  split at h
  · cases h
  exact hideEl_spec0 ht h

theorem bare_gone (I : Inv T (fun _ => False)) {e : El} (h0 : 0 < e.ty) (h3 : e.ty < 3) (hb : T.high e = [])
    (h : T.destroy flip e = some T') : Gone T [e] T' := by
  have M : ∀ {a b : El}, a ∈ T.low b ↔ b ∈ T.high a := fun {a b} => I.mem (fun h => h)
  have hee : e ∉ T.low e := fun h => by have := (I.lowTy e e h).1 (by omega); omega
  have hnl : ∀ x, e ∉ T.low x := fun x hm => by have := M.1 hm; rw [hb] at this; cases this
  obtain ⟨g1, g2, g3, g4, g5, g6, g7, g8, g9⟩ := destroy_bare h3 hb hee h
  refine ⟨g3, g4, g5, fun x => ?_, fun x => ?_, fun x => ?_, fun x => ?_⟩
  · rw [g6]; simp [set1]
  · rw [g7]; simp [set1]
  · rw [g8]
    by_cases hx : x = e
    · subst hx; simp [set1]
    · simp only [set1_ne _ _ hx, List.mem_singleton, hx, if_false]
      refine (List.filter_eq_self.2 fun y hy => ?_).symm
      have : y ≠ e := by rintro rfl; exact hnl x hy
      simpa using this
  · rw [g9]
    by_cases hx : x = e
    · subst hx; simp [hee, hb]
    · simp only [List.mem_singleton, hx, if_false, h0, true_or, and_true]
      rw [show (T.high x).filter (fun y => decide (¬ y = e)) = eraseAll e (T.high x) by rw [eraseAll_eq]]
      split
      · rfl
      · next hn => exact (eraseAll_none fun hy => hn (M.2 hy)).symm

theorem remInner_gone (I : Inv T (fun _ => False)) {e : El} (ht : e.ty = 1) (hh : T.hide = false)
    (h : T.remInner flip e = some T') : Gone T [e] T' := by
  unfold Topo.remInner at h
  split at h
  · cases h
  next ha =>
  rw [if_neg (by simp [hh]), delete_eq hh] at h
  exact bare_gone I (by omega) (by omega) (any_none hh ha) h

theorem remCorner_gone (I : Inv T (fun _ => False)) {n : El} (ht : n.ty = 0) (hh : T.hide = false)
    (h : T.remCorner flip n = some T') : Gone T [n] T' := by
  have M : ∀ {a b : El}, a ∈ T.low b ↔ b ∈ T.high a := fun {a b} => I.mem (fun h => h)
  unfold Topo.remCorner at h
  split at h
  · cases h
  next ha =>
  have hb := any_none hh ha
  rw [if_neg (by simp [hh])] at h
  have hnn : n ∉ T.low n := fun hm => by have := ((I.lowTy n n hm).2 ht).2; omega
  have hnl : ∀ x, n ∉ T.low x := fun x hm => by have := M.1 hm; rw [hb] at this; cases this
  split at h
  · cases h
  next T1 h1 =>
  have key : ∃ H L, T1 = { T with high := H, low := L } ∧ (∀ x, H x = if x ∈ T.low n then
      eraseAll n (T.high x) else T.high x) ∧ ∀ x, L x = if x = n then [] else T.low x := by
    split at h1
    · next hc =>
      split at h1
      · cases h1
      next lc hl =>
      have : lc = T.low n := by
        unfold Topo.lcOf at hl
        split at hl
        · cases hl; rfl
        · cases hl
      subst this
      split at h1
      · cases h1
      next T0 h0 =>
      have := erHigh_spec n _ _ _ h0
      subst this
      obtain ⟨-, rfl⟩ := modLow_some h1
      exact ⟨_, _, rfl, fun _ => rfl, fun x => rfl⟩
    · next hc =>
      cases h1
      have hl : T.low n = [] := List.eq_nil_iff_forall_not_mem.2 fun x hx => hc ((I.lowTy n x hx).2 ht).1
      refine ⟨T.high, T.low, rfl, fun x => by simp [hl], fun x => ?_⟩
      split
      · next hx => rw [hx, hl]
      · rfl
  obtain ⟨H, L, rfl, hH, hL⟩ := key
  have hHn : H n = [] := by rw [hH, if_neg hnn]; exact hb
  have hLn : L n = [] := by rw [hL, if_pos rfl]
  obtain ⟨g1, g2, g3, g4, g5, g6, g7, g8, g9⟩ := destroy_bare (T := { T with high := H, low := L })
    (by omega) hHn (by show n ∉ L n; rw [hLn]; simp) h
  refine ⟨g3, g4, g5, fun x => ?_, fun x => ?_, fun x => ?_, fun x => ?_⟩
  · rw [g6]; simp [set1]
  · rw [g7]; simp [set1]
  · rw [g8]
    by_cases hx : x = n
    · subst hx; simp [set1]
    · simp only [set1_ne _ _ hx, List.mem_singleton, hx, if_false, hL]
      refine (List.filter_eq_self.2 fun y hy => ?_).symm
      have : y ≠ n := by rintro rfl; exact hnl x hy
      simpa using this
  · rw [g9]
    by_cases hx : x = n
    · subst hx; simp [hLn, hHn]
    · simp only [List.mem_singleton, hx, if_false, hH, hLn, List.not_mem_nil, false_and]
      rw [show (T.high x).filter (fun y => decide (¬ y = n)) = eraseAll n (T.high x) by rw [eraseAll_eq]]
      split
      · rfl
      · next hm => exact (eraseAll_none fun hy => hm (M.2 hy)).symm

theorem goneLoop {f : Topo → El → Option Topo} {t : Nat} (hf : ∀ T x T', Inv T (fun _ => False) → T.hide = false →
      x.ty = t → f T x = some T' → Gone T [x] T') :
    ∀ (l : List El) (T T' : Topo), Inv T (fun _ => False) → T.hide = false → (∀ x ∈ l, x.ty = t) →
    forEach f l T = some T' → Gone T l T'
  | [], T, T', _, _, _, h => by cases h; exact .nil _
  | n :: ns, T, T', I, hh, ht, h => by
    unfold forEach at h
    split at h
    · cases h
    next T1 h1 =>
    have G := hf T n T1 I hh (ht n (by simp)) h1
    exact G.trans (goneLoop hf ns T1 T' (G.inv I) (by rw [G.hide]; exact hh) (fun x hx => ht x (by simp [hx])) h)

/-- The faces, the inner edges and the inner nodes are hidden or gone, nothing else changes. -/
theorem remParts_spec {faces cells inner nodes : List El} (I : Inv T (fun _ => False))
    (hF : ∀ x ∈ faces, x.ty = 2) (hnd : faces.Nodup) (hC : ∀ c, c ∈ cells ↔ ∃ f ∈ faces, c ∈ T.cellsOf f)
    (hE : ∀ x ∈ inner, x.ty = 1) (hN : ∀ x ∈ nodes, x.ty = 0)
    (h : T.remParts flip faces cells inner nodes = some T') :
    (T.hide = true ∧ (∀ x ∈ faces ++ inner ++ nodes, T.alive x = true) ∧
      T' = { T with hidden := fun x => if x ∈ faces ++ inner ++ nodes then true else T.hidden x }) ∨
    (T.hide = false ∧ Gone T (faces ++ inner ++ nodes) T') := by
  have M : ∀ {a b : El}, a ∈ T.low b ↔ b ∈ T.high a := fun {a b} => I.mem (fun h => h)
  unfold Topo.remParts at h
  split at h
  · cases h
  next T1 h1 =>
  split at h
  · cases h
  next T2 h2 =>
  split at h
  · cases h
  next T3 h3 =>
  cases hh : T.hide with
  | true =>
    rw [hh] at h1
    simp only [if_true, Option.some.injEq] at h1
    subst h1
    obtain ⟨a1, rfl⟩ := hideLoop_spec (f := Topo.remFace flip) (fun T x T' hh ht h => by
      unfold Topo.remFace at h; rw [if_pos hh] at h; exact hideEl_spec0 ht h) faces T T2 hh
      (fun x hx => by have := hF x hx; omega) h2
    obtain ⟨a2, rfl⟩ := hideLoop_spec (f := Topo.remInner flip) (fun T x T' hh ht h => remInner_hide hh ht h) inner
      { T with hidden := fun x => if x ∈ faces then true else T.hidden x } T3 hh
      (fun x hx => by have := hE x hx; omega) h3
    obtain ⟨a3, rfl⟩ := hideLoop_spec (f := Topo.remCorner flip) (fun T x T' hh ht h => remCorner_hide hh ht h) nodes
      { T with hidden := fun x => if x ∈ inner then true else if x ∈ faces then true else T.hidden x } T' hh
      (fun x hx => by have := hN x hx; omega) h
    refine Or.inl ⟨rfl, fun x hx => ?_, ?_⟩
    · rcases List.mem_append.1 hx with hx | hx
      · rcases List.mem_append.1 hx with hx | hx
        · exact a1 x hx
        · exact a2 x hx
      · exact a3 x hx
    · congr 1
      funext x
      by_cases g1 : x ∈ faces <;> by_cases g2 : x ∈ inner <;> by_cases g3 : x ∈ nodes <;> simp [g1, g2, g3]
  | false =>
    rw [hh] at h1
    simp only [Bool.false_eq_true, if_false] at h1
    have := filtLow_spec faces cells _ _ h1
    subst this
    have hfc : ∀ y, y ∈ cells ↔ ∃ e ∈ faces, y ∈ T.high e := by
      intro y
      rw [hC]
      unfold Topo.cellsOf
      simp [hid_false hh]
    have G0 : Going T faces [] faces { T with low := fun x => if x ∈ cells then (T.low x).filter (· ∉ faces) else T.low x } := by
      refine ⟨rfl, rfl, rfl, by simp, by simp, fun x => ?_, fun x => ?_⟩
      · simp only [List.not_mem_nil, if_false]
        split
        · rfl
        · next hx =>
          refine (List.filter_eq_self.2 fun y hy => ?_).symm
          have : y ∉ faces := fun hy' => hx ((hfc x).2 ⟨y, hy', M.1 hy⟩)
          simpa using this
      · simp only [List.not_mem_nil, if_false, not_false_eq_true, decide_true]
        split
        · rfl
        · exact (List.filter_eq_self.2 (by simp)).symm
    rw [remFace_eq] at h2
    have G1 := remEdges_going I (by omega) (by omega) hF faces [] _ T2 (by simpa using hnd) (fun _ h => h) G0 hh h2
    have G2 : Gone T faces T2 := by
      refine ⟨G1.cn, G1.last, G1.hide, by simpa using G1.alive, by simpa using G1.hidden,
        by simpa using G1.low, fun x => ?_⟩
      rw [G1.high]; simp
    have hh2 : T2.hide = false := by rw [G2.hide]; exact hh
    have G3 := goneLoop (f := Topo.remInner flip) (fun T x T' I hh ht h => remInner_gone I ht hh h) inner T2 T3
      (G2.inv I) hh2 hE h3
    have G4 := goneLoop (f := Topo.remCorner flip) (fun T x T' I hh ht h => remCorner_gone I ht hh h) nodes T3 T'
      (G3.inv (G2.inv I)) (by rw [G3.hide]; exact hh2) hN h
    exact Or.inr ⟨rfl, (G2.trans G3).trans G4⟩

theorem tieCells_spec {r : El} : ∀ (cells : List El) (T T' : Topo), r ∉ cells →
    forEach (Topo.tieCell r) cells T = some T' →
    Frame T T' ∧ (∀ c ∈ cells, T.alive c = true) ∧ (cells ≠ [] → T.alive r = true) ∧
    (∀ x, T'.low x = T.low x ++ List.replicate (cells.count x) r) ∧
    (∀ x, T'.high x = T.high x ++ if x = r then cells else [])
  | [], T, T', _, h => by cases h; exact ⟨.refl _, by simp, by simp, by simp, by simp⟩
  | c :: cs, T, T', hr, h => by
    unfold forEach at h
    split at h
    · cases h
    next T1 h1 =>
    unfold Topo.tieCell at h1
    split at h1
    · cases h1
    next T0 h0 =>
    obtain ⟨a0, -, rfl⟩ := modHigh_some h0
    obtain ⟨a1, rfl⟩ := modLow_some h1
    obtain ⟨F, b1, -, b3, b4⟩ := tieCells_spec cs _ T' (fun h => hr (by simp [h])) h
    refine ⟨⟨F.cn, F.alive, F.last, F.hide, F.hidden⟩, fun x hx => ?_, fun _ => a0, fun x => ?_, fun x => ?_⟩
    · rcases List.mem_cons.1 hx with rfl | hx
      · exact a1
      · exact b1 x hx
    · rw [b3]
      by_cases hx : x = c
      · subst hx
        simp [set1, List.replicate_succ]
      · simp [set1, hx, List.count_cons_of_ne (Ne.symm hx)]
    · rw [b4]
      by_cases hx : x = r
      · subst hx; simp [set1]
      · simp [set1, hx]

theorem tieCells_inv {r : El} {cells : List El} (I : Inv T (fun _ => False)) (hr : r.ty = 2) (hra : T.alive r = true)
    (hc : ∀ c ∈ cells, c.ty = 3) (h : forEach (Topo.tieCell r) cells T = some T') :
    Inv T' (fun _ => False) := by
  obtain ⟨F, a1, a2, a3, a4⟩ := tieCells_spec cells T T' (fun h => by have := hc r h; omega) h
  refine I.link (A := [r]) (B := cells) F ?_ a1 ?_ ?_ ?_
  · intro x hx; rw [List.mem_singleton.1 hx]; exact hra
  · intro a ha b hb
    have := hc b hb
    rw [List.mem_singleton.1 ha]
    exact ⟨fun _ => by omega, fun _ => by omega⟩
  · intro x z
    rw [a3, List.count_append, List.count_replicate]
    by_cases hz : z = r
    · subst hz; simp
    · simp [hz, Ne.symm hz]
  · intro x z
    rw [a4, List.count_append]
    by_cases hx : x = r
    · subst hx; simp
    · simp [hx, Ne.symm hx]

theorem uniteFacesRun_parts {dup : Bool} {faces cells inner nodes edges : List El} {id : Nat} {r : El}
    (h : T.uniteFacesRun flip dup faces cells inner nodes edges id = some (T', r)) :
    ∃ T1 T2 new, T.remParts flip faces cells inner nodes = some T1 ∧
      T1.create dup 2 id edges [] = some (T2, some r, new) ∧ forEach (Topo.tieCell r) cells T2 = some T' ∧
      ∀ c ∈ cells, 4 ≤ ((T'.low c).filter fun y => !T'.hid y).length := by
  unfold Topo.uniteFacesRun at h
  split at h
  · cases h
  next T1 h1 =>
  split at h
  case h_2 => cases h
  next T2 r' new h2 =>
  split at h
  · cases h
  next T3 h3 =>
  split at h
  · cases h
  next h4 =>
  cases h
  refine ⟨T1, T2, new, h1, h2, h3, fun c hc => Nat.le_of_not_lt fun hlt => h4 (List.any_eq_true.2 ⟨c, hc, ?_⟩)⟩
  exact decide_eq_true hlt

theorem uniteFacesRun_inv {dup : Bool} {faces cells inner nodes edges : List El} {id : Nat} {r : El}
    (I : Inv T (fun _ => False)) (A : UniteFacesOk T faces cells inner nodes edges)
    (h : T.uniteFacesRun flip dup faces cells inner nodes edges id = some (T', r)) :
    Inv T' (fun _ => False) ∧ T'.cn = T.cn := by
  obtain ⟨T1, T2, new, h1, h2, h3, -⟩ := uniteFacesRun_parts h
  have key : Inv T1 (fun _ => False) ∧ T1.cn = T.cn ∧ ∀ x ∈ edges, T1.alive x = true := by
    rcases remParts_spec I A.face A.nodup A.cellsOk A.innerOk A.nodesOk h1 with ⟨-, ha, rfl⟩ | ⟨-, G⟩
    · exact ⟨hiddens_inv I ha, rfl, fun x hx => (A.edgesOk x hx).1⟩
    · refine ⟨G.inv I, G.cn, fun x hx => ?_⟩
      obtain ⟨e1, e2, e3⟩ := A.edgesOk x hx
      rw [G.alive, if_neg]
      · exact e1
      · rw [List.mem_append, List.mem_append]
        rintro ((h | h) | h)
        · have := A.face x h; omega
        · exact e3 h
        · have := A.nodesOk x h; omega
  obtain ⟨I1, c1, a1⟩ := key
  have C : CreateArgs T1 2 edges [] :=
    ⟨by simp, fun x hx => ⟨a1 x hx, by rw [(A.edgesOk x hx).2.1]⟩, by simp⟩
  obtain ⟨I2, c2⟩ := create_inv I1 C h2
  have hr : r.ty = 2 ∧ T2.alive r = true := by
    have hne : edges ≠ [] := by
      rintro rfl
      unfold Topo.create at h2
      rw [if_pos rfl] at h2
      cases h2
    rcases createFace_cases hne h2 with ⟨-, -, rfl, hf⟩ | ⟨-, rfl, hd, -, -, rfl⟩
    · obtain ⟨z, hz, hr⟩ := findShared_mem hf
      have := (I1.highTy (fun h => h) hr).1 (by rw [(A.edgesOk z hz).2.1]; omega)
      exact ⟨by rw [this, (A.edgesOk z hz).2.1], (I1.highLive (fun h => h) hr).2⟩
    · exact ⟨rfl, by simp [Topo.tie, set1]⟩
  have hct : ∀ c ∈ cells, c.ty = 3 := by
    intro c hc
    obtain ⟨f, hf, hm⟩ := (A.cellsOk c).1 hc
    have := (I.highTy (fun h => h) (List.mem_filter.1 hm).1).1 (by rw [A.face f hf]; omega)
    rw [this, A.face f hf]
  refine ⟨tieCells_inv I2 hr.1 hr.2 hct h3, ?_⟩
  obtain ⟨F, -⟩ := tieCells_spec cells T2 T' (fun h => by have := hct r h; omega) h3
  exact F.cn.trans (c2.trans c1)

end Verif.Topology
