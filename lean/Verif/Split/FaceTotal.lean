import Verif.Split.FaceFails

/-! A call of `SplitFace` has a defined outcome. -/

namespace Verif.Split
open Verif.Topology Verif.EdgeLoop

variable {cn : Bool} {T T' : Topo} {flip : Topo → El → Bool} {K : Type} {W : Incident.Meas El K} {dup prot : Bool} {f : El}
  {edges ret : List El} {ids : List Nat}

theorem forEach_total {α : Type} {g : Topo → α → Option Topo} {P : Topo → Prop} : ∀ (l : List α) (T : Topo), P T →
    (∀ T x, P T → x ∈ l → ∃ T', g T x = some T' ∧ P T') → ∃ T', forEach g l T = some T' ∧ P T'
  | [], T, h, _ => ⟨T, rfl, h⟩
  | x :: xs, T, h, hg => by
    obtain ⟨T1, e1, h1⟩ := hg T x h (by simp)
    obtain ⟨T2, e2, h2⟩ := forEach_total xs T1 h1 fun T y hT hy => hg T y hT (by simp [hy])
    exact ⟨T2, by unfold forEach; rw [e1]; exact e2, h2⟩

theorem modLow_total {x : El} (g : List El → List El) (ha : T.alive x = true) (h : 0 < x.ty ∨ T.cn = true) :
    T.modLow x g = some { T with low := set1 T.low x (g (T.low x)) } := by
  unfold Topo.modLow Topo.lcOf
  rw [if_pos ⟨ha, h⟩]

theorem modHigh_total {x : El} (g : List El → List El) (ha : T.alive x = true) (h : x.ty < 3 ∨ T.cn = true) :
    T.modHigh x g = some { T with high := set1 T.high x (g (T.high x)) } := by
  unfold Topo.modHigh Topo.hcOf
  rw [if_pos ⟨ha, h⟩]

/-- The lists of living elements and the kind of mesh are as in `T`. -/
def Same (T T' : Topo) : Prop := T'.alive = T.alive ∧ T'.cn = T.cn

theorem dropFace_total (I : Inv T (fun _ => False)) (h2 : f.ty = 2) (ha : T.alive f = true) :
    ∃ T', T.dropFace flip f (T.cellsOf f) = some T' := by
  unfold Topo.dropFace
  split
  · obtain ⟨T', h, -⟩ := hideEl_spec (flip := flip) I ha
    exact ⟨T', h⟩
  next hh =>
  have hh' : T.hide = false := by simpa using hh
  have hc : T.cellsOf f = T.high f := by
    unfold Topo.cellsOf
    refine List.filter_eq_self.2 fun x _ => ?_
    unfold Topo.hid; rw [hh']; rfl
  rw [hc]
  obtain ⟨T1, e1, s1⟩ := forEach_total (P := Same T) (g := fun T c => T.modLow c (·.erase f)) (T.high f) T ⟨rfl, rfl⟩ (by
    rintro U c ⟨u1, u2⟩ hcm
    have := (I.highTy (fun h => h) hcm).1 (by omega)
    exact ⟨_, modLow_total _ (by rw [u1]; exact (I.highLive (fun h => h) hcm).2) (Or.inl (by omega)), u1, u2⟩)
  simp only [e1]
  rw [modHigh_total _ (by rw [s1.1]; exact ha) (Or.inl (by omega))]
  have e2 : T1 = { T with low := fun x => eraseAll f (T.low x) } := by
    rw [erases_spec f _ _ _ e1]
    congr 1
    funext x
    exact erase_iter f _ _ (Nat.le_of_eq (I.mirror f x (fun h => h)))
  subst e2
  have I2 : Inv ({ T with low := fun x => eraseAll f (T.low x), high := set1 T.high f [] } : Topo) (fun _ => False) := by
    refine ⟨I.tyLe, fun x hx => ?_, I.lastLt, fun x y hy => I.lowTy x y (mem_eraseAll.1 hy).1, fun a b _ => ?_, fun _ _ h => h.elim⟩
    · obtain ⟨k1, k2, k3⟩ := I.dead x hx
      refine ⟨by simp [k1, eraseAll], ?_, k3⟩
      show set1 T.high f [] x = []
      unfold set1; split
      · rfl
      · exact k2
    · show (eraseAll f (T.low b)).count a = (set1 T.high f [] a).count b
      by_cases haf : a = f
      · subst haf
        rw [set1_same]
        exact List.count_eq_zero.2 fun h => (mem_eraseAll.1 h).2 rfl
      · rw [set1_ne _ _ haf, ← I.mirror a b (fun h => h)]
        induction T.low b with
        | nil => rfl
        | cons x xs ih =>
          by_cases hx : x = f
          · subst hx
            simp only [eraseAll, if_true]
            rw [List.count_cons_of_ne (Ne.symm haf), ih]
          · simp only [eraseAll, if_neg hx, List.count_cons, ih]
  obtain ⟨T', h, -⟩ := destroy_removed (flip := flip) I2 (h := f) ha hh'
  exact ⟨T', h⟩

/-- `CreateFace` succeeds. -/
theorem createFace_total {l : List El} {id : Nat} (hU : EdgeUp T) (h3 : l ≠ [])
    (hl : ∀ e ∈ l, T.alive e = true ∧ e.ty = 1 ∧ T.hid e = false) (hid : T.alive ⟨2, id⟩ = false) :
    ∃ T1 g new, T.create dup 2 id l [] = some (T1, some g, new) ∧ T1.alive g = true ∧ g.ty = 2 ∧ T1.cn = T.cn ∧
      ∀ x, T1.alive x = true → T.alive x = true ∨ x = ⟨2, id⟩ := by
  unfold Topo.create
  rw [if_neg h3]
  have hup : ∃ T1, T.createUp ⟨2, id⟩ l [] = some T1 ∧ T1.alive = set1 T.alive ⟨2, id⟩ true ∧ T1.cn = T.cn := by
    unfold Topo.createUp
    obtain ⟨T1, e1, s1⟩ := forEach_total (P := Same (T.tie ⟨2, id⟩))
      (g := fun T x => T.modHigh x (· ++ [(⟨2, id⟩ : El)])) l (T.tie ⟨2, id⟩) ⟨rfl, rfl⟩ (by
      rintro U x ⟨u1, u2⟩ hx
      obtain ⟨k1, k2, -⟩ := hl x hx
      refine ⟨_, modHigh_total _ ?_ (Or.inl (by omega)), u1, u2⟩
      rw [u1]
      show set1 T.alive ⟨2, id⟩ true x = true
      unfold set1; split
      · rfl
      · exact k1)
    simp only [e1]
    rw [modLow_total _ (by rw [s1.1]; exact set1_same _ _ _) (Or.inl (by simp))]
    exact ⟨{ T1 with low := set1 T1.low ⟨2, id⟩ (T1.low ⟨2, id⟩ ++ l) }, rfl, s1.1, s1.2⟩
  obtain ⟨T1, e1, s1, s2⟩ := hup
  have hnew : ∀ x, T1.alive x = true → T.alive x = true ∨ x = ⟨2, id⟩ := by
    intro x hx
    rw [s1] at hx
    by_cases h : x = ⟨2, id⟩
    · exact Or.inr h
    · rw [set1_ne _ _ h] at hx; exact Or.inl hx
  cases dup with
  | false =>
    simp only [hid, e1]
    exact ⟨T1, ⟨2, id⟩, true, by simp, by rw [s1]; exact set1_same _ _ _, rfl, s2, hnew⟩
  | true =>
    obtain ⟨e0, he0⟩ := List.exists_mem_of_ne_nil l h3
    obtain ⟨r, h1, -, -⟩ := findShared_spec (T := T) (arr := l) ⟨e0, he0, (hl e0 he0).2.2⟩
      fun x hx => ⟨(hl x hx).1, by have := (hl x hx).2.1; omega⟩
    cases r with
    | none =>
      simp only [if_true, h1, hid, e1]
      exact ⟨T1, ⟨2, id⟩, true, by simp, by rw [s1]; exact set1_same _ _ _, rfl, s2, hnew⟩
    | some g =>
      have hg := findShared_all h1 e0 he0 (hl e0 he0).2.2 fun x hx => ⟨(hl x hx).1, by have := (hl x hx).2.1; omega⟩
      obtain ⟨-, k1, k2⟩ := hU e0 g (hl e0 he0).2.1 hg
      simp only [if_true, h1]
      exact ⟨T, g, false, rfl, k1, k2, rfl, fun _ h => Or.inl h⟩

theorem makeFaces_total {cells : List El} : ∀ (loops : List (List El)) (ids : List Nat) (T : Topo), EdgeUp T →
    (∀ l ∈ loops, 3 ≤ l.length ∧ ∀ e ∈ l, T.alive e = true ∧ e.ty = 1 ∧ T.hid e = false) →
    ids.Nodup → (∀ id ∈ ids, T.alive ⟨2, id⟩ = false) → loops.length ≤ ids.length →
    ∃ T' ret, Topo.makeFaces dup cells loops ids T = some (T', ret)
  | [], ids, T, _, _, _, _, _ => ⟨T, [], rfl⟩
  | l :: ls, [], T, _, _, _, _, h => by simp at h
  | l :: ls, id :: ids, T, hU, hl, hn, hd, hlen => by
    obtain ⟨h3, hle⟩ := hl l (by simp)
    have hne : l ≠ [] := by rintro rfl; simp at h3
    obtain ⟨T1, g, new, e1, a1, t1, c1, n1⟩ := createFace_total (dup := dup) hU hne hle (hd id (by simp))
    have e2 := modHigh_total (T := T1) (if new then fun _ => cells else addNew cells) a1 (Or.inl (by omega))
    obtain ⟨U2, -, hh, -⟩ := pairStep hU (T0 := T) (acc := []) ⟨rfl, fun x hx => ⟨hx, rfl, rfl⟩,
      fun x h1 h2 => (by rw [h1] at h2; cases h2), by simp⟩ h3 hle e1 e2
    rw [List.nodup_cons] at hn
    have hmono : ∀ x, T.alive x = true → T1.alive x = true := by
      rcases createFace_cases hne e1 with ⟨-, -, rfl, -⟩ | ⟨-, rfl, hd', -, -, rfl⟩
      · exact fun _ h => h
      · intro x hx
        show set1 T.alive ⟨2, id⟩ true x = true
        rw [set1_ne _ _ (by rintro rfl; rw [hd'] at hx; cases hx)]; exact hx
    obtain ⟨T3, rs, e3⟩ := makeFaces_total (cells := cells) ls ids _ U2 (fun l' h' => ⟨(hl l' (by simp [h'])).1, fun e he => by
        obtain ⟨q1, q2, q3⟩ := (hl l' (by simp [h'])).2 e he
        exact ⟨hmono e q1, q2, by rw [hh e q1]; exact q3⟩⟩) hn.2 (by
        intro i hi
        cases h : T1.alive ⟨2, i⟩ with
        | false => rfl
        | true =>
          exfalso
          rcases n1 _ h with k | k
          · rw [hd i (by simp [hi])] at k; cases k
          · have : i = id := congrArg El.id k
            exact hn.1 (this ▸ hi)) (by simpa using hlen)
    refine ⟨T3, g :: rs, ?_⟩
    unfold Topo.makeFaces
    rw [if_neg (by omega)]
    simp only [e1, e2, e3]

theorem cellLinks_total {ret cnodes cells : List El} (hc : ∀ c ∈ cells, T.alive c = true ∧ c.ty = 3)
    (hn : ∀ n ∈ cnodes, T.alive n = true) : ∃ T', forEach (Topo.cellLinks ret cnodes) cells T = some T' := by
  obtain ⟨T', h, -⟩ := forEach_total (P := Same T) (g := Topo.cellLinks ret cnodes) cells T ⟨rfl, rfl⟩ (by
    rintro U c ⟨u1, u2⟩ hcm
    obtain ⟨k1, k2⟩ := hc c hcm
    unfold Topo.cellLinks
    rw [modLow_total _ (by rw [u1]; exact k1) (Or.inl (by omega))]
    simp only
    split
    · next hcn =>
      rw [modHigh_total (T := { U with low := set1 U.low c (U.low c ++ ret) }) _ (by rw [u1]; exact k1) (Or.inr hcn)]
      exact forEach_total (P := Same T) cnodes _ ⟨u1, u2⟩ (by
        rintro V n ⟨v1, v2⟩ hnm
        exact ⟨_, modLow_total _ (by rw [v1]; exact hn n hnm) (Or.inr (by rw [v2, ← u2]; exact hcn)), v1, v2⟩)
    · exact ⟨_, rfl, u1, u2⟩)
  exact ⟨T', h⟩

/-- There are no more loops than elements. -/
theorem loops_le : ∀ (ls : List (List El)) (cols : List El), (∀ l ∈ ls, ∀ c ∈ l, c ∈ cols) →
    (∀ (pre post : List (List El)) (l : List El), ls = pre ++ l :: post → ∃ c ∈ l, ∀ l' ∈ post, c ∉ l') →
    ls.length ≤ cols.length
  | [], cols, _, _ => by simp
  | l :: ls, cols, hs, ho => by
    obtain ⟨c, hc, hn⟩ := ho [] ls l rfl
    have hm := hs l (by simp) c hc
    have := loops_le ls (cols.erase c) (fun l' hl' x hx => by
      rw [List.mem_erase_of_ne (by rintro rfl; exact hn l' hl' hx)]
      exact hs l' (by simp [hl']) x hx) fun pre post x e => ho (l :: pre) post x (by rw [e]; rfl)
    rw [List.length_erase_of_mem hm] at this
    have : 0 < cols.length := List.length_pos_of_mem hm
    rw [List.length_cons]
    omega

/-- C87: the call has a defined outcome if there are enough unused numbers for new faces. -/
theorem C87_defined (r : Reach cn T) (A : FaceArgs T dup f edges) (ha : T.alive f = true)
    (hal : ∀ e ∈ edges, T.alive e = true)
    (hfar : Incident.Far W (innerOf T f edges) (edgesOf T f))
    (hn : ids.Nodup) (hd : ∀ id ∈ ids, T.alive ⟨2, id⟩ = false) (hlen : edges.length + (edgesOf T f).length ≤ ids.length) :
    ∃ T' ret, splitFace W flip T dup prot f edges ids = some (T', ret) := by
  have I := (reach_inv r).1
  have hf := A.face
  unfold splitFace
  rw [if_neg (by
    rintro (h | h)
    · rw [ha] at h; cases h
    · obtain ⟨e, h1, h2⟩ := List.any_eq_true.1 h
      rw [hal e h1] at h2; cases h2)]
  split
  · exact ⟨_, _, rfl⟩
  have hcn : ∃ cnodes, innerNodes T f edges = some cnodes := by
    unfold innerNodes
    split
    · obtain ⟨ns, hL, hnn⟩ := A.polygon
      rw [getNodes_spec (f := f) hL hnn]
      exact ⟨_, rfl⟩
    · exact ⟨_, rfl⟩
  obtain ⟨cnodes, hcn⟩ := hcn
  simp only [hcn]
  split
  · exact ⟨_, _, rfl⟩
  obtain ⟨ls, hl⟩ := Incident.C86_terminates W T.low (innerOf T f edges) (edgesOf T f)
  have hl' := hl
  unfold edgesOf at hl'
  simp only [hl']
  obtain ⟨T1, h1⟩ := dropFace_total (flip := flip) I hf ha
  obtain ⟨d1, d2, -, -, -, -⟩ := drop_facts I A.face h1
  obtain ⟨I1, c1, -⟩ := dropFace_inv I A.face h1
  have hle1 : ∀ l ∈ ls, 3 ≤ l.length ∧ ∀ e ∈ l, T1.alive e = true ∧ e.ty = 1 ∧ T1.hid e = false := by
    intro l hlm
    obtain ⟨ns, hL, -⟩ := A.loop hl hfar hlm
    refine ⟨hL.three, fun e he => ?_⟩
    have : T.alive e = true ∧ e.ty = 1 ∧ T.hid e = false := by
      rcases (Incident.C86_closed hl hlm).2.2.1 e he with h | h
      · have := (mem_innerOf.1 h).1
        exact ⟨hal e this, A.edge e this⟩
      · obtain ⟨k1, k2⟩ := List.mem_filter.1 h
        have := (I.lowTy f e k1).1 (by omega)
        exact ⟨(I.lowLive k1).1, by omega, by simpa using k2⟩
    have hef : e ≠ f := by rintro rfl; omega
    exact ⟨(d2 e hef).1.trans this.1, this.2.1, by unfold Topo.hid; rw [d1, (d2 e hef).2]; exact this.2.2⟩
  have hU : EdgeUp T1 := by
    intro e g he hg
    have := (I1.highTy (fun h => h) hg).1 (by omega)
    exact ⟨(I1.mem (fun h => h)).2 hg, (I1.highLive (fun h => h) hg).2, by omega⟩
  have hnum : ls.length ≤ ids.length := by
    have := loops_le ls (innerOf T f edges ++ edgesOf T f)
      (fun l hlm c hc => List.mem_append.2 ((Incident.C86_closed hl hlm).2.2.1 c hc))
      fun pre post l e => Incident.C86_order A.cols hfar (fun c hc => A.two hc) (e ▸ hl)
    rw [List.length_append] at this
    have h2 : (innerOf T f edges).length ≤ edges.length := List.length_filter_le _ _
    omega
  obtain ⟨T2, ret, h2⟩ := makeFaces_total (dup := dup) (cells := T.cellsOf f) ls ids T1 hU hle1 hn (fun id hid => by
    have hne : (⟨2, id⟩ : El) ≠ f := by rintro rfl; rw [hd id hid] at ha; cases ha
    rw [(d2 _ hne).1]; exact hd id hid) hnum
  have hmono := (makeFaces_old _ _ _ _ _ h2).2.1
  obtain ⟨-, cn2⟩ := A.newNodes hcn
  obtain ⟨T3, h3⟩ := cellLinks_total (T := T2) (ret := ret) (cnodes := cnodes) (cells := T.cellsOf f) (by
    intro c hc
    have hm := (List.mem_filter.1 hc).1
    have := (I.highTy (fun h => h) hm).1 (by omega)
    refine ⟨(hmono c ?_).1, by omega⟩
    rw [(d2 c (by rintro rfl; omega)).1]
    exact (I.highLive (fun h => h) hm).2) (by
    intro n hnm
    obtain ⟨-, ⟨e, he, hne⟩, -⟩ := (cn2 n).1 hnm
    have := (I.lowTy e n hne).1 (by have := (A.edge e he).1; omega)
    refine (hmono n ?_).1
    rw [(d2 n (by rintro rfl; have := (A.edge e he).1; omega)).1]
    exact (I.lowLive hne).1)
  refine ⟨T3, ret, ?_⟩
  unfold Topo.splitFaceRun
  simp only [h1, h2, h3]

example : ∃ T' ret, splitFace unit (fun _ _ => false) pyr true false (fc 0) [ed 8] [5, 6, 7, 8, 9] = some (T', ret) :=
  C87_defined reach_pyr args_pyr (by decide +kernel) (by decide +kernel) (unit_far _ _) (by decide) (by decide +kernel)
    (by decide +kernel)

end Verif.Split
