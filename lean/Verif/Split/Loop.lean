import Verif.EdgeLoop.Lemmas
import Verif.Topology.Queries

/-! The loops of edges around a split edge. -/

namespace Verif.Split
open Verif.Topology Verif.EdgeLoop

variable {T T' : Topo} {flip : Topo → El → Bool}

theorem visIdx_spec {e : El} (hv : T.hid e = false) : ∀ (l : List El) (p : Nat), T.visIdx e l = some p →
    ∃ pre post, l = pre ++ e :: post ∧ pre.length = p ∧ e ∉ pre
  | [], p, h => by cases h
  | x :: xs, p, h => by
    unfold Topo.visIdx at h
    split at h
    · next hx =>
      cases h
      exact ⟨[], xs, by rw [hx.2]; rfl, rfl, by simp⟩
    · next hx =>
      cases hq : T.visIdx e xs with
      | none => rw [hq] at h; cases h
      | some q =>
        rw [hq] at h
        cases h
        obtain ⟨pre, post, h1, h2, h3⟩ := visIdx_spec hv xs q hq
        refine ⟨x :: pre, post, by rw [h1]; rfl, by simp [h2], ?_⟩
        intro hm
        rcases List.mem_cons.1 hm with rfl | hm
        · exact hx ⟨hv, rfl⟩
        · exact h3 hm

theorem prevIdx {p n : Nat} (hn : 0 < n) (hp : p ≤ n) :
    (p + n - 1) % n = if p = 0 then n - 1 else p - 1 := by
  split
  · next h => subst h; rw [Nat.zero_add]; exact Nat.mod_eq_of_lt (by omega)
  · next h =>
    have : p + n - 1 = (p - 1) + n := by omega
    rw [this, Nat.add_mod_right]
    exact Nat.mod_eq_of_lt (by omega)

theorem getElem?_last {l : List El} (h : l ≠ []) : l[l.length - 1]? = l.getLast? := by
  rw [List.getLast?_eq_getElem?]

/-- The element read before the insertion position. -/
theorem prev_of {pre mid post : List El} {x : El} (hne : post ++ pre ≠ [])
    (h : (pre ++ mid ++ post)[(pre.length + (pre ++ mid ++ post).length - 1) %
      (pre ++ mid ++ post).length]? = some x) : (post ++ pre).getLast? = some x := by
  have hn : 0 < (pre ++ mid ++ post).length := by
    have := List.length_pos_iff.2 hne
    simp only [List.length_append] at this ⊢
    omega
  rw [prevIdx hn (by simp only [List.length_append]; omega)] at h
  by_cases hp : pre = []
  · subst hp
    simp only [List.length_nil, if_true, List.nil_append] at h
    rw [List.append_nil] at hne ⊢
    have hl := List.length_pos_iff.2 hne
    rw [List.getElem?_append_right (by simp only [List.length_append]; omega)] at h
    rw [show (mid ++ post).length - 1 - mid.length = post.length - 1 by
      simp only [List.length_append]; omega, getElem?_last hne] at h
    exact h
  · have hl := List.length_pos_iff.2 hp
    rw [if_neg (by omega), List.append_assoc, List.getElem?_append_left (by omega), getElem?_last hp] at h
    rw [List.getLast?_append, h]; rfl

/-- The state of one face after the loop that inserts the new edges. -/
theorem insLoop_at {n0 f : El} {ret : List El} {q : Nat} : ∀ (pos : List (El × Nat)) (T T' : Topo),
    (pos.map Prod.fst).count f = 1 → (f, q) ∈ pos → (∀ x ∈ T.low f, x ∉ pos.map Prod.fst) →
    forEach (Topo.insStep n0 ret) pos T = some T' →
    ∃ b p, q ≤ (T.low f).length ∧
      (T.low f)[(q + (T.low f).length - 1) % (T.low f).length]? = some p ∧
      isEnd n0 (T.low p) = some b ∧
      T'.low f = (T.low f).take q ++ (if b then ret else ret.reverse) ++ (T.low f).drop q
  | [], T, T', h, _, _, _ => by simp at h
  | (g, r) :: pos, T, T', h, hm, hx, e => by
    unfold forEach at e
    split at e
    · cases e
    next T1 h1 =>
    obtain ⟨ha, b, p, hl, hp, hb, rfl⟩ := insStep_spec h1
    by_cases hg : g = f
    · subst hg
      have h0 : (pos.map Prod.fst).count g = 0 := by
        rw [List.map_cons, List.count_cons_self] at h; omega
      have hnm : g ∉ pos.map Prod.fst := List.count_eq_zero.1 h0
      have hr : r = q := by
        rcases List.mem_cons.1 hm with h | h
        · cases h; rfl
        · exact absurd (List.mem_map.2 ⟨_, h, rfl⟩) hnm
      subst hr
      obtain ⟨-, -, -, -, hs⟩ := insLoop_spec pos _ T' e
      refine ⟨b, p, hl, hp, hb, ?_⟩
      rw [hs g hnm]
      exact set1_same _ _ _
    · have hf : set1 T.low g (List.take r (T.low g) ++ (if b = true then ret else ret.reverse) ++
          List.drop r (T.low g)) f = T.low f := set1_ne _ _ (fun h => hg h.symm)
      have hm' : (f, q) ∈ pos := by
        rcases List.mem_cons.1 hm with h | h
        · cases h; exact absurd rfl hg
        · exact h
      have hc' : (pos.map Prod.fst).count f = 1 := by
        rw [List.map_cons, List.count_cons_of_ne hg] at h; exact h
      obtain ⟨b', p', k1, k2, k3, k4⟩ := insLoop_at (ret := ret) (n0 := n0) pos _ T' hc' hm' (by
        simp only [hf]
        intro x hx' hm
        exact hx x hx' (by simp only [List.map_cons, List.mem_cons]; exact Or.inr hm)) e
      simp only [hf] at k1 k2 k4
      refine ⟨b', p', k1, k2, ?_, k4⟩
      have hpg : p' ≠ g := by
        rintro rfl
        exact hx p' (List.mem_of_getElem? k2) (by simp)
      simp only [set1_ne _ _ hpg] at k3
      exact k3

/-- Every visible edge joins two different nodes. -/
def EdgesOk (T : Topo) : Prop :=
  ∀ x, T.alive x = true → x.ty = 1 → T.hid x = false → ∃ a b, a ≠ b ∧ Joins T x a b

/-- Successive elements differ. -/
def StepsDiffer : El → List El → Prop
  | _, [] => True
  | a, b :: bs => a ≠ b ∧ StepsDiffer b bs

theorem filter_hid {l : List El} (hh : ∀ n ∈ l, T'.hid n = T.hid n) :
    l.filter (fun x => !T'.hid x) = l.filter fun x => !T.hid x :=
  List.filter_congr fun n hn => by rw [hh n hn]

theorem joins_congr' {x a b : El} (hl : T'.low x = T.low x) (hh : ∀ n ∈ T.low x, T'.hid n = T.hid n)
    (h : Joins T x a b) : Joins T' x a b := by
  unfold Joins at h ⊢
  rw [hl, filter_hid hh]; exact h

theorem joins_congr {x a b : El} (hl : T'.low x = T.low x) (hh : ∀ n, T'.hid n = T.hid n)
    (h : Joins T x a b) : Joins T' x a b := joins_congr' hl (fun n _ => hh n) h

theorem Chained.hid {ret : List El} (C : Chained T ret T') (x : El) : T'.hid x = T.hid x := by
  unfold Topo.hid; rw [C.hide, C.hidden]

theorem EdgesOk.joins (h : EdgesOk T) {z x y : El} (hx : T.hid x = false) (hy : T.hid y = false) (hxy : x ≠ y)
    (ha : T.alive z = true) (ht : z.ty = 1) (hv : T.hid z = false) (mx : x ∈ T.low z) (my : y ∈ T.low z) :
    Joins T z x y := by
  obtain ⟨p, q, hpq, hj⟩ := h z ha ht hv
  have hmem : ∀ w, w ∈ T.low z → T.hid w = false → w = p ∨ w = q := by
    intro w hz hzv
    have : w ∈ (T.low z).filter fun x => !T.hid x := List.mem_filter.2 ⟨hz, by simp [hzv]⟩
    rcases hj with h | h <;> rw [h] at this
    · simpa using this
    · have := mem_two.1 this; exact this.symm
  rcases hmem x mx hx with rfl | rfl <;> rcases hmem y my hy with rfl | rfl
  · exact absurd rfl hxy
  · exact hj
  · exact hj.symm
  · exact absurd rfl hxy

theorem create_joins {dup b : Bool} {id : Nat} {x y r : El} (I : Inv T (fun _ => False))
    (hx : T.alive x = true ∧ x.ty = 0 ∧ T.hid x = false) (hy : T.alive y = true ∧ y.ty = 0 ∧ T.hid y = false)
    (hd : dup = true → ∀ z, T.alive z = true → z.ty = 1 → T.hid z = false → x ∈ T.low z → y ∈ T.low z →
      Joins T z x y)
    (h : T.create dup 1 id [x, y] [] = some (T', some r, b)) : Joins T' r x y := by
  rcases create_edge I ⟨hx.1, hx.2.1⟩ ⟨hy.1, hy.2.1⟩ h with ⟨hdup, rfl, hf⟩ | ⟨hnew, rfl, hu, -⟩
  · have hok := hd hdup
    obtain ⟨r', h1, h2, -⟩ := findShared_spec (T := T') (arr := [x, y]) ⟨x, by simp, hx.2.2⟩ (by
      intro z hz
      rcases mem_two.1 hz with rfl | rfl
      · exact ⟨hx.1, by omega⟩
      · exact ⟨hy.1, by omega⟩)
    rw [hf] at h1
    cases h1
    obtain ⟨hv, hm⟩ := h2 r rfl
    have mx : x ∈ T'.low r := (I.mem (fun h => h)).2 (hm x (by simp) hx.2.2)
    have my : y ∈ T'.low r := (I.mem (fun h => h)).2 (hm y (by simp) hy.2.2)
    have hr := (I.highTy (fun h => h) (hm x (by simp) hx.2.2)).1 (by omega)
    exact hok r (I.lowLive mx).2 (by omega) hv mx my
  · obtain ⟨g1, g2, g3, g4, g5, g6, g7⟩ := createUp_some I hnew (by simp) (by
      intro h; rcases mem_two.1 h with h | h
      · rw [← h] at hx; simp at hx
      · rw [← h] at hy; simp at hy) (by simp) (by simp) hu
    left
    rw [g6, if_pos rfl]
    have : ∀ z, T'.hid z = T.hid z := fun z => by unfold Topo.hid; rw [g3, g4]
    simp [this, hx.2.2, hy.2.2]

theorem create_ok {dup b : Bool} {id : Nat} {x y r : El} (I : Inv T (fun _ => False))
    (hx : T.alive x = true ∧ x.ty = 0 ∧ T.hid x = false) (hy : T.alive y = true ∧ y.ty = 0 ∧ T.hid y = false)
    (hd : EdgesOk T) (hxy : x ≠ y)
    (h : T.create dup 1 id [x, y] [] = some (T', some r, b)) : EdgesOk T' := by
  have hv := create_visible I ⟨hx.1, hx.2.1⟩ ⟨hy.1, hy.2.1⟩ h
  have C := create_chained I ⟨hx.1, hx.2.1⟩ ⟨hy.1, hy.2.1⟩ h hv
  intro z hz ht hzv
  rcases C.kinds z hz with h1 | h1
  · obtain ⟨p, q, hpq, hj⟩ := hd z h1 ht (by rw [← Chained.hid C]; exact hzv)
    exact ⟨p, q, hpq, joins_congr (C.low z h1) (Chained.hid C) hj⟩
  · rw [List.mem_singleton.1 h1.1]
    exact ⟨x, y, hxy, create_joins I hx hy (fun _ z a b c => hd.joins hx.2.2 hy.2.2 hxy a b c) h⟩

/-- The new edges form a path. -/
theorem chain_path {dup : Bool} : ∀ (targets : List El) (ids : List Nat) (a : El) (T T' : Topo)
    (ret : List El), Inv T (fun _ => False) → (T.alive a = true ∧ a.ty = 0 ∧ T.hid a = false) →
    (∀ x ∈ targets, T.alive x = true ∧ x.ty = 0 ∧ T.hid x = false) →
    (dup = true → EdgesOk T ∧ StepsDiffer a targets) →
    Topo.chain dup a targets ids T = some (T', ret) →
    ∃ ns z, Path T' a ret ns z ∧ ns ++ [z] = a :: targets
  | [], _, a, T, T', ret, I, _, _, _, h => by
    cases h; exact ⟨[], a, .nil a, rfl⟩
  | b :: bs, [], a, T, T', ret, I, _, _, _, h => by cases h
  | b :: bs, id :: ids, a, T, T', ret, I, ha, hb, hd, h => by
    simp only [Topo.chain] at h
    split at h
    case h_2 => cases h
    next T1 r c h1 =>
    split at h
    · cases h
    next hv =>
    split at h
    · cases h
    next T2 rs h2 =>
    cases h
    have hbb := hb b (by simp)
    have C1 := create_chained I ⟨ha.1, ha.2.1⟩ ⟨hbb.1, hbb.2.1⟩ h1 (by simpa using hv)
    have hj := create_joins I ha hbb (fun h z a b c => (hd h).1.joins ha.2.2 hbb.2.2 (hd h).2.1 a b c) h1
    have hb1 : ∀ x, (T.alive x = true ∧ x.ty = 0 ∧ T.hid x = false) →
        (T1.alive x = true ∧ x.ty = 0 ∧ T1.hid x = false) := fun x hx =>
      ⟨C1.mono x hx.1, hx.2.1, by rw [Chained.hid C1]; exact hx.2.2⟩
    obtain ⟨ns, z, hp, hns⟩ := chain_path bs ids b T1 T' rs C1.inv (hb1 b hbb)
      (fun x hx => hb1 x (hb x (by simp [hx])))
      (fun h => ⟨create_ok I ha hbb (hd h).1 (hd h).2.1 h1, (hd h).2.2⟩) h2
    have C2 := chain_chained bs ids b T1 T' rs C1.inv ⟨(hb1 b hbb).1, hbb.2.1⟩
      (fun x hx => ⟨(hb1 x (hb x (by simp [hx]))).1, (hb x (by simp [hx])).2.1⟩) h2
    refine ⟨a :: ns, z, .cons (joins_congr (C2.low r (C1.ret r (by simp)).1) (Chained.hid C2) hj) hp, ?_⟩
    rw [List.cons_append, hns]

theorem eraseAll_not_mem {e : El} : ∀ {l : List El}, e ∉ l → eraseAll e l = l
  | [], _ => rfl
  | x :: xs, h => by
    unfold eraseAll
    rw [if_neg (fun h' => h (by simp [h'])), eraseAll_not_mem (fun h' => h (by simp [h']))]

theorem eraseAll_split {e : El} {post : List El} (h2 : e ∉ post) : ∀ {pre : List El}, e ∉ pre →
    eraseAll e (pre ++ e :: post) = pre ++ post
  | [], _ => by
    rw [List.nil_append]
    unfold eraseAll
    rw [if_pos rfl, eraseAll_not_mem h2]; rfl
  | x :: xs, h => by
    rw [List.cons_append]
    unfold eraseAll
    rw [if_neg (fun h' => h (by simp [h'])), eraseAll_split h2 (fun h' => h (by simp [h']))]; rfl

/-- What does not change when the edge is taken away. -/
theorem drop_frame (I : Inv T (fun _ => False)) {e : El} (ht : e.ty = 1)
    (h : T.dropEdge flip e = some T') :
    (∀ x, x ≠ e → T'.hid x = T.hid x) ∧ (∀ x, x ≠ e → x.ty = 1 → T'.low x = T.low x) ∧
    (∀ x, x ≠ e → T'.alive x = T.alive x) ∧ (T'.hid e = true ∨ T'.alive e = false) := by
  rcases (dropEdge_spec I ht h).2 with ⟨hh, rfl⟩ | ⟨hh, D⟩
  · refine ⟨fun x hx => ?_, fun _ _ _ => rfl, fun _ _ => rfl, Or.inl ?_⟩
    · unfold Topo.hid; simp only [set1_ne _ _ hx]
    · unfold Topo.hid; simp only [set1_same, hh]; rfl
  · refine ⟨fun x _ => ?_, fun x hx hx1 => ?_, fun x hx => ?_, Or.inr ?_⟩
    · unfold Topo.hid; rw [D.hide, hh]; rfl
    · rw [D.low, if_neg hx]
      refine eraseAll_not_mem fun hm => ?_
      have := (I.lowTy x e hm).1 (by omega)
      omega
    · rw [D.alive, set1_ne _ _ hx]
    · rw [D.alive, set1_same]

theorem drop_ok (I : Inv T (fun _ => False)) {e : El} (ht : e.ty = 1)
    (h : T.dropEdge flip e = some T') (hok : EdgesOk T) : EdgesOk T' := by
  obtain ⟨h1, h2, h3, h4⟩ := drop_frame I ht h
  intro x hx hx1 hv
  have hxe : x ≠ e := by
    rintro rfl
    rcases h4 with h4 | h4
    · rw [h4] at hv; cases hv
    · rw [h4] at hx; cases hx
  obtain ⟨a, b, hab, hj⟩ := hok x (by rw [← h3 x hxe]; exact hx) hx1 (by rw [← h1 x hxe]; exact hv)
  refine ⟨a, b, hab, joins_congr' (h2 x hxe hx1) (fun n hn => h1 n ?_) hj⟩
  rintro rfl
  have := (I.lowTy x n hn).1 (by omega)
  omega

theorem stepsDiffer_of {n1 : El} : ∀ {n0 : El} {nodes : List El}, nodes ≠ [] → nodes.Nodup → n0 ∉ nodes →
    n1 ∉ nodes → StepsDiffer n0 (nodes ++ [n1])
  | n0, [a], _, _, h0, h1 => by
    simp only [List.mem_singleton] at h0 h1
    exact ⟨h0, fun h => h1 h.symm, trivial⟩
  | n0, a :: b :: l, _, hn, h0, h1 => by
    refine ⟨fun h => h0 (by simp [h]), ?_⟩
    have := List.nodup_cons.1 hn
    exact stepsDiffer_of (by simp) this.2 this.1 (fun h => h1 (by simp [h]))

/-- The state of a face of the split edge. -/
structure FaceAfter (T T' : Topo) (e f : El) (nodes ret : List El) : Prop where
  ex : ∃ n0 n1 pre post p b ns z, T.low f = pre ++ e :: post ∧ e ∉ pre ∧ e ∉ post ∧
    (T.low e).filter (fun x => !T.hid x) = [n0, n1] ∧
    (post ++ pre).getLast? = some p ∧ isEnd n0 (T.low p) = some b ∧
    edgesOf T' f = (pre.filter fun x => !T.hid x) ++ (if b then ret else ret.reverse) ++
      (post.filter fun x => !T.hid x) ∧
    Path T' n0 ret ns z ∧ ns ++ [z] = n0 :: (nodes ++ [n1])
  low : ∀ x, x ≠ e → x.ty = 1 → T.alive x = true → T'.low x = T.low x
  hid : ∀ x, x ≠ e → T'.hid x = T.hid x

theorem split_face {dup prot : Bool} {e f : El} {nodes ret : List El} {ids : List Nat}
    (I : Inv T (fun _ => False)) (ht : e.ty = 1)
    (hn : ∀ x ∈ nodes, T.alive x = true ∧ x.ty = 0 ∧ T.hid x = false)
    (hd : dup = true → EdgesOk T ∧ nodes.Nodup ∧ ∀ x ∈ nodes, x ∉ T.low e)
    (hv : T.hid e = false) (hne : ret ≠ [])
    (h : T.splitEdge flip dup prot e nodes ids = some (T', ret))
    (hf : f ∈ T.high e) (fv : T.hid f = false) (hone : (T.low f).count e = 1)
    (hlen : 2 ≤ (T.low f).length) : FaceAfter T T' e f nodes ret := by
  obtain ⟨n0, n1, faces, cells, pos, T1, T2, ha, hnn, hends, rfl, hcells, hpos, hdrop, hchain, hlinks⟩ :=
    splitEdge_parts I ht (fun x hx => ⟨(hn x hx).1, (hn x hx).2.1⟩) (Or.inl hne) h
  obtain ⟨I1, hcn1, -⟩ := dropEdge_inv I ht hdrop
  obtain ⟨d1, d2, d3, d4⟩ := drop_frame I ht hdrop
  have hnode : ∀ x, T.alive x = true ∧ x.ty = 0 ∧ T.hid x = false →
      T1.alive x = true ∧ x.ty = 0 ∧ T1.hid x = false := fun x hx => by
    have : x ≠ e := by rintro rfl; omega
    exact ⟨by rw [d3 x this]; exact hx.1, hx.2.1, by rw [d1 x this]; exact hx.2.2⟩
  have hend : ∀ x, x ∈ [n0, n1] → x ∈ T.low e ∧ T.alive x = true ∧ x.ty = 0 ∧ T.hid x = false := fun x hx => by
    rw [← hends] at hx
    obtain ⟨h1, h2⟩ := List.mem_filter.1 hx
    exact ⟨h1, (I.lowLive h1).1, by have := (I.lowTy e x h1).1 (by omega); omega, by simpa using h2⟩
  have hn0 := hend n0 (by simp)
  have hn1 := hend n1 (by simp)
  have htar : ∀ x ∈ nodes ++ [n1], T.alive x = true ∧ x.ty = 0 ∧ T.hid x = false := fun x hx => by
    rcases List.mem_append.1 hx with hx | hx
    · exact hn x hx
    · rw [List.mem_singleton.1 hx]; exact hn1.2
  have C := chain_chained (nodes ++ [n1]) ids n0 T1 T2 ret I1 ⟨(hnode n0 hn0.2).1, hn0.2.2.1⟩
    (fun x hx => ⟨(hnode x (htar x hx)).1, (htar x hx).2.1⟩) hchain
  obtain ⟨ns, z, hp, hns⟩ := chain_path (nodes ++ [n1]) ids n0 T1 T2 ret I1 (hnode n0 hn0.2)
    (fun x hx => hnode x (htar x hx))
    (fun h => ⟨drop_ok I ht hdrop (hd h).1, stepsDiffer_of hnn (hd h).2.1
      (fun hm => (hd h).2.2 n0 hm hn0.1) (fun hm => (hd h).2.2 n1 hm hn1.1)⟩) hchain
  obtain ⟨hpf, hpi⟩ := insPos_spec _ pos hpos
  obtain ⟨T3, hins, F, -, -, hlow, -⟩ := splitLinks_spec hlinks
  obtain ⟨-, -, -, -, hsame⟩ := insLoop_spec pos T2 T3 hins
  have hfty : ∀ x ∈ pos.map Prod.fst, x.ty = 2 := fun x hx => by
    rw [hpf] at hx
    have := (I.highTy (fun h => h) (List.mem_filter.1 hx).1).1 (by omega)
    omega
  have hft : f.ty = 2 := by
    have := (I.highTy (fun h => h) hf).1 (by omega)
    omega
  have hfa : T.alive f = true := (I.lowLive ((I.mem (fun h => h)).2 hf)).2
  have hfe : f ≠ e := by rintro rfl; omega
  have hnof : ∀ x, x.ty ≠ 0 → nodes.count x = 0 := fun x hx =>
    List.count_eq_zero.2 fun hm => hx (hn x hm).2.1
  have hlow' : ∀ x, x.ty ≠ 0 → T'.low x = T3.low x := fun x hx => by
    rw [hlow x, hnof x hx]; simp
  have hhid2 : ∀ x, T'.hid x = T1.hid x := fun x => by
    rw [← Chained.hid C]; unfold Topo.hid; rw [F.hide, F.hidden]
  have hlow2 : ∀ x, x.ty = 1 → T'.low x = T2.low x := fun x hx => by
    rw [hlow' x (by omega)]
    exact hsame x fun hm => by have := hfty x hm; omega
  -- the position in the face
  have hfm : f ∈ pos.map Prod.fst := by
    rw [hpf]; exact List.mem_filter.2 ⟨hf, by simp [fv]⟩
  obtain ⟨⟨f', q⟩, hq, rfl⟩ := List.mem_map.1 hfm
  simp only at *
  obtain ⟨pre, post, hl, hpq, hpre⟩ := visIdx_spec hv _ _ (hpi _ hq)
  have hpost : e ∉ post := by
    rw [hl, List.count_append, List.count_cons_self, List.count_eq_zero.2 hpre] at hone
    exact List.count_eq_zero.1 (by omega)
  have hne2 : post ++ pre ≠ [] := by
    rw [hl] at hlen
    intro h0
    have := List.append_eq_nil_iff.1 h0
    rw [this.1, this.2] at hlen
    simp at hlen
  have hcount : (pos.map Prod.fst).count f' = 1 := by
    rw [hpf]
    have : (T.high e).count f' = 1 := by rw [← I.mirror e f' (fun h => h)]; exact hone
    rw [List.count_filter (by simp [fv]), this]
  have hf1 : T1.alive f' = true := by rw [d3 f' hfe]; exact hfa
  have hx2 : ∀ x ∈ T2.low f', x ∉ pos.map Prod.fst := fun x hx hm => by
    have := (C.inv.lowTy f' x hx).1 (by omega)
    have := hfty x hm
    omega
  obtain ⟨b, p, g1, g2, g3, g4⟩ := insLoop_at pos T2 T3 hcount hq hx2 hins
  have hmid : ∃ mid, T2.low f' = pre ++ mid ++ post ∧ (mid.filter fun x => !T'.hid x) = [] := by
    rw [C.low f' hf1]
    rcases (dropEdge_spec I ht hdrop).2 with ⟨hh, rfl⟩ | ⟨hh, D⟩
    · refine ⟨[e], by simp [hl], ?_⟩
      have : T'.hid e = true := by
        rw [hhid2]; unfold Topo.hid; simp only [set1_same, hh]; rfl
      simp [this]
    · refine ⟨[], ?_, rfl⟩
      rw [D.low, if_neg hfe, hl, eraseAll_split hpost hpre]; simp
  obtain ⟨mid, hmid, hmv⟩ := hmid
  subst hpq
  rw [hmid] at g2 g4
  have hlast := prev_of hne2 g2
  have hpm : p ∈ post ++ pre := List.mem_of_getLast? hlast
  have hpT : p ∈ T.low f' := by
    rw [hl]
    rcases List.mem_append.1 hpm with h | h
    · simp [h]
    · simp [h]
  have hpty : p.ty = 1 := by have := (I.lowTy f' p hpT).1 (by omega); omega
  have hpe : p ≠ e := by
    rintro rfl
    rcases List.mem_append.1 hpm with h | h
    · exact hpost h
    · exact hpre h
  have hlowx : ∀ x, x ≠ e → x.ty = 1 → T.alive x = true → T'.low x = T.low x := fun x hx hx1 hxa => by
    rw [hlow2 x hx1, C.low x (by rw [d3 x hx]; exact hxa), d2 x hx hx1]
  have hpl : T2.low p = T.low p := by rw [← hlow2 p hpty]; exact hlowx p hpe hpty (I.lowLive hpT).1
  rw [hpl] at g3
  refine ⟨⟨n0, n1, pre, post, p, b, ns, z, hl, hpre, hpost, hends, hlast, g3, ?_, ?_, hns⟩, hlowx,
    fun x hx => by rw [hhid2, d1 x hx]⟩
  · unfold edgesOf
    rw [hlow' f' (by omega), g4]
    have hvis : ∀ l : List El, e ∉ l → l.filter (fun x => !T'.hid x) = l.filter fun x => !T.hid x :=
      fun l hl => filter_hid fun x hx => by
        rw [hhid2, d1 x (fun h => hl (h ▸ hx))]
    have hret : ∀ l : List El, (∀ x ∈ l, x ∈ ret) → l.filter (fun x => !T'.hid x) = l := fun l hl =>
      List.filter_eq_self.2 fun x hx => by
        have := (C.ret x (hl x hx)).2.2
        have h2 : T'.hid x = T2.hid x := by rw [hhid2, Chained.hid C]
        rw [h2]; simp [this]
    rw [List.append_assoc pre, List.take_left, List.drop_left]
    simp only [List.filter_append, hmv, List.nil_append, hvis pre hpre, hvis post hpost]
    congr 2
    cases b
    · exact hret _ (by simp)
    · exact hret _ (by simp)
  · have : ∀ a l m c, Path T2 a l m c → (∀ x ∈ l, x ∈ ret) → Path T' a l m c := by
      intro a l m c hp
      induction hp with
      | nil => intro _; exact .nil _
      | cons hj _ ih =>
        intro hm
        refine .cons (joins_congr (hlow2 _ (C.ret _ (hm _ (by simp))).2.1) (fun n => ?_) hj)
          (ih fun x hx => hm x (by simp [hx]))
        rw [hhid2, Chained.hid C]
    exact this _ _ _ _ hp (fun _ h => h)

theorem isEnd_eq {n a b : El} {l : List El} {c : Bool} (h : isEnd n (a :: b :: l) = some c) :
    c = decide (n = a ∨ n = b) := by
  unfold isEnd at h
  simp only [List.getElem?_cons_zero, List.getElem?_cons_succ] at h
  split at h
  · next h1 => cases h; simp [h1]
  · next h1 => cases h; simp [Ne.symm h1, eq_comm]

/-- The edge stored before `e` (cyclically) has, among its first two nodes, the end `u` of `e` but not the
end `v`. -/
def Guides (T : Topo) (f e u v : El) : Prop :=
  ∀ pre post p, T.low f = pre ++ e :: post → (post ++ pre).getLast? = some p →
    ∃ a b l, T.low p = a :: b :: l ∧ (u = a ∨ u = b) ∧ v ≠ a ∧ v ≠ b

theorem path_cong {e a c : El} {es ns : List El} (h : Path T a es ns c)
    (hl : ∀ x ∈ es, T'.low x = T.low x ∧ ∀ n ∈ T.low x, T'.hid n = T.hid n) : Path T' a es ns c := by
  induction h with
  | nil => exact .nil _
  | cons hj _ ih =>
    exact .cons (joins_congr' (hl _ (by simp)).1 (hl _ (by simp)).2 hj) (ih fun x hx => hl x (by simp [hx]))

theorem joins_mem {x a b n : El} (h : Joins T x a b) (hn : n ∈ (T.low x).filter fun x => !T.hid x) :
    n = a ∨ n = b := by
  rcases h with h | h <;> rw [h] at hn
  · exact mem_two.1 hn
  · exact (mem_two.1 hn).symm

theorem split_path (I : Inv T (fun _ => False)) {e f a c : El} {nodes ret ns : List El} (ht : e.ty = 1)
    (hft : f.ty = 2) (hv : T.hid e = false)
    (A : FaceAfter T T' e f nodes ret) (P : Path T a (edgesOf T f) ns c)
    (hg : ∀ es1 es2 ns1 ns2 u v, edgesOf T f = es1 ++ e :: es2 → ns = ns1 ++ u :: ns2 →
      Path T a es1 ns1 u → Joins T e u v → Path T v es2 ns2 c → u ≠ v ∧ Guides T f e u v) :
    ∃ es1 es2 ns1 ns2 u v new mid, edgesOf T f = es1 ++ e :: es2 ∧ ns = ns1 ++ u :: ns2 ∧
      ns1.length = es1.length ∧ Joins T e u v ∧
      ((new = ret ∧ mid = nodes) ∨ (new = ret.reverse ∧ mid = nodes.reverse)) ∧
      edgesOf T' f = es1 ++ new ++ es2 ∧
      Path T' a (es1 ++ new ++ es2) (ns1 ++ (u :: mid) ++ ns2) c := by
  obtain ⟨n0, n1, pre, post, p, b, ns', z, hl, hpre, hpost, hends, hlast, hb, he', hp, hns⟩ := A.ex
  have hes : edgesOf T f = (pre.filter fun x => !T.hid x) ++ e :: (post.filter fun x => !T.hid x) := by
    unfold edgesOf
    rw [hl, List.filter_append, List.filter_cons_of_pos (by simp [hv])]
  have hmem : ∀ x ∈ pre ++ post, T'.low x = T.low x ∧ ∀ n ∈ T.low x, T'.hid n = T.hid n := by
    intro x hx
    have hxf : x ∈ T.low f := by
      rw [hl]
      rcases List.mem_append.1 hx with h | h <;> simp [h]
    have hxe : x ≠ e := by
      rintro rfl
      rcases List.mem_append.1 hx with h | h
      · exact hpre h
      · exact hpost h
    have hx1 : x.ty = 1 := by have := (I.lowTy f x hxf).1 (by omega); omega
    refine ⟨A.low x hxe hx1 (I.lowLive hxf).1, fun n hn => A.hid n ?_⟩
    rintro rfl
    have := (I.lowTy x n hn).1 (by omega)
    omega
  generalize hE1 : (pre.filter fun x => !T.hid x) = es1 at *
  generalize hE2 : (post.filter fun x => !T.hid x) = es2 at *
  rw [hes] at P
  obtain ⟨u, ns1, ns2', rfl, P1, P2⟩ := P.split
  cases P2 with
  | @cons _ _ v _ _ ns2 hj P2 =>
  obtain ⟨huv, hgd⟩ := hg es1 es2 ns1 ns2 u v hes rfl P1 hj P2
  obtain ⟨x, y, l, hlp, hu, hv1, hv2⟩ := hgd pre post p hl hlast
  rw [hlp] at hb
  have hb := isEnd_eq hb
  have P1' : Path T' a es1 ns1 u := path_cong (e := e) P1 fun x hx => hmem x (by
    rw [← hE1] at hx; exact List.mem_append_left _ (List.mem_filter.1 hx).1)
  have P2' : Path T' v es2 ns2 c := path_cong (e := e) P2 fun x hx => hmem x (by
    rw [← hE2] at hx; exact List.mem_append_right _ (List.mem_filter.1 hx).1)
  have h01 : (n0 = u ∧ n1 = v) ∨ (n0 = v ∧ n1 = u) := by
    rcases hj with h | h <;> rw [hends] at h <;> cases h
    · exact Or.inl ⟨rfl, rfl⟩
    · exact Or.inr ⟨rfl, rfl⟩
  have hns' : ns' ++ [z] = (n0 :: nodes) ++ [n1] := by rw [hns]; rfl
  obtain ⟨h1, h2⟩ := List.append_inj' hns' rfl
  cases h2
  subst h1
  rcases h01 with ⟨rfl, rfl⟩ | ⟨rfl, rfl⟩
  · have : b = true := by rw [hb]; simpa using hu
    subst this
    refine ⟨es1, es2, ns1, ns2, n0, n1, ret, nodes, hes, rfl, P1.length, hj, Or.inl ⟨rfl, rfl⟩, ?_,
      (P1'.append hp).append P2'⟩
    rw [he']; rfl
  · have : b = false := by rw [hb]; simp [hv1, hv2]
    subst this
    obtain ⟨nr, hr1, hr2⟩ := hp.rev
    have hnr : nr ++ [n0] = (n1 :: nodes.reverse) ++ [n0] := by rw [hr2]; simp
    obtain ⟨h1, -⟩ := List.append_inj' hnr rfl
    subst h1
    refine ⟨es1, es2, ns1, ns2, n1, n0, ret.reverse, nodes.reverse, hes, rfl, P1.length, hj,
      Or.inr ⟨rfl, rfl⟩, ?_, (P1'.append hr1).append P2'⟩
    rw [he']; rfl

theorem split_unique {e : El} : ∀ {l1 l2 r1 r2 : List El}, e ∉ l1 → e ∉ l2 →
    l1 ++ e :: r1 = l2 ++ e :: r2 → l1 = l2 ∧ r1 = r2
  | [], [], r1, r2, _, _, h => by cases h; exact ⟨rfl, rfl⟩
  | [], y :: l2, r1, r2, _, h2, h => by
    rw [List.nil_append, List.cons_append, List.cons.injEq] at h
    exact absurd (by simp [h.1]) h2
  | x :: l1, [], r1, r2, h1, _, h => by
    rw [List.nil_append, List.cons_append, List.cons.injEq] at h
    exact absurd (by simp [h.1]) h1
  | x :: l1, y :: l2, r1, r2, h1, h2, h => by
    rw [List.cons_append, List.cons_append, List.cons.injEq] at h
    obtain ⟨h3, h4⟩ := split_unique (fun h => h1 (by simp [h])) (fun h => h2 (by simp [h])) h.2
    exact ⟨by rw [h.1, h3], h4⟩

/-- In a polygon without hidden elements around the edge the edge stored before it is a good guide. -/
theorem guides_vis {e f u v a : El} {es1 es2 ns1 ns2 : List El}
    (hv : T.hid e = false) (hone : (T.low f).count e = 1)
    (hvp : ∀ pre post p, T.low f = pre ++ e :: post → (post ++ pre).getLast? = some p →
      T.hid p = false ∧ ∀ n ∈ T.low p, T.hid n = false)
    (h3 : 3 ≤ (edgesOf T f).length) (he : edgesOf T f = es1 ++ e :: es2)
    (hnd : (ns1 ++ u :: ns2).Nodup) (P1 : Path T a es1 ns1 u) (P2 : Path T v es2 ns2 a) :
    u ≠ v ∧ Guides T f e u v := by
  have P := P2.append P1
  have hl := P.length
  have hlen : 2 ≤ (es2 ++ es1).length := by
    rw [he] at h3; simp only [List.length_append, List.length_cons] at h3 ⊢; omega
  have hnd' : (u :: (ns2 ++ ns1)).Nodup := by
    have : (ns1 ++ u :: ns2).Perm (u :: (ns2 ++ ns1)) := by
      refine (List.perm_append_comm).trans ?_
      simp
    exact this.nodup_iff.1 hnd
  obtain ⟨hu, hnd''⟩ := List.nodup_cons.1 hnd'
  have hvm : v ∈ ns2 ++ ns1 := P.head (by
    intro h0; rw [h0] at hl; simp only [List.length_nil] at hl; omega)
  refine ⟨fun h => hu (h ▸ hvm), fun pre post p hlow hlast => ?_⟩
  obtain ⟨pv, pn⟩ := hvp pre post p hlow hlast
  have hcnt : e ∉ pre ∧ e ∉ post := by
    rw [hlow, List.count_append, List.count_cons_self] at hone
    exact ⟨List.count_eq_zero.1 (by omega), List.count_eq_zero.1 (by omega)⟩
  have hes : es1 = (pre.filter fun x => !T.hid x) ∧ es2 = (post.filter fun x => !T.hid x) := by
    have h1 : (pre.filter fun x => !T.hid x) ++ e :: (post.filter fun x => !T.hid x) = es1 ++ e :: es2 := by
      rw [← he]; unfold edgesOf
      rw [hlow, List.filter_append, List.filter_cons_of_pos (by simp [hv])]
    have c1 : (es1 ++ e :: es2).count e = 1 := by
      rw [← h1, List.count_append, List.count_cons_self,
        List.count_eq_zero.2 (fun h => hcnt.1 (List.mem_filter.1 h).1),
        List.count_eq_zero.2 (fun h => hcnt.2 (List.mem_filter.1 h).1)]
    have c2 : e ∉ es1 := by
      rw [List.count_append, List.count_cons_self] at c1
      exact List.count_eq_zero.1 (by omega)
    obtain ⟨h2, h4⟩ := split_unique (fun h => hcnt.1 (List.mem_filter.1 h).1) c2 h1
    exact ⟨h2.symm, h4.symm⟩
  have hlast' : (es2 ++ es1).getLast? = some p := by
    rw [hes.1, hes.2, ← List.filter_append]
    obtain ⟨l, hl⟩ := List.getLast?_eq_some_iff.1 hlast
    rw [hl, List.filter_append, List.filter_cons_of_pos (by simp [pv])]
    simp
  obtain ⟨l, hl'⟩ := List.getLast?_eq_some_iff.1 hlast'
  rw [hl'] at P
  obtain ⟨x, m1, m2, hm, Q1, Q2⟩ := P.split
  cases Q2 with
  | cons hj Q2 =>
  cases Q2
  have hll : 0 < l.length := by rw [hl'] at hlen; simp at hlen; omega
  have hm1 : v ∈ m1 := Q1.head (fun h0 => by have := Q1.length; rw [h0] at this; simp at this; omega)
  have hvx : v ≠ x := by
    rintro rfl
    rw [hm] at hnd''
    exact (List.nodup_append.1 hnd'').2.2 v hm1 v (by simp) rfl
  have hvu : v ≠ u := fun h => hu (h ▸ hvm)
  have hfl : (T.low p).filter (fun x => !T.hid x) = T.low p :=
    List.filter_eq_self.2 fun n hn => by simp [pn n hn]
  rcases hj with h | h <;> rw [hfl] at h
  · exact ⟨x, u, [], h, Or.inr rfl, hvx, hvu⟩
  · exact ⟨u, x, [], h, Or.inl rfl, hvu, hvx⟩

/-- The steps of a split. -/
theorem split_run {dup prot : Bool} {e : El} {nodes ret : List El} {ids : List Nat}
    (I : Inv T (fun _ => False)) (ht : e.ty = 1)
    (hn : ∀ x ∈ nodes, T.alive x = true ∧ x.ty = 0 ∧ T.hid x = false) (hne : ret ≠ [])
    (h : T.splitEdge flip dup prot e nodes ids = some (T', ret)) :
    ∃ (pos : List (El × Nat)) (T1 T2 T3 : Topo), pos.map Prod.fst = (T.high e).filter (fun x => !T.hid x) ∧
      T.dropEdge flip e = some T1 ∧ Chained T1 ret T2 ∧ Frame T2 T' ∧
      (∀ x, x ∉ pos.map Prod.fst → T3.low x = T2.low x) ∧
      (∀ x, x.ty ≠ 0 → T'.low x = T3.low x) ∧
      (∀ x ∈ ret, ∀ g ∈ T.high e, T.hid g = false → g ∈ T'.high x) ∧
      (T.cn = true → ∀ x ∈ nodes, ∀ g ∈ T.high e, T.hid g = false → ∀ c ∈ T.high g, T.hid c = false →
        x ∈ T'.high c) := by
  obtain ⟨n0, n1, faces, cells, pos, T1, T2, ha, hnn, hends, rfl, hcells, hpos, hdrop, hchain, hlinks⟩ :=
    splitEdge_parts I ht (fun x hx => ⟨(hn x hx).1, (hn x hx).2.1⟩) (Or.inl hne) h
  obtain ⟨I1, hcn1, -⟩ := dropEdge_inv I ht hdrop
  obtain ⟨d1, d2, d3, d4⟩ := drop_frame I ht hdrop
  have hal : ∀ x, T.alive x = true ∧ x.ty = 0 → T1.alive x = true ∧ x.ty = 0 := fun x hx => by
    refine ⟨?_, hx.2⟩
    rw [d3 x (by rintro rfl; omega)]; exact hx.1
  have hend : ∀ x, x ∈ [n0, n1] → T.alive x = true ∧ x.ty = 0 := fun x hx => by
    rw [← hends] at hx
    have h1 := (List.mem_filter.1 hx).1
    exact ⟨(I.lowLive h1).1, by have := (I.lowTy e x h1).1 (by omega); omega⟩
  have C := chain_chained (nodes ++ [n1]) ids n0 T1 T2 ret I1 (hal n0 (hend n0 (by simp))) (fun x hx => by
    rcases List.mem_append.1 hx with hx | hx
    · exact hal x ⟨(hn x hx).1, (hn x hx).2.1⟩
    · rw [List.mem_singleton.1 hx]; exact hal n1 (hend n1 (by simp))) hchain
  obtain ⟨hpf, -⟩ := insPos_spec _ pos hpos
  obtain ⟨T3, hins, F, -, -, hlow, hhigh⟩ := splitLinks_spec hlinks
  obtain ⟨-, -, -, -, hsame⟩ := insLoop_spec pos T2 T3 hins
  have hmr : ∀ {k : Nat} {l : List El} {x : El}, 0 < k → x ∈ l → x ∈ (List.replicate k l).flatten := by
    intro k l x hk hx
    exact List.mem_flatten.2 ⟨l, List.mem_replicate.2 ⟨by omega, rfl⟩, hx⟩
  refine ⟨pos, T1, T2, T3, hpf, hdrop, C, F, hsame, fun x hx => ?_, fun x hx g hg gv => ?_,
    fun hcn x hx g hg gv c hc cv => ?_⟩
  · rw [hlow x, List.count_eq_zero.2 fun hm => hx (hn x hm).2.1]; simp
  · rw [hhigh x]
    refine List.mem_append_left _ (List.mem_append_right _ (hmr (List.count_pos_iff.2 hx) ?_))
    exact List.mem_filter.2 ⟨hg, by simp [gv]⟩
  · have hcc : c ∈ cells := by
      obtain ⟨r', hr1, -, hr2⟩ := collectVia_spec (T := T) (conn := T.hcOf) (cl := T.high) (T.high e) []
        (by simp) (fun y hy => by
          have h1 := (I.highTy (fun h => h) hy).1 (by omega)
          unfold Topo.hcOf
          rw [if_pos]
          exact ⟨(I.lowLive ((I.mem (fun h => h)).2 hy)).2, Or.inl (by omega)⟩)
      rw [hcells] at hr1
      cases hr1
      exact (hr2 c).2 (Or.inr ⟨g, hg, gv, hc, cv⟩)
    rw [hhigh c, if_pos (by rw [C.cn, hcn1, hcn])]
    exact List.mem_append_right _ (hmr (List.count_pos_iff.2 hcc) hx)

end Verif.Split
