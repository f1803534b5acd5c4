import Verif.Split.FaceModel
import Verif.Topology.ReachInv
import Verif.Incident.Cover
import Verif.EdgeLoop.Props
import Verif.Geometry.Fix

/-! Lemmas for the splitting of faces. -/

namespace Verif.Split
open Verif.Topology Verif.EdgeLoop

variable {T T' : Topo} {flip : Topo → El → Bool}

/-! ### The faces that are created or found -/

/-- The loops and their faces: each face is new, or was there before and has all edges of the loop, or is
the face of an earlier loop.  `acc` are the earlier pairs. -/
inductive Faces (dup : Bool) (T : Topo) : List (List El × El) → List (List El × El) → Prop
  | nil {acc} : Faces dup T acc []
  | new {acc l g ps} : T.alive g = false → g ∉ acc.map Prod.snd → Faces dup T (acc ++ [(l, g)]) ps →
      Faces dup T acc ((l, g) :: ps)
  | old {acc l g ps} : dup = true → T.alive g = true → T.hid g = false → (∀ e ∈ l, e ∈ T.low g) →
      Faces dup T (acc ++ [(l, g)]) ps → Faces dup T acc ((l, g) :: ps)
  | again {acc l g l0 ps} : dup = true → T.alive g = false → (l0, g) ∈ acc → (∀ e ∈ l, e ∈ l0) →
      Faces dup T (acc ++ [(l, g)]) ps → Faces dup T acc ((l, g) :: ps)

/-- The connections of edges with faces are mutual. -/
def EdgeUp (T : Topo) : Prop := ∀ e g, e.ty = 1 → g ∈ T.high e → e ∈ T.low g ∧ T.alive g = true ∧ g.ty = 2

/-- Where the faces come from. -/
structure Since (T0 : Topo) (acc : List (List El × El)) (T : Topo) : Prop where
  hide : T.hide = T0.hide
  old : ∀ x, T0.alive x = true → T.alive x = true ∧ T.low x = T0.low x ∧ T.hidden x = T0.hidden x
  new : ∀ x, T.alive x = true → T0.alive x = false → ∃ l, (l, x) ∈ acc ∧ T.low x = l
  acc : ∀ p ∈ acc, T.alive p.2 = true ∧ p.2.ty = 2

theorem Since.app {T0 : Topo} {acc : List (List El × El)} {p : List El × El} (h : Since T0 acc T)
    (hp : T.alive p.2 = true ∧ p.2.ty = 2) : Since T0 (acc ++ [p]) T :=
  ⟨h.hide, h.old, fun x h1 h2 => by
    obtain ⟨l, h3, h4⟩ := h.new x h1 h2
    exact ⟨l, by simp [h3], h4⟩, fun q hq => by
    rcases List.mem_append.1 hq with hq | hq
    · exact h.acc q hq
    · rw [List.mem_singleton.1 hq]; exact hp⟩

theorem findShared_all {arr : List El} {g : El} (h : T.findShared arr = some (some g)) (x : El) (hx : x ∈ arr)
    (hv : T.hid x = false) (hok : ∀ x ∈ arr, T.alive x = true ∧ x.ty < 3) : g ∈ T.high x := by
  obtain ⟨r, h1, h2, -⟩ := findShared_spec (T := T) ⟨x, hx, hv⟩ hok
  rw [h] at h1
  cases h1
  exact (h2 g rfl).2 x hx hv

/-- One loop. -/
theorem pairStep {T0 T1 T2 : Topo} {cells l : List El} {dup new : Bool} {id : Nat} {g : El} {acc : List (List El × El)}
    (hU : EdgeUp T) (hS : Since T0 acc T) (h3 : 3 ≤ l.length)
    (hl : ∀ e ∈ l, T.alive e = true ∧ e.ty = 1 ∧ T.hid e = false)
    (h1 : T.create dup 2 id l [] = some (T1, some g, new))
    (h2 : T1.modHigh g (if new then fun _ => cells else addNew cells) = some T2) :
    EdgeUp T2 ∧ Since T0 (acc ++ [(l, g)]) T2 ∧ (∀ x, T.alive x = true → T2.hid x = T.hid x) ∧
      ((T0.alive g = false ∧ g ∉ acc.map Prod.snd) ∨
       (dup = true ∧ T0.alive g = true ∧ T0.hid g = false ∧ ∀ e ∈ l, e ∈ T0.low g) ∨
       (dup = true ∧ T0.alive g = false ∧ ∃ l0, (l0, g) ∈ acc ∧ ∀ e ∈ l, e ∈ l0)) := by
  obtain ⟨-, -, rfl⟩ := modHigh_some h2
  have hne : l ≠ [] := by rintro rfl; simp at h3
  rcases createFace_cases hne h1 with ⟨rfl, hdup, rfl, hf⟩ | ⟨rfl, rfl, hd, -, -, rfl⟩
  · have hall : ∀ e ∈ l, e ∈ T1.low g ∧ T1.alive g = true ∧ g.ty = 2 := fun e he =>
      hU e g (hl e he).2.1 (findShared_all hf e he (hl e he).2.2 fun x hx => ⟨(hl x hx).1, by have := (hl x hx).2.1; omega⟩)
    obtain ⟨e0, he0⟩ := List.exists_mem_of_ne_nil l hne
    obtain ⟨-, hga, hg2⟩ := hall e0 he0
    refine ⟨?_, ?_, fun _ _ => rfl, ?_⟩
    · intro e x he hx
      simp only at hx ⊢
      rw [set1_ne _ _ (by rintro rfl; omega)] at hx
      exact hU e x he hx
    · exact Since.app (T := { T1 with high := _ }) ⟨hS.hide, hS.old, hS.new, hS.acc⟩ ⟨hga, hg2⟩
    · right
      cases h0 : T0.alive g with
      | true =>
        obtain ⟨-, q2, q3⟩ := hS.old g h0
        refine Or.inl ⟨hdup, rfl, ?_, fun e he => q2 ▸ (hall e he).1⟩
        have := findShared_vis hf
        unfold Topo.hid at this ⊢
        rw [← hS.hide, ← q3]; exact this
      | false =>
        obtain ⟨l0, q1, q2⟩ := hS.new g hga h0
        exact Or.inr ⟨hdup, rfl, l0, q1, fun e he => q2 ▸ (hall e he).1⟩
  · have hne' : ∀ x, T.alive x = true → x ≠ ⟨2, id⟩ := by rintro x hx rfl; rw [hd] at hx; cases hx
    have h0 : T0.alive ⟨2, id⟩ = false := by
      cases h : T0.alive ⟨2, id⟩ with
      | false => rfl
      | true => have := (hS.old _ h).1; rw [hd] at this; cases this
    refine ⟨?_, ⟨?_, ?_, ?_, ?_⟩, ?_, ?_⟩
    · intro e x he hx
      have hen : e ≠ ⟨2, id⟩ := by rintro rfl; simp at he
      simp only [set1_ne _ _ hen, Topo.tie] at hx
      show e ∈ set1 T.low ⟨2, id⟩ l x ∧ set1 T.alive ⟨2, id⟩ true x = true ∧ x.ty = 2
      rcases List.mem_append.1 hx with hx | hx
      · obtain ⟨p1, p2, p3⟩ := hU e x he hx
        rw [set1_ne _ _ (hne' x p2), set1_ne _ _ (hne' x p2)]
        exact ⟨p1, p2, p3⟩
      · obtain ⟨p1, rfl⟩ := List.mem_replicate.1 hx
        rw [set1_same, set1_same]
        exact ⟨List.count_pos_iff.1 (Nat.pos_of_ne_zero p1), rfl, rfl⟩
    · exact hS.hide
    · intro x hx
      obtain ⟨p1, p2, p3⟩ := hS.old x hx
      have := hne' x p1
      exact ⟨(set1_ne _ _ this).trans p1, (set1_ne _ _ this).trans p2, (set1_ne _ _ this).trans p3⟩
    · intro x hx hx0
      by_cases hxe : x = ⟨2, id⟩
      · subst hxe
        exact ⟨l, by simp, set1_same _ _ _⟩
      · replace hx : set1 T.alive ⟨2, id⟩ true x = true := hx
        rw [set1_ne _ _ hxe] at hx
        obtain ⟨l', q1, q2⟩ := hS.new x hx hx0
        exact ⟨l', by simp [q1], (set1_ne _ _ hxe).trans q2⟩
    · intro p hp
      show set1 T.alive ⟨2, id⟩ true p.2 = true ∧ _
      rcases List.mem_append.1 hp with hp | hp
      · have := hS.acc p hp
        rw [set1_ne _ _ (hne' _ this.1)]; exact this
      · rw [List.mem_singleton.1 hp]; exact ⟨set1_same _ _ _, rfl⟩
    · intro x hx
      show (T.hide && set1 T.hidden ⟨2, id⟩ false x) = _
      rw [set1_ne _ _ (hne' x hx)]; rfl
    · refine Or.inl ⟨h0, fun hm => ?_⟩
      obtain ⟨p, hp, hpe⟩ := List.mem_map.1 hm
      have := (hS.acc p hp).1
      rw [hpe, hd] at this
      cases this

theorem makeFaces_pairs {T0 : Topo} {cells : List El} {dup : Bool} : ∀ (loops : List (List El)) (ids : List Nat)
    (acc : List (List El × El)) (T T' : Topo) (ret : List El), EdgeUp T → Since T0 acc T →
    (∀ l ∈ loops, 3 ≤ l.length ∧ ∀ e ∈ l, T.alive e = true ∧ e.ty = 1 ∧ T.hid e = false) →
    Topo.makeFaces dup cells loops ids T = some (T', ret) →
    ret.length = loops.length ∧ Faces dup T0 acc (loops.zip ret) ∧ Since T0 (acc ++ loops.zip ret) T'
  | [], ids, acc, T, T', ret, hU, hS, hl, h => by
    cases h
    exact ⟨rfl, .nil, by simpa using hS⟩
  | l :: ls, ids, acc, T, T', ret, hU, hS, hl, h => by
    obtain ⟨h3, hle⟩ := hl l (by simp)
    unfold Topo.makeFaces at h
    rw [if_neg (by omega)] at h
    split at h
    · cases h
    next id ids' =>
    split at h
    case h_2 => cases h
    next T1 g new h1 =>
    split at h
    · cases h
    next T2 h2 =>
    split at h
    · cases h
    next T3 rs h4 =>
    cases h
    obtain ⟨U2, S2, hh, hcase⟩ := pairStep hU hS h3 hle h1 h2
    have hmono : ∀ x, T.alive x = true → T2.alive x = true := by
      obtain ⟨-, -, rfl⟩ := modHigh_some h2
      rcases createFace_cases (by rintro rfl; simp at h3) h1 with ⟨-, -, rfl, -⟩ | ⟨-, rfl, hd, -, -, rfl⟩
      · exact fun _ h => h
      · intro x hx
        show set1 T.alive ⟨2, id⟩ true x = true
        rw [set1_ne _ _ (by rintro rfl; rw [hd] at hx; cases hx)]; exact hx
    obtain ⟨k1, k2, k3⟩ := makeFaces_pairs ls ids' (acc ++ [(l, g)]) T2 T' rs U2 S2
      (fun l' h' => ⟨(hl l' (by simp [h'])).1, fun e he => by
        obtain ⟨q1, q2, q3⟩ := (hl l' (by simp [h'])).2 e he
        exact ⟨hmono e q1, q2, by rw [hh e q1]; exact q3⟩⟩) h4
    refine ⟨by simp [k1], ?_, by simpa using k3⟩
    rw [List.zip_cons_cons]
    rcases hcase with ⟨q1, q2⟩ | ⟨q1, q2, q3, q4⟩ | ⟨q1, q2, l0, q3, q4⟩
    · exact .new q1 q2 k2
    · exact .old q1 q2 q3 q4 k2
    · exact .again q1 q2 q3 q4 k2

/-- No part of `l` is closed. -/
def Minimal (low : El → List El) (l : List El) : Prop :=
  ∀ L : List El, L.Nodup → L ≠ [] → Incident.Closed low L → (∀ c ∈ L, c ∈ l) → ∀ c ∈ l, c ∈ L

/-- The edges of a polygon, not depending on the order. -/
structure IsPoly (low : El → List El) (l : List El) : Prop where
  nodup : l.Nodup
  ne : l ≠ []
  closed : Incident.Closed low l
  min : Minimal low l

/-- No face occurs twice, if the loops are polygons in which new edges come up and existing faces are polygons. -/
theorem Faces.nodup {dup : Bool} {low : El → List El} {acc ps : List (List El × El)} (h : Faces dup T acc ps)
    (hacc : (acc.map Prod.snd).Nodup) (hin : ∀ p ∈ acc, T.alive p.2 = true → T.hid p.2 = false ∧ ∀ e ∈ p.1, e ∈ T.low p.2)
    (hpw : ((acc ++ ps).map Prod.fst).Pairwise fun l0 l => ¬ ∀ c ∈ l0, c ∈ l)
    (hpoly : ∀ p ∈ acc ++ ps, IsPoly low p.1 ∧ ∀ e ∈ p.1, T.hid e = false)
    (hold : ∀ g, dup = true → T.alive g = true → T.hid g = false → g ∈ (acc ++ ps).map Prod.snd →
      Minimal low (edgesOf T g)) :
    ((acc ++ ps).map Prod.snd).Nodup ∧ (∀ p ∈ ps, ∀ p' ∈ acc, p.2 ≠ p'.2) := by
  induction h with
  | nil => simpa using hacc
  | @new acc l g ps h0 hg h ih =>
    have hnd : ((acc ++ [(l, g)]).map Prod.snd).Nodup := by
      rw [List.map_append, List.nodup_append]
      refine ⟨hacc, by simp, ?_⟩
      intro a ha b hb
      simp only [List.map_cons, List.map_nil, List.mem_singleton] at hb
      rintro rfl
      exact hg (hb ▸ ha)
    obtain ⟨k1, k2⟩ := ih hnd (fun p hp ha => by
        rcases List.mem_append.1 hp with hp | hp
        · exact hin p hp ha
        · rw [List.mem_singleton.1 hp] at ha
          simp only at ha
          rw [h0] at ha; cases ha)
      (by simpa using hpw) (by simpa using hpoly) (by simpa using hold)
    refine ⟨by simpa using k1, ?_⟩
    intro p hp p' hp'
    rcases List.mem_cons.1 hp with rfl | hp
    · intro e
      exact hg (List.mem_map.2 ⟨p', hp', e.symm⟩)
    · exact k2 p hp p' (by simp [hp'])
  | @old acc l g ps hdup h0 hv hsub h ih =>
    have hg : g ∉ acc.map Prod.snd := by
      intro hm
      obtain ⟨⟨l0, g0⟩, hp, rfl⟩ := List.mem_map.1 hm
      obtain ⟨-, hs0⟩ := hin _ hp h0
      have Pg := hold g0 hdup h0 hv (by simp)
      have P0 := hpoly (l0, g0) (by simp [hp])
      have P1 := hpoly (l, g0) (by simp)
      have hle : ∀ c ∈ l, c ∈ edgesOf T g0 := fun c hc =>
        List.mem_filter.2 ⟨hsub c hc, by simp [P1.2 c hc]⟩
      have hl0 : ∀ c ∈ l0, c ∈ edgesOf T g0 := fun c hc =>
        List.mem_filter.2 ⟨hs0 c hc, by simp [P0.2 c hc]⟩
      have hback := Pg l P1.1.nodup P1.1.ne P1.1.closed hle
      rw [List.map_append] at hpw
      refine (List.pairwise_append.1 hpw).2.2 l0 (List.mem_map.2 ⟨_, hp, rfl⟩) l (by simp) ?_
      exact fun c hc => hback c (hl0 c hc)
    have hnd : ((acc ++ [(l, g)]).map Prod.snd).Nodup := by
      rw [List.map_append, List.nodup_append]
      refine ⟨hacc, by simp, ?_⟩
      intro a ha b hb
      simp only [List.map_cons, List.map_nil, List.mem_singleton] at hb
      rintro rfl
      exact hg (hb ▸ ha)
    obtain ⟨k1, k2⟩ := ih hnd (fun p hp ha => by
        rcases List.mem_append.1 hp with hp | hp
        · exact hin p hp ha
        · rw [List.mem_singleton.1 hp]; exact ⟨hv, hsub⟩)
      (by simpa using hpw) (by simpa using hpoly) (by simpa using hold)
    refine ⟨by simpa using k1, ?_⟩
    intro p hp p' hp'
    rcases List.mem_cons.1 hp with rfl | hp
    · intro e
      exact hg (List.mem_map.2 ⟨p', hp', e.symm⟩)
    · exact k2 p hp p' (by simp [hp'])
  | @again acc l g l0 ps hdup h0 hm hsub h ih =>
    exfalso
    have P0 := (hpoly (l0, g) (by simp [hm])).1
    have P1 := (hpoly (l, g) (by simp)).1
    have hback := P0.min l P1.nodup P1.ne P1.closed hsub
    rw [List.map_append] at hpw
    exact (List.pairwise_append.1 hpw).2.2 l0 (List.mem_map.2 ⟨_, hm, rfl⟩) l (by simp) hback

theorem Faces.found {dup : Bool} {acc ps : List (List El × El)} (h : Faces dup T acc ps) : ∀ p ∈ ps, T.alive p.2 = true →
    dup = true ∧ T.hid p.2 = false ∧ ∀ e ∈ p.1, e ∈ T.low p.2 := by
  induction h with
  | nil => simp
  | new h0 _ _ ih =>
    intro p hp ha
    rcases List.mem_cons.1 hp with rfl | hp
    · rw [h0] at ha; cases ha
    · exact ih p hp ha
  | old h1 h2 h3 h4 _ ih =>
    intro p hp ha
    rcases List.mem_cons.1 hp with rfl | hp
    · exact ⟨h1, h3, h4⟩
    · exact ih p hp ha
  | again _ h0 _ _ _ ih =>
    intro p hp ha
    rcases List.mem_cons.1 hp with rfl | hp
    · rw [h0] at ha; cases ha
    · exact ih p hp ha

end Verif.Split
