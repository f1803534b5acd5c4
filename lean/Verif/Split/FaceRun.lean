import Verif.Split.FaceSpec
import Verif.Split.FaceLemmas
import Verif.Split.Unite

/-! What a call of `SplitFace` does. -/

namespace Verif.Split
open Verif.Topology Verif.EdgeLoop

variable {T T' : Topo} {flip : Topo → El → Bool} {K : Type} {W : Incident.Meas El K} {dup : Bool} {f : El}
  {edges ret : List El} {ids : List Nat} {ls : List (List El)}

/-- The nodes of an edge that are not hidden. -/
def lowv (T : Topo) (e : El) : List El := (T.low e).filter fun x => !T.hid x

theorem joins_of {e a b : El} (h : Joins T e a b) : Incident.Joins (lowv T) e a b := by
  intro r
  unfold lowv
  rcases h with h | h <;> rw [h] <;> simp [or_comm]

theorem polygon_of {es ns : List El} (h : Loop T es ns) : Incident.Polygon (lowv T) es ns :=
  ⟨h.corners, fun i e a b he ha hb => joins_of (h.joins i e a b he ha hb)⟩

theorem mem_innerOf {x e : El} {given : List El} : e ∈ innerOf T x given ↔ e ∈ given ∧ e ∉ edgesOf T x := by
  unfold innerOf edgesOf
  rw [List.mem_filter, decide_eq_true_eq]

theorem uses_congr {low low' : El → List El} {l : List El} (h : ∀ e ∈ l, low e = low' e) (r : El) :
    Incident.uses low r l = Incident.uses low' r l := by
  unfold Incident.uses
  exact List.countP_congr fun e he => by rw [h e he]

/-- The number of edges at a node along a path. -/
theorem path_uses {a b : El} {es ns : List El} (h : Path T a es ns b)
    (hd : ∀ e ∈ es, ∀ x y, Joins T e x y → x ≠ y) (r : El) :
    (Incident.uses (lowv T) r es + (if r = a then 1 else 0) + if r = b then 1 else 0) % 2 = 0 := by
  induction h with
  | nil a => simp [Incident.uses]; split <;> rfl
  | @cons e a m b es ns hj hp ih =>
    have ih := ih fun e he => hd e (by simp [he])
    have hne := hd e (by simp) _ _ hj
    rw [Incident.uses_cons]
    by_cases hr : r ∈ lowv T e
    · rw [if_pos hr]
      rcases (joins_of hj r).1 hr with rfl | rfl
      · rw [if_neg hne] at ih; rw [if_pos rfl]; omega
      · rw [if_pos rfl] at ih; rw [if_neg (Ne.symm hne)]; omega
    · rw [if_neg hr]
      have h1 : r ≠ a := fun h => hr ((joins_of hj r).2 (Or.inl h))
      have h2 : r ≠ m := fun h => hr ((joins_of hj r).2 (Or.inr h))
      rw [if_neg h2] at ih; rw [if_neg h1]; omega

section
variable (A : FaceArgs T dup f edges)
include A

theorem FaceArgs.lowv {e : El} (h : e ∈ edges ∨ e ∈ edgesOf T f) : lowv T e = T.low e := by
  obtain ⟨a, b, -, h2, h3, h4⟩ := A.ends e h
  unfold Split.lowv
  rw [h2]
  simp [h3, h4]

theorem FaceArgs.inner {e : El} (h : e ∈ innerOf T f edges ∨ e ∈ edgesOf T f) : e ∈ edges ∨ e ∈ edgesOf T f :=
  h.imp (fun h => (mem_innerOf.1 h).1) id

theorem FaceArgs.two {e : El} (h : e ∈ innerOf T f edges ∨ e ∈ edgesOf T f) :
    ∃ a b, a ≠ b ∧ Incident.Joins T.low e a b := by
  obtain ⟨a, b, h1, h2, -, -⟩ := A.ends e (A.inner h)
  exact ⟨a, b, h1, fun r => by rw [h2]; simp⟩

theorem FaceArgs.edgesNodup : (edgesOf T f).Nodup := by
  obtain ⟨ns, h, hn⟩ := A.polygon
  obtain ⟨a, hp⟩ := h.path
  exact cycle_nodup hp hn h.three

theorem FaceArgs.cols : (innerOf T f edges ++ edgesOf T f).Nodup := by
  rw [List.nodup_append]
  refine ⟨A.nodup.filter _, A.edgesNodup, ?_⟩
  rintro a ha b hb rfl
  exact (mem_innerOf.1 ha).2 hb

theorem FaceArgs.even (r : El) : Incident.uses T.low r (edgesOf T f) % 2 = 0 := by
  obtain ⟨ns, h, hn⟩ := A.polygon
  obtain ⟨a, hp⟩ := h.path
  rw [uses_congr (fun e he => (A.lowv (Or.inr he)).symm)]
  have := path_uses hp (by
    rintro e he x y hj rfl
    obtain ⟨p, q, h1, h2, -, -⟩ := A.ends e (Or.inr he)
    have h3 := A.lowv (Or.inr he)
    rw [h2] at h3
    have := (joins_of hj p).1 (by rw [h3]; simp)
    have := (joins_of hj q).1 (by rw [h3]; simp)
    apply h1
    simp_all) r
  split at this <;> omega

variable (hl : Incident.loops W T.low (innerOf T f edges) (edgesOf T f) = some ls)
  (hfar : Incident.Far W (innerOf T f edges) (edgesOf T f))
include hl hfar

/-- The loops are polygons of at least three edges. -/
theorem FaceArgs.loop {l : List El} (h : l ∈ ls) : ∃ ns, Loop T l ns ∧ ns.Nodup := by
  obtain ⟨c1, c2, c3, c4⟩ := Incident.C86_closed hl h
  obtain ⟨ns, P, hn⟩ := Incident.C86_polygon A.cols hfar (fun c hc => A.two hc) hl h
  have c4 := c4 A.cols
  refine ⟨ns, ⟨?_, P.corners, ?_⟩, hn⟩
  · match l, c2, c1, c3, c4 with
    | [e], _, c1, c3, _ =>
      obtain ⟨a, b, -, hj⟩ := A.two (c3 e (by simp))
      have := c1 a
      unfold Incident.uses at this
      rw [List.countP_cons_of_pos (by simpa using (hj a).2 (Or.inl rfl))] at this
      simp at this
    | [e, e'], _, c1, c3, c4 =>
      exfalso
      have : e = e' := A.apart e e' (A.inner (c3 e (by simp))) (A.inner (c3 e' (by simp))) (fun n => by
        have := c1 n
        rw [Incident.uses_cons, Incident.uses_cons] at this
        by_cases h1 : n ∈ T.low e <;> by_cases h2 : n ∈ T.low e' <;> simp_all [Incident.uses])
      subst this
      simp at c4
    | _ :: _ :: _ :: _, _, _, _, _ => simp
  · intro i e a b he ha hb
    have hj := P.joins i e a b he ha hb
    have hm := A.inner (c3 e (List.mem_of_getElem? he))
    obtain ⟨p, q, h1, h2, -, -⟩ := A.ends e hm
    have h3 := A.lowv hm
    unfold Joins
    change Split.lowv T e = _ ∨ Split.lowv T e = _
    rw [h3, h2]
    have hp := (hj p).1 (by rw [h2]; simp)
    have hq := (hj q).1 (by rw [h2]; simp)
    rcases hp with rfl | rfl
    · rcases hq with rfl | rfl
      · exact absurd rfl h1
      · exact Or.inl rfl
    · rcases hq with rfl | rfl
      · exact Or.inr rfl
      · exact absurd rfl h1

theorem FaceArgs.poly {l : List El} (h : l ∈ ls) : IsPoly (Split.lowv T) l := by
  obtain ⟨ns, P, hn⟩ := A.loop hl hfar h
  obtain ⟨c1, c2, c3, c4⟩ := Incident.C86_closed hl h
  refine ⟨c4 A.cols, c2, fun r => ?_, fun L h1 h2 h3 h4 => (polygon_of P).minimal hn h1 h4 h3 h2⟩
  rw [uses_congr fun e he => A.lowv (A.inner (c3 e he))]
  exact c1 r

omit hfar in
theorem pairwise_of (h : ∀ (pre post : List (List El)) (l : List El), ls = pre ++ l :: post → ∃ c ∈ l, ∀ l' ∈ post, c ∉ l') :
    ls.Pairwise fun l0 l => ¬ ∀ c ∈ l0, c ∈ l := by
  clear hl A
  induction ls with
  | nil => exact .nil
  | cons l ls ih =>
    refine List.pairwise_cons.2 ⟨fun l' hl' hs => ?_, ih fun pre post x e => h (l :: pre) post x (by rw [e]; rfl)⟩
    obtain ⟨c, hc, hn⟩ := h [] ls l rfl
    exact hn l' hl' (hs c hc)

theorem FaceArgs.order : ls.Pairwise fun l0 l => ¬ ∀ c ∈ l0, c ∈ l :=
  pairwise_of A hl fun pre post l e => Incident.C86_order A.cols hfar (fun c hc => A.two hc) (e ▸ hl)

end
end Verif.Split
