import Verif.Geometry.Spec
import Verif.Topology.Build
import Verif.Search.Model
import Mathlib.Tactic.Ring
import Mathlib.Tactic.Linarith

/-!
# Solids with triangular faces given by the names of their vertices

Used for examples only.
-/

namespace Verif.Geometry
open Verif.Topology Verif.EdgeLoop Verif.Search

variable {K : Type} [Field K] [LinearOrder K] [IsStrictOrderedRing K]

/-- The names of the vertices of a triangle. -/
abbrev Tri3 := El × El × El
abbrev Tet4 := El × El × El × El

def mkTri (co : El → V K) (x : Tri3) : Tri K := ⟨co x.1, co x.2.1, co x.2.2⟩
def mkTet (co : El → V K) (x : Tet4) : Tet K := ⟨co x.1, co x.2.1, co x.2.2.1, co x.2.2.2⟩
def flip3 (x : Tri3) : Tri3 := (x.1, x.2.2, x.2.1)
def bd4 (x : Tet4) : List Tri3 :=
  [(x.2.1, x.2.2.1, x.2.2.2), (x.1, x.2.2.2, x.2.2.1), (x.1, x.2.1, x.2.2.2), (x.1, x.2.2.1, x.2.1)]
def same3 (t u : Tri3) : Bool :=
  decide (u = t) || decide (u = (t.2.1, t.2.2, t.1)) || decide (u = (t.2.2, t.1, t.2.1))

def same3s : List Tri3 → List Tri3 → Bool
  | [], [] => true
  | t :: l, u :: m => same3 t u && same3s l m
  | _, _ => false

/-- The triangle of the corners. -/
def corner3 : List El → List Tri3
  | [a, b, c] => [(a, b, c)]
  | _ => []

def cutOf (co : El → V K) (corner : El → List El) (f : El) : List (Tri K) := (corner3 (corner f)).map (mkTri co)

def surf3 (fs : List El) (corner : El → List El) (out : El → Bool) : List Tri3 :=
  fs.flatMap fun f => if out f then corner3 (corner f) else (corner3 (corner f)).map flip3

theorem same3s_forall {co : El → V K} : ∀ {l m : List Tri3}, same3s l m = true →
    List.Forall₂ SameTri (l.map (mkTri co)) (m.map (mkTri co)) := by
  intro l
  induction l with
  | nil => intro m h; cases m with
    | nil => exact .nil
    | cons _ _ => cases h
  | cons t l ih => intro m h; cases m with
    | nil => cases h
    | cons u m =>
      simp only [same3s, Bool.and_eq_true] at h
      refine .cons ?_ (ih h.2)
      have := h.1
      simp only [same3, Bool.or_eq_true, decide_eq_true_eq] at this
      rcases this with (h | h) | h <;> subst h
      · exact .inl rfl
      · exact .inr (.inl rfl)
      · exact .inr (.inr rfl)

theorem cutFace_tri {a b c : V K} (h : cross (sub b a) (sub c a) ≠ ⟨0, 0, 0⟩) : CutFace [a, b, c] [⟨a, b, c⟩] := by
  refine ⟨⟨_, dot (cross (sub b a) (sub c a)) a, h, ?_, ?_⟩, ⟨[], ?_⟩⟩
  · intro p hp
    simp only [List.mem_cons, List.not_mem_nil, or_false] at hp
    rcases hp with rfl | rfl | rfl <;> simp only [dot, cross, sub] <;> ring
  · intro t ht
    simp only [List.mem_cons, List.not_mem_nil, or_false] at ht
    subst ht
    refine ⟨rfl, ?_, ?_⟩ <;> simp only [dot, cross, sub] <;> ring
  · exact List.Perm.refl _

theorem cutSolid_of {co : El → V K} {fs : List El} {corner : El → List El} {out : El → Bool} {tl : List Tet4}
    {P l' : List Tri3}
    (hf : ∀ f ∈ fs, ∃ a b c, corner f = [a, b, c] ∧ cross (sub (co b) (co a)) (sub (co c) (co a)) ≠ ⟨0, 0, 0⟩)
    (hpos : ∀ t ∈ tl, 0 < (mkTet co t).vol) (hne : tl ≠ []) (hp : (tl.flatMap bd4).Perm l')
    (hs : same3s l' (surf3 fs corner out ++ (P ++ P.map flip3)) = true) :
    CutSolid fs (fun f => (corner f).map co) out (cutOf co corner) (tl.map (mkTet co)) := by
  refine ⟨?_, ?_, by simpa using hne, P.map (mkTri co), l'.map (mkTri co), ?_, ?_⟩
  · intro f h
    obtain ⟨a, b, c, h1, h2⟩ := hf f h
    simp only [cutOf, h1, corner3, List.map_cons, List.map_nil, mkTri]
    exact cutFace_tri h2
  · intro t ht
    obtain ⟨x, hx, rfl⟩ := List.mem_map.1 ht
    exact hpos x hx
  · have h1 : (tl.map (mkTet co)).flatMap Tet.boundary = (tl.flatMap bd4).map (mkTri co) := by
      rw [List.map_flatMap, List.flatMap_map]
      rfl
    rw [h1]
    exact hp.map _
  · have h2 := same3s_forall (co := co) hs
    have h3 : (fs.flatMap fun f => if out f then cutOf co corner f else (cutOf co corner f).map Tri.flip) =
        (surf3 fs corner out).map (mkTri co) := by
      unfold surf3 cutOf
      rw [List.map_flatMap]
      congr 1
      funext f
      split
      · rfl
      · rw [List.map_map, List.map_map]; rfl
    have h4 : (P.map (mkTri co)).map Tri.flip = (P.map flip3).map (mkTri co) := by
      rw [List.map_map, List.map_map]; rfl
    rw [h3, h4, ← List.map_append, ← List.map_append]
    exact h2

/-- Three edges that join three corners. -/
def loop3 (T : Topo) : List El → List El → Bool
  | [e0, e1, e2], [a, b, d] =>
    (decide ((T.low e0).filter (fun x => !T.hid x) = [a, b]) || decide ((T.low e0).filter (fun x => !T.hid x) = [b, a])) &&
    (decide ((T.low e1).filter (fun x => !T.hid x) = [b, d]) || decide ((T.low e1).filter (fun x => !T.hid x) = [d, b])) &&
    (decide ((T.low e2).filter (fun x => !T.hid x) = [d, a]) || decide ((T.low e2).filter (fun x => !T.hid x) = [a, d]))
  | _, _ => false

theorem loop3_spec {T : Topo} {es ns : List El} (h : loop3 T es ns = true) :
    Loop T es ns ∧ ∃ a b d, ns = [a, b, d] := by
  unfold loop3 at h
  split at h
  next e0 e1 e2 a b d =>
    simp only [Bool.and_eq_true, Bool.or_eq_true, decide_eq_true_eq] at h
    obtain ⟨⟨h1, h2⟩, h3⟩ := h
    refine ⟨⟨by simp, rfl, ?_⟩, a, b, d, rfl⟩
    intro i e x y he hx hy
    match i with
    | 0 => simp at he hx hy; subst he hx hy; exact h1
    | 1 => simp at he hx hy; subst he hx hy; exact h2
    | 2 => simp at he hx hy; subst he hx hy; exact h3
    | n + 3 => simp at he
  · cases h

/-- A solid of which everything but the coordinates is computed. -/
theorem solid_of {T : Topo} {co : El → V K} {c : El} {corner : El → List El} {out : El → Bool} {tl : List Tet4}
    (P l' L : List Tri3)
    (hloop : ∀ f ∈ facesOf T c, loop3 T (edgesOf T f) (corner f) = true ∧ (corner f).Nodup)
    (hL : ((facesOf T c).flatMap fun f => corner3 (corner f)) = L)
    (hgeo : ∀ t ∈ L, cross (sub (co t.2.1) (co t.1)) (sub (co t.2.2) (co t.1)) ≠ ⟨0, 0, 0⟩)
    (hnode : (∀ n ∈ T.high c, T.hid n = false → ∃ f ∈ facesOf T c, n ∈ corner f) ∧
      ∀ f ∈ facesOf T c, ∀ n ∈ corner f, n ∈ T.high c ∧ T.hid n = false)
    (hpos : ∀ t ∈ tl, 0 < (mkTet co t).vol) (hne : tl ≠ []) (hp : (tl.flatMap bd4).Perm l')
    (hs : same3s l' (surf3 (facesOf T c) corner out ++ (P ++ P.map flip3)) = true) :
    Solid T co c corner out (cutOf co corner) (tl.map (mkTet co)) := by
  refine ⟨fun f hf => (loop3_spec (hloop f hf).1).1, fun f hf => (hloop f hf).2, ?_, cutSolid_of ?_ hpos hne hp hs⟩
  · intro n
    constructor
    · rintro ⟨h1, h2⟩; exact hnode.1 n h1 h2
    · rintro ⟨f, hf, hn⟩; exact hnode.2 f hf n hn
  · intro f hf
    obtain ⟨-, a, b, d, h1⟩ := loop3_spec (hloop f hf).1
    refine ⟨a, b, d, h1, hgeo (a, b, d) ?_⟩
    rw [← hL, List.mem_flatMap]
    exact ⟨f, hf, by rw [h1]; simp [corner3]⟩

/-- Decidable form of `Surface` for concrete meshes. -/
theorem surface_of {T : Topo} {fs : List El} {corner : El → List El} {out : El → Bool}
    (hloop : ∀ f ∈ fs, loop3 T (T.low f) (corner f) = true ∧ (corner f).Nodup)
    (hv : ∀ f ∈ fs, ∀ e ∈ T.low f, T.hid e = false)
    (ho : ∀ f ∈ fs, ∀ g ∈ fs, f ≠ g → ∀ x ∈ runs T f (corner f), ∀ y ∈ runs T g (corner g), x.1 = y.1 →
      y.2 = if out f = out g then (x.2.2, x.2.1) else (x.2.1, x.2.2)) : Surface T fs corner out :=
  ⟨fun f hf => (loop3_spec (hloop f hf).1).1, fun f hf => (hloop f hf).2, hv,
    fun f hf g hg hne e a b a' b' h1 h2 => ho f hf g hg hne _ h1 _ h2 rfl⟩

theorem adjacent_symm {T : Topo} {fs : List El} {f g : El} (h : Adjacent T fs f g) : Adjacent T fs g f := by
  obtain ⟨h1, h2, e, h3, h4⟩ := h
  exact ⟨h2, h1, e, h4, h3⟩

/-- Connected with the first face over at most one face. -/
theorem connected_of {T : Topo} {fs : List El} {f0 : El} (h0 : f0 ∈ fs)
    (h : ∀ g ∈ fs, ∃ h ∈ fs, (∃ e ∈ T.low f0, e ∈ T.low h) ∧ ∃ e ∈ T.low h, e ∈ T.low g) : Connected T fs := by
  have key : ∀ g ∈ fs, Relation.ReflTransGen (Adjacent T fs) f0 g := by
    intro g hg
    obtain ⟨x, hx, ⟨e, h1, h2⟩, ⟨e', h3, h4⟩⟩ := h g hg
    exact (Relation.ReflTransGen.single ⟨h0, hx, e, h1, h2⟩).tail ⟨hx, hg, e', h3, h4⟩
  intro f hf g hg
  refine Relation.ReflTransGen.trans ?_ (key g hg)
  haveI hsym : Std.Symm (Adjacent T fs) := ⟨fun _ _ => adjacent_symm⟩
  exact Relation.ReflTransGen.symmetric.symm _ _ (key f hf)

end Verif.Geometry
