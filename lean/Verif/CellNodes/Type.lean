import Verif.CellNodes.Solid
import Mathlib.Data.Sym.Sym2
import Mathlib.Data.List.NodupEquivFin

/-! Geometric types of solids. -/

namespace Verif.CellNodes
open Verif.Topology Verif.EdgeLoop

variable {T : Topo} {gt : El → Nat} {c : El} {F : List (List El)}

/-! ### Sides of polygons -/

section
variable {A B : Type}

/-- The sides of a polygon as unordered pairs. -/
def sym (P : List A) : List (Sym2 A) := List.zipWith (fun a b => s(a, b)) P (P.rotate 1)

theorem sym_rotate (P : List A) (n : Nat) : sym (P.rotate n) = (sym P).rotate n := by
  unfold sym
  rw [List.rotate_rotate, Nat.add_comm, ← List.rotate_rotate, List.zipWith_rotate_distrib]
  simp

theorem sym_reverse (P : List A) : (sym P.reverse).Perm (sym P) := by
  match P with
  | [] => exact .refl _
  | [a] => exact .refl _
  | a :: b :: P =>
    generalize hQ : a :: b :: P = Q
    have hl : 2 ≤ Q.length := by rw [← hQ]; simp
    have h1 : sym Q.reverse = (List.zipWith (fun a b => s(a, b)) Q (Q.rotate (Q.length - 1))).reverse := by
      unfold sym
      rw [List.rotate_reverse, Nat.mod_eq_of_lt (by omega), List.reverse_zipWith (by simp)]
    rw [h1]
    refine (List.reverse_perm _).trans ?_
    refine (List.rotate_perm _ 1).symm.trans ?_
    rw [List.zipWith_rotate_distrib _ _ _ _ (by simp), List.rotate_rotate, show Q.length - 1 + 1 = Q.length by omega,
      List.rotate_length]
    unfold sym
    rw [List.zipWith_comm_of_comm (fun x y => Sym2.eq_swap)]

theorem sym_cycle {P Q : List A} (h : SameCycle P Q) : (sym P).Perm (sym Q) := by
  rcases h with ⟨n, rfl⟩ | ⟨n, rfl⟩
  · rw [sym_rotate]; exact (List.rotate_perm _ _).symm
  · rw [sym_rotate]
    exact ((List.rotate_perm _ _).trans (sym_reverse P)).symm

theorem sym_map (f : A → B) (P : List A) : sym (P.map f) = (sym P).map (Sym2.map f) := by
  unfold sym
  rw [← List.map_rotate, List.zipWith_map, List.map_zipWith]
  rfl

theorem sym_shape {F G : List (List A)} (h : Shape F G) : (F.flatMap sym).Perm (G.flatMap sym) := by
  obtain ⟨F', h1, h2⟩ := h
  refine List.Perm.trans ?_ (h2.flatMap_right sym)
  clear h2
  induction h1 with
  | nil => exact .refl _
  | cons h _ ih =>
    rw [List.flatMap_cons, List.flatMap_cons]
    exact (sym_cycle h).append ih

end

/-- An edge and its unordered pair of nodes. -/
def Side (T : Topo) (e : El) (k : Sym2 El) : Prop := ∃ a b, k = s(a, b) ∧ Joins T e a b

theorem side_fun {e : El} {k k' : Sym2 El} (h : Side T e k) (h' : Side T e k') : k = k' := by
  obtain ⟨a, b, rfl, h⟩ := h
  obtain ⟨a', b', rfl, h'⟩ := h'
  unfold Joins at h h'
  rw [Sym2.eq_iff]
  rcases h with h | h <;> rcases h' with h' | h' <;> rw [h] at h' <;> simp only [List.cons.injEq, and_true] at h' <;> tauto

theorem loop_sides {es ns : List El} (h : Loop T es ns) : List.Forall₂ (Side T) es (sym ns) := by
  have h3 := h.three
  have hl := h.corners
  have hls : (sym ns).length = es.length := by unfold sym; simp [hl]
  refine List.forall₂_of_length_eq_of_get hls.symm fun i hi hi' => ?_
  have hm : (i + 1) % es.length < es.length := Nat.mod_lt _ (by omega)
  refine ⟨ns[i]'(by omega), ns[(i + 1) % es.length]'(by omega), ?_, h.joins i _ _ _ (List.getElem?_eq_getElem hi)
    (List.getElem?_eq_getElem (by omega)) (List.getElem?_eq_getElem (by omega))⟩
  simp only [sym, List.get_eq_getElem, List.getElem_zipWith, List.getElem_rotate, hl]

theorem all_sides : ∀ {fs : List El} {F : List (List El)}, List.Forall₂ (Poly T) fs F →
    List.Forall₂ (Side T) (fs.flatMap (edgesOf T)) (F.flatMap sym)
  | [], _, .nil => .nil
  | f :: fs, P :: F, .cons h hs => by
    rw [List.flatMap_cons, List.flatMap_cons]
    exact List.rel_append (loop_sides h.1) (all_sides hs)

theorem count_rel {R : El → Sym2 El → Prop} {e : El} {k : Sym2 El} : ∀ {l : List El} {m : List (Sym2 El)}, List.Forall₂ R l m →
    (∀ e' ∈ l, ∀ k', R e' k' → (e' = e ↔ k' = k)) → l.count e = m.count k
  | [], _, .nil, _ => rfl
  | x :: l, y :: m, .cons h hs, hR => by
    rw [List.count_cons, List.count_cons, count_rel hs (fun e' he' => hR e' (List.mem_cons_of_mem _ he'))]
    have := hR x (List.mem_cons_self ..) y h
    congr 1
    simp only [beq_iff_eq, this]

theorem mem_rel {R : El → Sym2 El → Prop} : ∀ {l : List El} {m : List (Sym2 El)}, List.Forall₂ R l m → ∀ e ∈ l, ∃ k ∈ m, R e k
  | x :: l, y :: m, .cons h hs, e, he => by
    rcases List.mem_cons.1 he with rfl | he
    · exact ⟨y, by simp, h⟩
    · obtain ⟨k, hk, hR⟩ := mem_rel hs e he
      exact ⟨k, by simp [hk], hR⟩

theorem closed_solid (hF : Polygons T c F) (hu : OneEdge T c) {G : List (List El)} (hs : Shape F G)
    (hG : ∀ k ∈ G.flatMap sym, (G.flatMap sym).count k = 2) : testClosure T (T.low c) = true := by
  have hFp : List.Forall₂ (Poly T) (facesOf T c) F := hF
  have hall := all_sides hFp
  have hp := sym_shape hs
  unfold testClosure
  simp only [List.all_eq_true, beq_iff_eq]
  change ∀ e ∈ (facesOf T c).flatMap (edgesOf T), ((facesOf T c).flatMap (edgesOf T)).count e = 2
  intro e he
  obtain ⟨k, hk, hek⟩ := mem_rel hall e he
  rw [count_rel (k := k) hall, hp.count_eq]
  · exact hG k (hp.mem_iff.1 hk)
  · intro e' he' k' hk'
    constructor
    · rintro rfl
      exact side_fun hk' hek
    · rintro rfl
      obtain ⟨a, b, rfl, hj⟩ := hek
      obtain ⟨a', b', hab, hj'⟩ := hk'
      rw [List.mem_flatMap] at he he'
      obtain ⟨f, hf, hfe⟩ := he
      obtain ⟨g, hg, hge⟩ := he'
      rw [Sym2.eq_iff] at hab
      rcases hab with ⟨rfl, rfl⟩ | ⟨rfl, rfl⟩
      · exact hu g f _ _ _ _ hg hf hge hfe hj' hj
      · exact hu g f _ _ _ _ hg hf hge hfe hj' (Or.comm.1 hj)

/-! ### Common edges -/

/-- At most two common corners. -/
def Thin {A : Type} (P Q : List A) : Prop :=
  ∀ x ∈ P, ∀ y ∈ P, ∀ z ∈ P, x ≠ y → x ≠ z → y ≠ z → x ∈ Q → y ∈ Q → z ∈ Q → False

instance {A : Type} [DecidableEq A] (P Q : List A) : Decidable (Thin P Q) := by unfold Thin; infer_instance

theorem thin_symm {A : Type} {P Q : List A} (h : Thin P Q) : Thin Q P :=
  fun x hx y hy z hz h1 h2 h3 a b c => h x a y b z c h1 h2 h3 hx hy hz

theorem thin_map {A B : Type} {f : A → B} (hf : Function.Injective f) {P Q : List A} (h : Thin P Q) : Thin (P.map f) (Q.map f) := by
  intro x hx y hy z hz h1 h2 h3 a b c
  rw [List.mem_map] at hx hy hz
  obtain ⟨x, hx, rfl⟩ := hx
  obtain ⟨y, hy, rfl⟩ := hy
  obtain ⟨z, hz, rfl⟩ := hz
  rw [List.mem_map_of_injective hf] at a b c
  exact h x hx y hy z hz (fun e => h1 (e ▸ rfl)) (fun e => h2 (e ▸ rfl)) (fun e => h3 (e ▸ rfl)) a b c

theorem thin_shape {A : Type} {F G : List (List A)} (h : Shape F G) (hG : G.Pairwise Thin) : F.Pairwise Thin := by
  obtain ⟨F', h1, h2⟩ := h
  rw [← h2.pairwise_iff thin_symm] at hG
  clear h2
  induction h1 with
  | nil => exact .nil
  | cons h hs ih =>
    rw [List.pairwise_cons] at hG ⊢
    refine ⟨fun Q hQ => ?_, ih hG.2⟩
    have : ∀ {l : List (List A)} {m : List (List A)}, List.Forall₂ SameCycle l m → ∀ Q ∈ l, ∃ q ∈ m, SameCycle Q q := by
      intro l m hlm
      induction hlm with
      | nil => simp
      | cons h _ ih =>
        intro Q hQ
        rcases List.mem_cons.1 hQ with rfl | hQ
        · exact ⟨_, by simp, h⟩
        · obtain ⟨q, hq, hc⟩ := ih Q hQ
          exact ⟨q, by simp [hq], hc⟩
    obtain ⟨q, hq, hc⟩ := this hs Q hQ
    have ht := hG.1 q hq
    intro x hx y hy z hz h1 h2 h3 a b c
    exact ht x (h.perm.mem_iff.1 hx) y (h.perm.mem_iff.1 hy) z (h.perm.mem_iff.1 hz) h1 h2 h3
      (hc.perm.mem_iff.1 a) (hc.perm.mem_iff.1 b) (hc.perm.mem_iff.1 c)

theorem two_of_filter {p : El → Bool} : ∀ {l : List El}, 2 ≤ (l.filter p).length →
    ∃ (i j : Nat) (x y : El), i < j ∧ l[i]? = some x ∧ l[j]? = some y ∧ p x = true ∧ p y = true
  | [], h => by simp at h
  | x :: l, h => by
    by_cases hx : p x = true
    · rw [List.filter_cons_of_pos hx, List.length_cons] at h
      have hpos : 0 < (l.filter p).length := by omega
      obtain ⟨y, hy⟩ := List.exists_mem_of_length_pos hpos
      rw [List.mem_filter] at hy
      obtain ⟨j, hj⟩ := List.mem_iff_getElem?.1 hy.1
      exact ⟨0, j + 1, x, y, by omega, rfl, by simpa using hj, hx, hy.2⟩
    · rw [List.filter_cons_of_neg hx] at h
      obtain ⟨i, j, y, z, h1, h2, h3, h4, h5⟩ := two_of_filter h
      exact ⟨i + 1, j + 1, y, z, by omega, by simpa using h2, by simpa using h3, h4, h5⟩

theorem thin_share {f g : El} {P Q : List El} (hf : Poly T f P) (hg : Poly T g Q) (ht : Thin P Q) (hf' : edgesOf T f = T.low f)
    (hg' : edgesOf T g = T.low g) : ((T.low g).filter fun e => decide (e ∈ T.low f)).length ≤ 1 := by
  by_contra hc
  obtain ⟨i, j, x, y, hij, hx, hy, px, py⟩ := two_of_filter (p := fun e => decide (e ∈ T.low f)) (l := T.low g) (by omega)
  simp only [decide_eq_true_eq] at px py
  have h3 := hg.1.three
  have hl := hg.1.corners
  rw [hg'] at h3 hl
  have hjl := (List.getElem?_eq_some_iff.1 hy).1
  have key : ∀ (i : Nat) (x : El), (T.low g)[i]? = some x → x ∈ T.low f → ∃ a b, Q[i]? = some a ∧
      Q[(i + 1) % (T.low g).length]? = some b ∧ a ∈ P ∧ b ∈ P := by
    intro i x hx px
    have hi := (List.getElem?_eq_some_iff.1 hx).1
    have hm : (i + 1) % (T.low g).length < (T.low g).length := Nat.mod_lt _ (by omega)
    have e2 : Q[i]? = some (Q[i]'(by omega)) := List.getElem?_eq_getElem (by omega)
    have e3 : Q[(i + 1) % (T.low g).length]? = some (Q[(i + 1) % (T.low g).length]'(by omega)) := List.getElem?_eq_getElem (by omega)
    have hJ := hg.1.joins i x _ _ (by rw [hg']; exact hx) e2 (by rw [hg']; exact e3)
    refine ⟨_, _, e2, e3, ?_, ?_⟩ <;>
    · refine (loop_nodes hf.1 _).1 (List.mem_flatMap.2 ⟨x, by rw [hf']; exact px, ?_⟩)
      change _ ∈ (T.low x).filter fun x => !T.hid x
      rcases hJ with h | h <;> rw [h] <;> simp
  obtain ⟨a, b, a1, b1, a2, b2⟩ := key i x hx px
  obtain ⟨a', b', a1', b1', a2', b2'⟩ := key j y hy py
  have ne : ∀ {k l : Nat} {u v : El}, Q[k]? = some u → Q[l]? = some v → k ≠ l → u ≠ v := by
    intro k l u v hk hl hkl e
    subst e
    exact hkl ((List.getElem?_inj (List.getElem?_eq_some_iff.1 hk).1 hg.2).1 (hk.trans hl.symm))
  have m1 : (i + 1) % (T.low g).length = i + 1 := Nat.mod_eq_of_lt (by omega)
  rw [m1] at b1
  have inQ : ∀ {k : Nat} {u : El}, Q[k]? = some u → u ∈ Q := fun h => List.mem_of_getElem? h
  by_cases hadj : j = i + 1
  · by_cases hlast : j + 1 = (T.low g).length
    · rw [hlast, Nat.mod_self] at b1'
      exact ht a a2 b b2 b' b2' (ne a1 b1 (by omega)) (ne a1 b1' (by omega)) (ne b1 b1' (by omega)) (inQ a1) (inQ b1) (inQ b1')
    · rw [Nat.mod_eq_of_lt (by omega)] at b1'
      exact ht a a2 b b2 b' b2' (ne a1 b1 (by omega)) (ne a1 b1' (by omega)) (ne b1 b1' (by omega)) (inQ a1) (inQ b1) (inQ b1')
  · exact ht a a2 b b2 a' a2' (ne a1 b1 (by omega)) (ne a1 a1' (by omega)) (ne b1 a1' (by omega)) (inQ a1) (inQ b1) (inQ a1')

theorem shareOne_of (hh : ∀ f, edgesOf T f = T.low f) : ∀ {fs : List El} {F : List (List El)}, List.Forall₂ (Poly T) fs F →
    F.Pairwise Thin → shareOne T fs = true
  | [], _, .nil, _ => rfl
  | f :: fs, P :: F, .cons h hs, hp => by
    rw [List.pairwise_cons] at hp
    unfold shareOne
    rw [Bool.and_eq_true, List.all_eq_true]
    refine ⟨fun g hg => ?_, shareOne_of hh hs hp.2⟩
    have : ∀ {fs : List El} {F : List (List El)}, List.Forall₂ (Poly T) fs F → ∀ g ∈ fs, ∃ Q ∈ F, Poly T g Q := by
      intro fs F h
      induction h with
      | nil => simp
      | cons h _ ih =>
        intro g hg
        rcases List.mem_cons.1 hg with rfl | hg
        · exact ⟨_, by simp, h⟩
        · obtain ⟨q, hq, hc⟩ := ih g hg
          exact ⟨q, by simp [hq], hc⟩
    obtain ⟨Q, hQ, hgQ⟩ := this hs g hg
    exact decide_eq_true (thin_share h hgQ (hp.1 Q hQ) (hh f) (hh g))

end Verif.CellNodes
