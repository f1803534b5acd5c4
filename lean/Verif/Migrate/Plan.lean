import Verif.Migrate.Mark
import Verif.Migrate.Moving
import Verif.Migrate.Spec
import Mathlib.Tactic.Choose

/-! # Lemmas: new owners and processors of all elements -/

namespace Verif.Migrate

open Verif.Topology Verif.Transfer Verif.Layers

variable {V : Type} {n : Nat} {cn : Bool} {G : Whole}

theorem part_false {S : Side V} (P : Piece cn G S) (R : Regular cn G) {g h : El} (hg : Has S g) (hp : Part cn G g h) :
    Part false G g h := by
  induction hp with
  | self => exact .self
  | low _ h0 hk ih => exact .low ih h0 hk
  | nodes _ h3 hc hk ih =>
    obtain ⟨b, hb, rfl⟩ := hg
    obtain ⟨a, ha, hn, -⟩ := below_of_part P hb ih
    subst hn
    have h3 : a.ty = 3 := h3
    obtain ⟨f, hf, e, he, hk⟩ := ((R.nodes hc (name S.num a) h3).2 _).1 hk
    obtain ⟨f', f1, f2, rfl⟩ := low_has P ha (by omega) hf
    have := lowTy P.reach (by omega) f1
    obtain ⟨e', e1, e2, rfl⟩ := low_has P f2 (by omega) he
    have := lowTy P.reach (by omega) e1
    exact .low (.low (.low ih (show 0 < a.ty by omega) hf) (show 0 < f'.ty by omega) he) (show 0 < e'.ty by omega) hk

theorem part_own {b : Bool} {C : El → Nat} {g h : El} (hp : Part b G g h) : Part b { G with owner := C } g h := by
  induction hp with
  | self => exact .self
  | low _ h0 hk ih => exact .low ih h0 hk
  | nodes _ h3 hc hk ih => exact .nodes ih h3 hc hk

theorem part_own' {b : Bool} {C : El → Nat} {g h : El} (hp : Part b { G with owner := C } g h) : Part b G g h := by
  induction hp with
  | self => exact .self
  | low _ h0 hk ih => exact .low ih h0 hk
  | nodes _ h3 hc hk ih => exact .nodes ih h3 hc hk

theorem high_ne {S : Side V} (P : Piece cn G S) {c e : El} (hc : LCell S c) (he : S.T.alive e = true) (h3 : e.ty < 3) (ha : At G S c e) :
    S.T.high e ≠ [] := by
  unfold At at ha
  generalize hg : name S.num e = g at ha
  cases ha with
  | self => have := name_ty hg; have := hc.2; omega
  | low hp h0 hk =>
    obtain ⟨y, hy, hn, -⟩ := below_of_part P hc.1 hp
    subst hn; subst hg
    exact List.ne_nil_of_mem (((inv_of P).mem (fun h => h)).1 ((mem_low P hy he h0).2 hk))
  | nodes _ _ h => cases h

section
variable {W : Nat → Side V} {new own : Nat → El → Nat} {np : Nat → El → List Nat} {C : El → Nat} {t layers : Nat}

theorem covered_high (H : Spread n cn G W) (hc : Covered n G W) {p : Nat} (hp : p < n) :
    ∀ e, (W p).T.alive e = true → e.ty < 3 → (W p).T.high e ≠ [] := by
  intro e he h3
  obtain ⟨c, c1, ⟨x, hx, rfl⟩, c3⟩ := hc p hp _ ⟨e, he, rfl⟩
  exact high_ne (H.piece p hp) ⟨hx, c1⟩ he h3 c3

theorem given_range (H : Spread n cn G W) (hg : Given n W new C) {p : Nat} (hp : p < n) {e : El} (he : LCell (W p) e) :
    C (name (W p).num e) < n := by
  obtain ⟨h1, e', he', hn⟩ := H.home p hp e he.1
  have := (hg _ h1 e' he' ((name_ty hn).trans he.2) (by rw [(H.piece _ h1).owner e' he', hn])).2
  rw [hn] at this; exact this

theorem own1_spec (H : Spread n cn G W) (hg : Given n W new C) {own1 : Nat → El → Nat} (h : Swap n isCell W new own1)
    {p : Nat} (hp : p < n) {e : El} (he : LCell (W p) e) : own1 p e = C (name (W p).num e) := by
  obtain ⟨h1, e', he', hn⟩ := H.home p hp e he.1
  rw [(swap_spec H h).2 p _ hp h1 e e' he.1 he' hn rfl (by simp [isCell, he.2])]
  rw [(hg _ h1 e' he' ((name_ty hn).trans he.2) (by rw [(H.piece _ h1).owner e' he', hn])).1, hn]

/-- The tags after the first pass over faces, edges and nodes. -/
structure Begun (n : Nat) (G : Whole) (W : Nat → Side V) (C : El → Nat) (X : Nat → Tags) : Prop where
  fine : ∀ p, p < n → ∀ e, (W p).T.alive e = true → Fine ((X p).np e)
  cell : ∀ p, p < n → ∀ e, LCell (W p) e → (X p).np e = [C (name (W p).num e)] ∧ (X p).own e = C (name (W p).num e)
  mem : ∀ p, p < n → ∀ e, (W p).T.alive e = true → ∀ r, r ∈ (X p).np e ↔
    ∃ c, LCell (W p) c ∧ At G (W p) c e ∧ r = C (name (W p).num c)
  own : ∀ p, p < n → ∀ e, (W p).T.alive e = true → (X p).own e ∈ (X p).np e

theorem begun (H : Spread n cn G W) (hc : Covered n G W) (hg : Given n W new C) {own1 : Nat → El → Nat} (h : Swap n isCell W new own1) :
    Begun n G W C (fun p => pass p true (W p) ⟨own1 p, startNp (W p) (own1 p), []⟩) := by
  have key : ∀ p, p < n → _ := fun p hp => pass_spec p true (H.piece p hp) (covered_high H hc hp) ⟨own1 p, startNp (W p) (own1 p), []⟩
    (fun e he h3 => by show Fine (startNp (W p) (own1 p) e); unfold startNp; rw [he, h3]; exact ⟨List.pairwise_singleton _ _, by simp⟩)
  have hcell : ∀ p, p < n → ∀ e, LCell (W p) e →
      (pass p true (W p) ⟨own1 p, startNp (W p) (own1 p), []⟩).np e = [C (name (W p).num e)] ∧
      (pass p true (W p) ⟨own1 p, startNp (W p) (own1 p), []⟩).own e = C (name (W p).num e) := by
    intro p hp e he
    obtain ⟨k, _⟩ := key p hp
    obtain ⟨k1, k2⟩ := k e (by rw [he.2]; omega)
    rw [k1, k2, ← own1_spec H hg h hp he]
    exact ⟨by show startNp (W p) (own1 p) e = _; unfold startNp; rw [he.1, he.2]; rfl, rfl⟩
  refine ⟨fun p hp e he => (key p hp).2.2.1 e he, hcell, fun p hp e he r => ?_, fun p hp e he => ?_⟩
  · rw [up_cells (H.piece p hp) (fun e he h3 => ((key p hp).2.2.2 e he h3).1) he]
    constructor
    · rintro ⟨c, c1, c2, c3, c4⟩
      rw [(hcell p hp c ⟨c1, c2⟩).1, List.mem_singleton] at c4
      exact ⟨c, ⟨c1, c2⟩, c3, c4⟩
    · rintro ⟨c, c1, c3, c4⟩
      exact ⟨c, c1.1, c1.2, c3, by rw [(hcell p hp c c1).1, List.mem_singleton]; exact c4⟩
  · by_cases h3 : e.ty < 3
    · exact ((key p hp).2.2.2 e he h3).2 rfl
    · have := tyLe (H.piece p hp).reach he
      obtain ⟨k1, k2⟩ := hcell p hp e ⟨he, by omega⟩
      rw [k1, k2]; simp

/-- Cells of the mesh, from copies. -/
theorem cellAt_of {p : Nat} (hp : p < n) {c e : El} (hc : LCell (W p) c) (ha : At G (W p) c e) :
    CellAt n G W (name (W p).num c) (name (W p).num e) := ⟨hc.2, ⟨p, hp, c, hc.1, rfl⟩, ha⟩

/-- The list of an element on all processors together. -/
def OnSome (n : Nat) (W : Nat → Side V) (a : Nat → El → List Nat) (g : El) (r : Nat) : Prop :=
  ∃ q, q < n ∧ ∃ e, (W q).T.alive e = true ∧ name (W q).num e = g ∧ r ∈ a q e

/-- Lists of processors of cells after widening. -/
structure Wide (n t layers : Nat) (G : Whole) (W : Nat → Side V) (C : El → Nat) (np : Nat → El → List Nat) : Prop where
  sorted : Sorted n W np
  self : ∀ p, p < n → ∀ e, LCell (W p) e → C (name (W p).num e) ∈ np p e
  range : ∀ p, p < n → ∀ e, LCell (W p) e → ∀ r ∈ np p e, r < n
  none : layers = 0 ∨ t = 4 → ∀ p, p < n → ∀ e, LCell (W p) e → ∀ r ∈ np p e, r = C (name (W p).num e)
  sound : ¬ (layers = 0 ∨ t = 4) → ∀ p, p < n → ∀ e, LCell (W p) e → ∀ r ∈ np p e,
    r = C (name (W p).num e) ∨ ∃ q i, q < n ∧ i ≤ layers ∧ Near n G W C t q r i (name (W p).num e)
  first : ¬ (layers = 0 ∨ t = 4) → t = 2 → TwoCells n G W → ∀ c, c.ty = 3 → ∀ r, Within n { G with owner := C } W t r 1 c →
    OnSome n W np c r
  whole : ¬ (layers = 0 ∨ t = 4) → TwoCells n G W → Meets n { G with owner := C } W t →
    (∃ p, p < n ∧ ∀ g, InMesh n W g → Has (W p) g) → ∀ c, c.ty = 3 → ∀ r, Within n { G with owner := C } W t r layers c → OnSome n W np c r

theorem begun_sorted {X : Nat → Tags} (B : Begun n G W C X) : Sorted n W (fun p => (X p).np) := fun p hp e he => (B.fine p hp e he).1

/-- The marking on a processor. -/
theorem mark_all (H : Spread n cn G W) (R : Regular cn G) {X : Nat → Tags} (B : Begun n G W C X)
    (hl : ¬ (layers = 0 ∨ t = 4)) (ht : t < 3 ∨ t = 4) {np1 : Nat → El → List Nat} (h1 : Merge n isFace W (fun p => (X p).np) np1)
    {p : Nat} (hp : p < n) :
    ∃ np', markLayers (W p) n t layers (np1 p) = some np' ∧ CellSorted (W p) np' ∧ (∀ e, e.ty ≠ 3 → np' e = np1 p e) ∧
      (∀ e, LCell (W p) e → np1 p e = [C (name (W p).num e)]) ∧
      (∀ f, (W p).T.alive f = true → f.ty = 2 → ∀ r, r ∈ np1 p f ↔ ∃ c, CellAt n G W c (name (W p).num f) ∧ r = C c) ∧
      ∀ e, LCell (W p) e → ∀ r, (r ∈ np1 p e → r ∈ np' e) ∧
        (∀ b f, r < n → b.ty = t → (W p).T.alive b = true → Split (W p) (np1 p) r f → At G (W p) f b → At G (W p) e b → r ∈ np' e) ∧
        (r ∈ np' e → r ∈ np1 p e ∨ r < n ∧ ∃ i, i ≤ layers ∧ Near n G W C t p r i (name (W p).num e)) := by
  have P := H.piece p hp
  have ht : t < 3 := ht.resolve_right fun h => hl (.inr h)
  have hl0 : layers ≠ 0 := fun h => hl (.inl h)
  obtain ⟨m1, m2, m3⟩ := merge_spec H (begun_sorted B) h1
  have hcell : ∀ e, LCell (W p) e → np1 p e = [C (name (W p).num e)] := fun e he => by
    rw [m3 p hp e he.1 (by simp [isFace, he.2])]; exact (B.cell p hp e he).1
  have hface : ∀ f, (W p).T.alive f = true → f.ty = 2 → ∀ r, r ∈ np1 p f ↔ ∃ c, CellAt n G W c (name (W p).num f) ∧ r = C c := by
    intro f hf h2 r
    rw [m2 p hp f hf (by simp [isFace, h2])]
    constructor
    · rintro ⟨q, hq, f', hf', hn, hr⟩
      obtain ⟨c, c1, c2, c3⟩ := (B.mem q hq f' hf' r).1 hr
      exact ⟨_, hn ▸ cellAt_of hq c1 c2, c3⟩
    · rintro ⟨c, ⟨c1, ⟨q, hq, x, hx, rfl⟩, c3⟩, rfl⟩
      obtain ⟨f', hf', hn, -⟩ := below_of_part (H.piece q hq) hx c3
      exact ⟨q, hq, f', hf', hn, (B.mem q hq f' hf' _).2 ⟨x, ⟨hx, c1⟩, by unfold At; rw [hn]; exact c3, rfl⟩⟩
  obtain ⟨np', a1, a2, a3, a4⟩ := markLayers_spec (n := n) (layers := layers) P R ht (D := fun i q e => Near n G W C t p q i (name (W p).num e))
    (np1 p) (fun e he => by rw [hcell e he]; exact List.pairwise_singleton _ _)
    (fun q b f e hq hs he hb hbt h7 h8 => by
      obtain ⟨s1, s2, x, y, s3, s4⟩ := hs
      obtain ⟨c, c1, c2⟩ := (hface f s1 s2 q).1 (by rw [s3]; simpa using s4)
      exact .first c1 c2.symm s2 ⟨f, s1, rfl⟩ h7 hbt he.2 ⟨e, he.1, rfl⟩ h8)
    (fun i q c j e hd hc he hj hjt h7 h8 => by
      exact .step hd h7 hjt he.2 ⟨e, he.1, rfl⟩ h8)
    hl0
  exact ⟨np', a1, a2, a3, hcell, hface, a4⟩

theorem within_zero {G' : Whole} {r : Nat} {c : El} (h : Within n G' W t r 0 c) : c.ty = 3 ∧ G'.owner c = r := by
  cases h with
  | own h1 _ h3 => exact ⟨h1, h3⟩

theorem within_mesh {G' : Whole} {r i : Nat} {c : El} (h : Within n G' W t r i c) : c.ty = 3 ∧ InMesh n W c := by
  induction h with
  | own h1 h2 _ => exact ⟨h1, h2⟩
  | stay _ ih => exact ih
  | step _ _ _ h _ => exact ⟨h.cell, h.mem⟩

theorem within_own {G' : Whole} {r i : Nat} {c : El} (h : Within n G' W t r i c) : ∃ c0, c0.ty = 3 ∧ InMesh n W c0 ∧ G'.owner c0 = r := by
  induction h with
  | own h1 h2 h3 => exact ⟨_, h1, h2, h3⟩
  | stay _ ih => exact ih
  | step _ _ _ _ ih => exact ih

/-- The list of a face between two parts. -/
theorem split_list (two : TwoCells n G W) {f c d : El} (h2 : f.ty = 2) {l : List Nat} (hs : l.Pairwise (· < ·))
    (hmem : ∀ r, r ∈ l ↔ ∃ c, CellAt n G W c f ∧ r = C c) (hc : CellAt n G W c f) (hd : CellAt n G W d f) (hcd : C c ≠ C d) :
    ∃ a b, l = [a, b] ∧ (C c = a ∨ C c = b) := by
  have e1 : C c ∈ l := (hmem _).2 ⟨c, hc, rfl⟩
  have e2 : C d ∈ l := (hmem _).2 ⟨d, hd, rfl⟩
  have e3 : ∀ x ∈ l, x = C c ∨ x = C d := by
    intro x hx
    obtain ⟨c', j1, j2⟩ := (hmem x).1 hx
    rcases two f h2 c d c' hc hd j1 with j | j | j
    · exact absurd (congrArg C j) hcd
    · exact .inr (by rw [j2, j])
    · exact .inl (by rw [j2, j])
  match l with
  | [] => simp at e1
  | [a] =>
    rw [List.mem_singleton] at e1 e2
    exact absurd (e1.trans e2.symm) hcd
  | [a, b] => exact ⟨a, b, rfl, by simpa using e1⟩
  | a :: b :: x :: l =>
    simp only [List.pairwise_cons, List.mem_cons] at hs
    have f1 := hs.1 b (by simp)
    have f2 := hs.2.1 x (by simp)
    have g1 := e3 a (by simp)
    have g2 := e3 b (by simp)
    have g3 := e3 x (by simp)
    omega

theorem widen_spec (H : Spread n cn G W) (R : Regular cn G) (hc : Covered n G W) (hg : Given n W new C) {X Y : Nat → Tags}
    (B : Begun n G W C X) (ht : t < 3 ∨ t = 4) (h : Widen n t layers W X Y) : Wide n t layers G W C (fun p => (Y p).np) := by
  unfold Widen at h
  by_cases hl : layers = 0 ∨ t = 4
  · rw [if_pos hl] at h
    obtain ⟨np, h1, h2⟩ := h
    obtain ⟨m1, m2, m3⟩ := merge_spec H (begun_sorted B) h1
    have hcell : ∀ p, p < n → ∀ e, LCell (W p) e → (Y p).np e = [C (name (W p).num e)] := fun p hp e he => by
      rw [h2 p hp]
      show np p e = _
      rw [m3 p hp e he.1 (by simp [isLow, he.2])]; exact (B.cell p hp e he).1
    refine ⟨fun p hp e he => ?_, fun p hp e he => ?_, fun p hp e he r hr => ?_, fun _ p hp e he r hr => ?_, fun k => absurd hl k,
      fun k => absurd hl k, fun k => absurd hl k⟩
    · show ((Y p).np e).Pairwise _
      rw [h2 p hp]; exact m1 p hp e he
    · show _ ∈ (Y p).np e
      rw [hcell p hp e he]; simp
    · have hr : r ∈ (Y p).np e := hr
      rw [hcell p hp e he, List.mem_singleton] at hr; rw [hr]; exact given_range H hg hp he
    · have hr : r ∈ (Y p).np e := hr
      rw [hcell p hp e he, List.mem_singleton] at hr; exact hr
  · rw [if_neg hl] at h
    obtain ⟨np1, np2, np3, np4, h1, h2, h3, h4, h5⟩ := h
    have hm : ∀ p, p < n → _ := fun p hp => mark_all H R B hl ht h1 hp
    obtain ⟨b1, -, b3⟩ := merge_spec H (begun_sorted B) h1
    have s2 : Sorted n W np2 := by
      intro p hp e he
      obtain ⟨np', a1, a2, a3, -⟩ := hm p hp
      rw [h2 p hp] at a1; injection a1 with a1; subst a1
      by_cases h3 : e.ty = 3
      · exact a2 e ⟨he, h3⟩
      · rw [a3 e h3]; exact b1 p hp e he
    obtain ⟨c1, c2, c3⟩ := merge_spec H s2 h3
    have hin : ∀ p, p < n → ∀ e, LCell (W p) e → ∀ r, r ∈ np3 p e ↔ OnSome n W np2 (name (W p).num e) r := fun p hp e he r =>
      c2 p hp e he.1 (by simp [isCell, he.2]) r
    have hself : ∀ p, p < n → ∀ e, LCell (W p) e → C (name (W p).num e) ∈ np2 p e := by
      intro p hp e he
      obtain ⟨np', a1, a2, a3, a4, a5, a6⟩ := hm p hp
      rw [h2 p hp] at a1; injection a1 with a1; subst a1
      exact (a6 e he _).1 (by rw [a4 e he]; simp)
    have key : ∀ p, p < n → _ := fun p hp => pass_spec p false (H.piece p hp) (covered_high H hc hp) { X p with np := np3 p }
      (fun e he h3 => ⟨c1 p hp e he, List.ne_nil_of_mem ((hin p hp e ⟨he, h3⟩ _).2 ⟨p, hp, e, he, rfl, hself p hp e ⟨he, h3⟩⟩)⟩)
    obtain ⟨d1, -, d3⟩ := merge_spec H (fun p hp e he => ((key p hp).2.2.1 e he).1) h4
    have hY : ∀ p, p < n → ∀ e, LCell (W p) e → (Y p).np e = np3 p e := by
      intro p hp e he
      rw [h5 p hp]
      show np4 p e = _
      rw [d3 p hp e he.1 (by simp [isLow, he.2])]
      exact ((key p hp).1 e (by rw [he.2]; omega)).1
    have hsound : ∀ p, p < n → ∀ e, LCell (W p) e → ∀ r ∈ (Y p).np e,
        r < n ∧ (r = C (name (W p).num e) ∨ ∃ q i, q < n ∧ i ≤ layers ∧ Near n G W C t q r i (name (W p).num e)) := by
      intro p hp e he r hr
      rw [hY p hp e he, hin p hp e he] at hr
      obtain ⟨q, hq, e', he', hn, hr⟩ := hr
      have he3 : LCell (W q) e' := ⟨he', (name_ty hn).trans he.2⟩
      obtain ⟨np', a1, a2, a3, a4, a5, a6⟩ := hm q hq
      rw [h2 q hq] at a1; injection a1 with a1; subst a1
      rw [← hn]
      rcases (a6 e' he3 r).2.2 hr with hr | hr
      · rw [a4 e' he3, List.mem_singleton] at hr
        subst hr
        exact ⟨given_range H hg hq he3, .inl rfl⟩
      · obtain ⟨hr, i, hi, hd⟩ := hr
        exact ⟨hr, .inr ⟨q, i, hq, hi, hd⟩⟩
    refine ⟨fun p hp e he => ?_, fun p hp e he => ?_, fun p hp e he r hr => (hsound p hp e he r hr).1, fun k => absurd k hl,
      fun _ p hp e he r hr => (hsound p hp e he r hr).2, fun _ h2t two c hc3 r hr => ?_,
      fun _ two meets ⟨p, hp, hall⟩ c hc3 r hr => ?_⟩
    · show ((Y p).np e).Pairwise _
      rw [h5 p hp]; exact d1 p hp e he
    · show _ ∈ (Y p).np e
      rw [hY p hp e he, hin p hp e he]
      exact ⟨p, hp, e, he.1, rfl, hself p hp e he⟩
    · have hown : ∀ c, c.ty = 3 → InMesh n W c → OnSome n W (fun p => (Y p).np) c (C c) := by
        rintro c k1 ⟨p, hp, e, he, rfl⟩
        refine ⟨p, hp, e, he, rfl, ?_⟩
        show _ ∈ (Y p).np e
        rw [hY p hp e ⟨he, k1⟩, hin p hp e ⟨he, k1⟩]
        exact ⟨p, hp, e, he, rfl, hself p hp e ⟨he, k1⟩⟩
      cases hr with
      | stay h0 =>
        cases h0 with
        | own k1 k2 k3 => exact k3 ▸ hown c k1 k2
      | @step _ c0 f _ h0 hf hft hcf =>
        by_cases hcr : C c = r
        · exact hcr ▸ hown c hc3 hcf.mem
        · obtain ⟨k1, k2⟩ := within_zero h0
          have hf' : CellAt n G W c0 f := ⟨hf.cell, hf.mem, part_own' hf.part⟩
          have hcf' : CellAt n G W c f := ⟨hcf.cell, hcf.mem, part_own' hcf.part⟩
          obtain ⟨q, hq, e, he, rfl⟩ := hcf.mem
          have he3 : LCell (W q) e := ⟨he, hc3⟩
          obtain ⟨f', hfa, rfl, -⟩ := below_of_part (H.piece q hq) he hcf'.part
          obtain ⟨np', a1, a2, a3, a4, a5, a6⟩ := hm q hq
          rw [h2 q hq] at a1; injection a1 with a1; subst a1
          have h2f : f'.ty = 2 := hft.trans h2t
          have k2 : C c0 = r := k2
          have hlist := split_list (f := name (W q).num f') two h2f (b1 q hq f' hfa) (a5 f' hfa h2f) hf' hcf' (C := C) (by rw [k2]; exact fun h => hcr h.symm)
          rw [k2] at hlist
          have hrn : r < n := by
            obtain ⟨q0, hq0, x0, hx0, rfl⟩ := hf'.mem
            rw [← k2]; exact given_range H hg hq0 ⟨hx0, hf'.cell⟩
          refine ⟨q, hq, e, he, rfl, ?_⟩
          show _ ∈ (Y q).np e
          rw [hY q hq e he3, hin q hq e he3]
          exact ⟨q, hq, e, he, rfl, (a6 e he3 r).2.1 f' f' hrn hft hfa ⟨hfa, h2f, hlist⟩ .self hcf'.part⟩
    · obtain ⟨np', a1, a2, a3, a4, a5, a6⟩ := hm p hp
      rw [h2 p hp] at a1; injection a1 with a1; subst a1
      have P := H.piece p hp
      have ht : t < 3 := ht.resolve_right fun h => hl (.inr h)
      have hmesh := within_mesh hr
      obtain ⟨e, he, rfl⟩ := hall c hmesh.2
      have he3 : LCell (W p) e := ⟨he, hc3⟩
      refine ⟨p, hp, e, he, rfl, ?_⟩
      show _ ∈ (Y p).np e
      rw [hY p hp e he3, hin p hp e he3]
      refine ⟨p, hp, e, he, rfl, ?_⟩
      have hrn : r < n := by
        obtain ⟨c0, k1, ⟨q0, hq0, x0, hx0, rfl⟩, k3⟩ := within_own hr
        rw [← k3]; exact given_range H hg hq0 ⟨hx0, k1⟩
      refine markLayers_lower P R ht hrn (fun h => hl (.inl h)) (np := np1 p)
        (F := fun i e => Within n { G with owner := C } W t r i (name (W p).num e)) ?_ ?_ ?_ ?_ (h2 p hp) e he3 hr
      · intro x hx; rw [a4 x hx]; exact List.pairwise_singleton _ _
      · intro x d b hx hd hqx hqd hb hbt k1 k2
        rw [a4 x hx, List.mem_singleton] at hqx
        rw [a4 d hd, List.mem_singleton] at hqd
        have cx := cellAt_of (G := G) hp hx k1
        have cd := cellAt_of (G := G) hp hd k2
        obtain ⟨f, u, v, f1, f2, f3, f4, f5, f6⟩ := meets _ _ (name (W p).num b) hbt ⟨cx.cell, cx.mem, part_own cx.part⟩
          ⟨cd.cell, cd.mem, part_own cd.part⟩ (by show C _ ≠ C _; rw [← hqx]; exact hqd)
        have f2 : CellAt n G W u f := ⟨f2.cell, f2.mem, part_own' f2.part⟩
        have f3 : CellAt n G W v f := ⟨f3.cell, f3.mem, part_own' f3.part⟩
        have f4 : C u = r := f4.trans hqx.symm
        have f5 : C v ≠ r := fun h => f5 (h.trans hqx)
        obtain ⟨w, hw, rfl⟩ := hall f (by
          obtain ⟨q0, hq0, x0, hx0, rfl⟩ := f2.mem
          obtain ⟨y, hy, hn, -⟩ := below_of_part (H.piece q0 hq0) hx0 f2.part
          exact ⟨q0, hq0, y, hy, hn⟩)
        have hlist := split_list (f := name (W p).num w) two f1 (b1 p hp w hw) (a5 w hw f1) f2 f3 (C := C) (by rw [f4]; exact fun h => f5 h.symm)
        rw [f4] at hlist
        exact ⟨w, ⟨hw, f1, hlist⟩, part_own' f6⟩
      · intro x hx h0
        have := (within_zero h0).2
        rw [a4 x hx, List.mem_singleton]; exact this.symm
      · intro i d hd hw
        cases hw with
        | stay h => exact .inl h
        | @step _ c0 b _ h0 hb hbt hdb =>
          obtain ⟨x, hx, rfl⟩ := hall c0 hb.mem
          obtain ⟨b', hb', rfl, -⟩ := below_of_part P hx (part_own' hb.part)
          exact .inr ⟨x, ⟨hx, hb.cell⟩, h0, b', hb', hbt, part_own' hb.part, part_own' hdb.part⟩

/-- The lists of the cells on all processors together. -/
structure Cells (n t layers : Nat) (G : Whole) (W : Nat → Side V) (C : El → Nat) (NC : El → Nat → Prop) : Prop where
  self : ∀ c, c.ty = 3 → InMesh n W c → NC c (C c)
  range : ∀ c, c.ty = 3 → ∀ r, NC c r → r < n
  none : layers = 0 ∨ t = 4 → ∀ c, c.ty = 3 → ∀ r, NC c r → r = C c
  sound : ¬ (layers = 0 ∨ t = 4) → ∀ c, c.ty = 3 → ∀ r, NC c r →
    r = C c ∨ ∃ q i, q < n ∧ i ≤ layers ∧ Near n G W C t q r i c
  first : ¬ (layers = 0 ∨ t = 4) → t = 2 → TwoCells n G W → ∀ c, c.ty = 3 → ∀ r, Within n { G with owner := C } W t r 1 c → NC c r
  whole : ¬ (layers = 0 ∨ t = 4) → TwoCells n G W → Meets n { G with owner := C } W t →
    (∃ p, p < n ∧ ∀ g, InMesh n W g → Has (W p) g) → ∀ c, c.ty = 3 → ∀ r, Within n { G with owner := C } W t r layers c → NC c r

/-- New owners and processors of all elements. -/
structure Planned (n : Nat) (G : Whole) (W : Nat → Side V) (C : El → Nat) (NC : El → Nat → Prop) (own : Nat → El → Nat)
    (np : Nat → El → List Nat) : Prop where
  sorted : Sorted n W np
  mem : ∀ p, p < n → ∀ e, (W p).T.alive e = true → ∀ r, r ∈ np p e ↔ ∃ c, CellAt n G W c (name (W p).num e) ∧ NC c r
  from_ : ∀ p, p < n → ∀ e, (W p).T.alive e = true → ∃ c, CellAt n G W c (name (W p).num e) ∧ own p e = C c
  cell : ∀ p, p < n → ∀ e, LCell (W p) e → own p e = C (name (W p).num e)
  same : ∀ p q, p < n → q < n → ∀ e e', (W p).T.alive e = true → (W q).T.alive e' = true → name (W q).num e' = name (W p).num e →
    own p e = own q e'

theorem wide_cells (H : Spread n cn G W) {np : Nat → El → List Nat} (w : Wide n t layers G W C np) :
    Cells n t layers G W C (OnSome n W np) := by
  have hl : ∀ {q : Nat} {e : El} {c : El}, (W q).T.alive e = true → name (W q).num e = c → c.ty = 3 → LCell (W q) e :=
    fun h1 h2 h3 => ⟨h1, (show _ = _ from (congrArg El.ty h2)).trans h3⟩
  refine ⟨?_, ?_, ?_, ?_, w.first, w.whole⟩
  · rintro c h3 ⟨p, hp, e, he, rfl⟩
    exact ⟨p, hp, e, he, rfl, w.self p hp e ⟨he, h3⟩⟩
  · rintro c h3 r ⟨q, hq, e, he, rfl, hr⟩
    exact w.range q hq e ⟨he, h3⟩ r hr
  · rintro hn c h3 r ⟨q, hq, e, he, rfl, hr⟩
    exact w.none hn q hq e ⟨he, h3⟩ r hr
  · rintro hn c h3 r ⟨q, hq, e, he, rfl, hr⟩
    exact w.sound hn q hq e ⟨he, h3⟩ r hr

theorem plan_spec (H : Spread n cn G W) (R : Regular cn G) (hc : Covered n G W) (hg : Given n W new C) (ht : t < 3 ∨ t = 4)
    (h : Plan n t layers W new own np) : ∃ NC, Cells n t layers G W C NC ∧ Planned n G W C NC own np := by
  obtain ⟨own1, Y, np1, h1, h2, h3, h4, h5⟩ := h
  have B := begun H hc hg h1
  have w := widen_spec H R hc hg B ht h3
  have K := wide_cells H w
  refine ⟨_, K, ?_⟩
  obtain ⟨c1, c2, -⟩ := merge_spec H w.sorted h4
  have hin : ∀ p, p < n → ∀ e, (W p).T.alive e = true → ∀ r, r ∈ np1 p e ↔ OnSome n W (fun p => (Y p).np) (name (W p).num e) r :=
    fun p hp e he r => c2 p hp e he rfl r
  have key : ∀ p, p < n → _ := fun p hp => pass_spec p false (H.piece p hp) (covered_high H hc hp) { Y p with np := np1 p }
    (fun e he h3 => ⟨c1 p hp e he, List.ne_nil_of_mem ((hin p hp e he _).2 (K.self _ h3 ⟨p, hp, e, he, rfl⟩))⟩)
  obtain ⟨d1, d2, d3⟩ := merge_spec H (fun p hp e he => ((key p hp).2.2.1 e he).1) h5
  have hlow : ∀ p, p < n → ∀ e, (W p).T.alive e = true → ∀ r, r ∈ (pass p false (W p) { Y p with np := np1 p }).np e ↔
      ∃ c, LCell (W p) c ∧ At G (W p) c e ∧ OnSome n W (fun p => (Y p).np) (name (W p).num c) r := by
    intro p hp e he r
    rw [up_cells (H.piece p hp) (fun e he h3 => ((key p hp).2.2.2 e he h3).1) he]
    have hk : ∀ c, LCell (W p) c → (pass p false (W p) { Y p with np := np1 p }).np c = np1 p c := fun c hc =>
      ((key p hp).1 c (by rw [hc.2]; omega)).1
    constructor
    · rintro ⟨c, k1, k2, k3, k4⟩
      rw [hk c ⟨k1, k2⟩, hin p hp c k1] at k4
      exact ⟨c, ⟨k1, k2⟩, k3, k4⟩
    · rintro ⟨c, k1, k3, k4⟩
      exact ⟨c, k1.1, k1.2, k3, by rw [hk c k1, hin p hp c k1.1]; exact k4⟩
  obtain ⟨s1, s2⟩ := swap_spec H h2
  have hcell : ∀ p, p < n → ∀ e, LCell (W p) e → own p e = C (name (W p).num e) := fun p hp e he => by
    rw [s1 p hp e he.1 (by simp [isLow, he.2])]; exact (B.cell p hp e he).2
  refine ⟨d1, fun p hp e he r => ?_, fun p hp e he => ?_, hcell, fun p q hp hq e e' he he' hn => ?_⟩
  · by_cases h3 : e.ty < 3
    · rw [d2 p hp e he (by simp [isLow, h3])]
      constructor
      · rintro ⟨q, hq, e', he', hn, hr⟩
        obtain ⟨c, k1, k2, k3⟩ := (hlow q hq e' he' r).1 hr
        exact ⟨_, hn ▸ cellAt_of hq k1 k2, k3⟩
      · rintro ⟨c, ⟨k1, ⟨q, hq, x, hx, rfl⟩, k3⟩, hr⟩
        obtain ⟨e', he', hn, -⟩ := below_of_part (H.piece q hq) hx k3
        exact ⟨q, hq, e', he', hn, (hlow q hq e' he' r).2 ⟨x, ⟨hx, k1⟩, by unfold At; rw [hn]; exact k3, hr⟩⟩
    · have h33 : e.ty = 3 := by have := tyLe (H.piece p hp).reach he; omega
      rw [d3 p hp e he (by simp [isLow, h33]), ((key p hp).1 e (by omega)).1]
      show r ∈ np1 p e ↔ _
      rw [hin p hp e he]
      constructor
      · intro hr; exact ⟨name (W p).num e, ⟨h33, ⟨p, hp, e, he, rfl⟩, .self⟩, hr⟩
      · rintro ⟨c, ⟨k1, ⟨q, hq, x, hx, rfl⟩, k3⟩, hr⟩
        rw [(part_ty (H.piece q hq) ⟨x, hx, rfl⟩ k3).2 (h33.trans k1.symm)]
        exact hr
  · by_cases h3 : e.ty < 3
    · obtain ⟨o1, e', he', hn⟩ := H.home p hp e he
      rw [s2 p _ hp o1 e e' he he' hn rfl (by simp [isLow, h3])]
      obtain ⟨c, k1, k2, k3⟩ := (B.mem _ o1 e' he' _).1 (B.own _ o1 e' he')
      have := cellAt_of o1 k1 k2
      exact ⟨_, (by rw [hn] at this; exact this), k3⟩
    · have h33 : e.ty = 3 := by have := tyLe (H.piece p hp).reach he; omega
      exact ⟨name (W p).num e, ⟨h33, ⟨p, hp, e, he, rfl⟩, .self⟩, hcell p hp e ⟨he, h33⟩⟩
  · by_cases h3 : e.ty < 3
    · obtain ⟨o1, e2, he2, hn2⟩ := H.home p hp e he
      have ht' : e'.ty = e.ty := name_ty hn
      rw [s2 p _ hp o1 e e2 he he2 hn2 rfl (by simp [isLow, h3]), s2 q _ hq o1 e' e2 he' he2 (hn2.trans hn.symm) (by rw [hn]) (by simp [isLow, ht', h3])]
    · have h33 : e.ty = 3 := by have := tyLe (H.piece p hp).reach he; omega
      rw [hcell p hp e ⟨he, h33⟩, hcell q hq e' ⟨he', (name_ty hn).trans h33⟩, hn]

theorem widen_exists (H : Spread n cn G W) (R : Regular cn G) (hc : Covered n G W) {X : Nat → Tags}
    (B : Begun n G W C X) (ht : t < 3 ∨ t = 4) : ∃ Y, Widen n t layers W X Y := by
  unfold Widen
  by_cases hl : layers = 0 ∨ t = 4
  · simp only [if_pos hl]
    obtain ⟨np, h⟩ := merge_exists (mask := isLow) H (begun_sorted B)
    exact ⟨fun p => { X p with np := np p }, np, h, fun _ _ => rfl⟩
  · simp only [if_neg hl]
    obtain ⟨np1, h1⟩ := merge_exists (mask := isFace) H (begun_sorted B)
    have hm : ∀ p, ∃ np', p < n → _ := fun p => by
      by_cases hp : p < n
      · obtain ⟨np', h⟩ := mark_all H R B hl ht h1 hp; exact ⟨np', fun _ => h⟩
      · exact ⟨np1 p, fun k => absurd k hp⟩
    choose np2 h2 using hm
    obtain ⟨b1, -, b3⟩ := merge_spec H (begun_sorted B) h1
    have s2 : Sorted n W np2 := by
      intro p hp e he
      obtain ⟨a1, a2, a3, -⟩ := h2 p hp
      by_cases h3 : e.ty = 3
      · exact a2 e ⟨he, h3⟩
      · rw [a3 e h3]; exact b1 p hp e he
    obtain ⟨np3, h3⟩ := merge_exists (mask := isCell) H s2
    obtain ⟨c1, c2, c3⟩ := merge_spec H s2 h3
    have key : ∀ p, p < n → _ := fun p hp => pass_spec p false (H.piece p hp) (covered_high H hc hp) { X p with np := np3 p }
      (fun e he h3 => ⟨c1 p hp e he, by
        obtain ⟨a1, a2, a3, a4, a5, a6⟩ := h2 p hp
        exact List.ne_nil_of_mem ((c2 p hp e he (by simp [isCell, h3]) _).2 ⟨p, hp, e, he, rfl,
          (a6 e ⟨he, h3⟩ _).1 (by rw [a4 e ⟨he, h3⟩]; exact List.mem_singleton.2 rfl)⟩)⟩)
    obtain ⟨np4, h4⟩ := merge_exists (mask := isLow) H (fun p hp e he => ((key p hp).2.2.1 e he).1)
    exact ⟨_, np1, np2, np3, np4, h1, fun p hp => (h2 p hp).1, h3, h4, fun _ _ => rfl⟩

theorem plan_exists (H : Spread n cn G W) (R : Regular cn G) (hc : Covered n G W) (hg : Given n W new C) (ht : t < 3 ∨ t = 4) :
    ∃ own np, Plan n t layers W new own np := by
  obtain ⟨own1, h1⟩ := swap_exists H isCell new
  have B := begun H hc hg h1
  obtain ⟨own, h2⟩ := swap_exists H isLow (fun p => (pass p true (W p) ⟨own1 p, startNp (W p) (own1 p), []⟩).own)
  obtain ⟨Y, h3⟩ := widen_exists (layers := layers) H R hc B ht
  have w := widen_spec H R hc hg B ht h3
  have K := wide_cells H w
  obtain ⟨np1, h4⟩ := merge_exists (mask := fun _ => true) H w.sorted
  obtain ⟨c1, c2, -⟩ := merge_spec H w.sorted h4
  have key : ∀ p, p < n → _ := fun p hp => pass_spec p false (H.piece p hp) (covered_high H hc hp) { Y p with np := np1 p }
    (fun e he h3 => ⟨c1 p hp e he, List.ne_nil_of_mem ((c2 p hp e he rfl _).2 (K.self _ h3 ⟨p, hp, e, he, rfl⟩))⟩)
  obtain ⟨np, h5⟩ := merge_exists (mask := isLow) H (fun p hp e he => ((key p hp).2.2.1 e he).1)
  exact ⟨own, np, own1, Y, np1, h1, h2, h3, h4, h5⟩

/-! ## The temporary tags -/

theorem load_spread (H : Spread n cn G W) : Spread n cn G (fun p => load (W p) (own p) (np p)) :=
  ⟨fun p hp => ⟨(H.piece p hp).reach, (H.piece p hp).plain, (H.piece p hp).fits, (H.piece p hp).owner⟩,
    H.sorted, H.procs, H.home, H.ghost, H.own, H.sh, H.gh⟩

theorem unload_spread {Z : Nat → Side (Pay V)} {W' : Nat → Side V} (H : Spread n cn G Z) (h : ∀ p, p < n → W' p = unload (Z p)) :
    Spread n cn G W' := by
  have hh : ∀ q, q < n → ∀ g, Has (W' q) g ↔ Has (Z q) g := fun q hq g => by rw [h q hq]; exact Iff.rfl
  constructor
  · intro p hp; rw [h p hp]
    exact ⟨(H.piece p hp).reach, (H.piece p hp).plain, (H.piece p hp).fits, (H.piece p hp).owner⟩
  · intro p hp; rw [h p hp]; exact H.sorted p hp
  · intro p hp e he q
    rw [h p hp] at he ⊢
    refine (H.procs p hp e he q).trans (and_congr_right fun hq => ?_)
    rw [hh q hq]; exact Iff.rfl
  · intro p hp e he
    rw [h p hp] at he ⊢
    obtain ⟨h1, h2⟩ := H.home p hp e he
    exact ⟨h1, (hh _ h1 _).2 h2⟩
  · intro p hp; rw [h p hp]; exact H.ghost p hp
  · intro p hp; rw [h p hp]; exact H.own p hp
  · intro p hp; rw [h p hp]; exact H.sh p hp
  · intro p hp; rw [h p hp]; exact H.gh p hp

/-- The plan says where each element goes. -/
theorem plan_aim (H : Spread n cn G W) (R : Regular cn G) {NC : El → Nat → Prop} (K : Cells n t layers G W C NC)
    (Q : Planned n G W C NC own np) :
    ∃ O N, Aim n cn G (fun p => load (W p) (own p) (np p)) O N ∧ (∀ c, c.ty = 3 → InMesh n W c → O c = C c) ∧
      ∀ g, InMesh n W g → ∀ r, r ∈ N g ↔ ∃ c, CellAt n G W c g ∧ NC c r := by
  classical
  have hex : ∀ g, ∃ x : Nat × El, InMesh n W g → x.1 < n ∧ (W x.1).T.alive x.2 = true ∧ name (W x.1).num x.2 = g := fun g => by
    by_cases hg : InMesh n W g
    · obtain ⟨p, hp, e, he, hn⟩ := hg; exact ⟨(p, e), fun _ => ⟨hp, he, hn⟩⟩
    · exact ⟨(0, ⟨0, 0⟩), fun k => absurd k hg⟩
  choose x hx using hex
  have hin : ∀ p, p < n → ∀ e, (W p).T.alive e = true → InMesh n W (name (W p).num e) := fun p hp e he => ⟨p, hp, e, he, rfl⟩
  have hmem : ∀ g, InMesh n W g → ∀ r, r ∈ np (x g).1 (x g).2 ↔ ∃ c, CellAt n G W c g ∧ NC c r := by
    intro g hg r
    obtain ⟨h1, h2, h3⟩ := hx g hg
    rw [Q.mem _ h1 _ h2, h3]
  refine ⟨fun g => own (x g).1 (x g).2, fun g => np (x g).1 (x g).2, ⟨fun p hp e he => ?_, fun g hg => ?_, fun g hg r hr => ?_, fun g hg => ?_,
    fun g h hg hp r hr => ?_⟩, fun c h3 hc => ?_, hmem⟩
  · obtain ⟨h1, h2, h3⟩ := hx _ (hin p hp e he)
    refine ⟨Q.same p _ hp h1 e _ he h2 h3, Parallel.sorted_ext (Q.sorted p hp e he) (Q.sorted _ h1 _ h2) fun r => ?_⟩
    exact (Q.mem p hp e he r).trans (hmem _ (hin p hp e he) r).symm
  · obtain ⟨h1, h2, h3⟩ := hx g hg
    exact Q.sorted _ h1 _ h2
  · obtain ⟨c, k1, k2⟩ := (hmem g hg r).1 hr
    exact K.range c k1.cell r k2
  · obtain ⟨h1, h2, h3⟩ := hx g hg
    obtain ⟨c, k1, k2⟩ := Q.from_ _ h1 _ h2
    rw [h3] at k1
    exact (hmem g hg _).2 ⟨c, k1, by rw [k2]; exact K.self c k1.cell k1.mem⟩
  · obtain ⟨c, k1, k2⟩ := (hmem g hg r).1 hr
    obtain ⟨p, hpn, hg⟩ := hg
    exact (hmem h ⟨p, hpn, part_has (H.piece p hpn) hg hp⟩ r).2
      ⟨c, ⟨k1.cell, k1.mem, part_trans k1.part (part_false (H.piece p hpn) R hg hp)⟩, k2⟩
  · obtain ⟨h1, h2, h4⟩ := hx c hc
    show own (x c).1 (x c).2 = _
    rw [Q.cell _ h1 _ ⟨h2, by have := congrArg El.ty h4; exact this.trans h3⟩, h4]

end

end Verif.Migrate
