import Verif.Migrate.Plan

/-! # Lemmas: the redistribution -/

namespace Verif.Migrate

open Verif.Topology Verif.Transfer Verif.Layers

variable {V : Type} {n : Nat} {cn : Bool} {G : Whole} {W W' : Nat → Side V} {new : Nat → El → Nat} {C : El → Nat} {t layers : Nat}
  {pick : Topo → Nat → Nat} {flip : Topo → El → Bool} {dup : Bool}

/-- What Redistribute does. -/
structure Done (n t layers : Nat) (cn : Bool) (G : Whole) (W W' : Nat → Side V) (C : El → Nat) (NC : El → Nat → Prop) : Prop where
  cells : Cells n t layers G W C NC
  spread : ∃ O, (∀ c, c.ty = 3 → InMesh n W c → O c = C c) ∧ Spread n cn { G with owner := O } W'
  has : ∀ q, q < n → ∀ g, Has (W' q) g ↔ ∃ c, CellAt n G W c g ∧ NC c q
  vals : ∀ q, q < n → ∀ x, (W' q).T.alive x = true → ∃ p, p < n ∧ ∃ e, (W p).T.alive e = true ∧
    name (W p).num e = name (W' q).num x ∧ (W p).val e = (W' q).val x

theorem inMesh_at (H : Spread n cn G W) {c g : El} (h : CellAt n G W c g) : InMesh n W g := by
  obtain ⟨p, hp, e, he, hn⟩ := h.mem
  subst hn
  obtain ⟨a, ha, hn, -⟩ := below_of_part (H.piece p hp) he h.part
  exact ⟨p, hp, a, ha, hn⟩

theorem redistribute_done (ok : G.Ok) (H : Spread n cn G W) (R : Regular cn G) (hc : Covered n G W) (hg : Given n W new C)
    (fresh : Fresh cn pick) (h : Redistribute n t layers dup pick flip new W W') : ∃ NC, Done n t layers cn G W W' C NC := by
  obtain ⟨ht, own, np, Z, X, h1, h2, h3⟩ := h
  obtain ⟨NC, K, Q⟩ := plan_spec H R hc hg ht h1
  obtain ⟨O, N, A, hO, hN⟩ := plan_aim H R K Q
  have M := move_of ok (load_spread H) A fresh h2
  refine ⟨NC, K, ⟨O, hO, unload_spread M.spread h3⟩, fun q hq g => ?_, fun q hq x hx => ?_⟩
  · have : Has (W' q) g ↔ Has (Z q) g := by rw [h3 q hq]; exact Iff.rfl
    rw [this, M.has q hq]
    constructor
    · rintro ⟨hg, hr⟩; exact (hN g hg q).1 hr
    · rintro ⟨c, c1, c2⟩
      have hg : InMesh n W g := inMesh_at H c1
      exact ⟨hg, (hN g hg q).2 ⟨c, c1, c2⟩⟩
  · rw [h3 q hq] at hx ⊢
    obtain ⟨p, hp, e, he, hn, hv⟩ := M.vals q hq x hx
    exact ⟨p, hp, e, he, hn, congrArg Pay.val hv⟩

theorem redistribute_exists (ok : G.Ok) (H : Spread n cn G W) (R : Regular cn G) (hc : Covered n G W) (hg : Given n W new C)
    (fresh : Fresh cn pick) (ht : t < 3 ∨ t = 4) (dup : Bool) (flip : Topo → El → Bool)
    (arr : Nat → List (Nat × Msg (Pay V)) → List (Nat × Msg (Pay V))) (ha : ∀ q l, (arr q l).Perm l) :
    ∃ (W' : Nat → Side V) (own : Nat → El → Nat) (np : Nat → El → List Nat) (Z : Nat → Side (Pay V)) (X : Trace V), Plan n t layers W new own np ∧
      MoveMarked n dup pick flip (fun p => sendNew p (load (W p) (own p) (np p))) (fun p => load (W p) (own p) (np p)) Z X ∧
      (∀ q, X.order q = arr q (mail n X.box q)) ∧ ∀ p, p < n → W' p = unload (Z p) := by
  obtain ⟨own, np, h1⟩ := plan_exists (layers := layers) H R hc hg ht
  obtain ⟨NC, K, Q⟩ := plan_spec H R hc hg ht h1
  obtain ⟨O, N, A, hO, hN⟩ := plan_aim H R K Q
  obtain ⟨Z, X, h2, h3⟩ := move_exists ok (load_spread H) A fresh dup flip arr ha
  exact ⟨fun p => unload (Z p), own, np, Z, X, h1, h2, h3, fun _ _ => rfl⟩

/-- What a processor sees is around its cells. -/
theorem near_within (H : Spread n cn G W) {p q i : Nat} (hp : p < n) {c : El} (h : Near n G W C t p q i c) :
    c.ty = 3 ∧ Has (W p) c ∧ Within n { G with owner := C } W t q i c := by
  induction h with
  | first h1 h2 _ _ h5 h6 h7 h8 h9 =>
    exact ⟨h7, h8, .step (.own h1.cell h1.mem h2) ⟨h1.cell, h1.mem, part_own (part_trans h1.part h5)⟩ h6
      ⟨h7, ⟨p, hp, h8⟩, part_own h9⟩⟩
  | step _ h1 h2 h3 h4 h5 ih =>
    exact ⟨h3, h4, .step ih.2.2 ⟨ih.1, ⟨p, hp, ih.2.1⟩, part_own h1⟩ h2 ⟨h3, ⟨p, hp, h4⟩, part_own h5⟩⟩

theorem within_le {G' : Whole} {q i j : Nat} {c : El} (hij : i ≤ j) (h : Within n G' W t q i c) : Within n G' W t q j c := by
  induction hij with
  | refl => exact h
  | step _ ih => exact .stay ih

end Verif.Migrate
