import Verif.Layers.Model
import Verif.Layers.Spec
import Verif.Transfer.Rounds

/-! # Lemmas: adjacency on a processor in terms of the whole mesh -/

namespace Verif.Layers

open Verif.Topology Verif.Transfer

variable {V : Type} {cn : Bool} {G : Whole} {S : Side V}

theorem hid_false (P : Piece cn G S) (x : El) : S.T.hid x = false := by
  unfold Topo.hid; rw [P.plain]; rfl

theorem inv_of (P : Piece cn G S) : Inv S.T (fun _ => False) := (reach_inv P.reach).1

/-- Lower elements on the processor and in the whole mesh. -/
theorem mem_low (P : Piece cn G S) {x y : El} (hx : S.T.alive x = true) (hy : S.T.alive y = true) (h0 : 0 < x.ty) :
    y ∈ S.T.low x ↔ name S.num y ∈ G.low (name S.num x) := by
  rw [← (P.fits.low x hx h0).mem_iff, List.mem_map]
  constructor
  · intro h; exact ⟨y, h, rfl⟩
  · rintro ⟨z, hz, he⟩
    rw [← P.fits.inj z y ((inv_of P).lowLive hz).1 hy he]
    exact hz

theorem low_has (P : Piece cn G S) {x g : El} (hx : S.T.alive x = true) (h0 : 0 < x.ty) (h : g ∈ G.low (name S.num x)) :
    ∃ y, y ∈ S.T.low x ∧ S.T.alive y = true ∧ name S.num y = g := by
  obtain ⟨y, hy, rfl⟩ := List.mem_map.1 ((P.fits.low x hx h0).mem_iff.2 h)
  exact ⟨y, hy, ((inv_of P).lowLive hy).1, rfl⟩

theorem good_of (P : Piece cn G S) (R : Regular cn G) : Good S.T := by
  have I := inv_of P
  refine ⟨fun x => ?_, fun x y h => (by rw [hid_false P] at h; cases h), fun hc c h3 ha x => ?_⟩
  · cases ha : S.T.alive x with
    | false => rw [(I.dead x ha).1]; exact List.nodup_nil
    | true =>
      by_cases h0 : 0 < x.ty
      · exact ((P.fits.low x ha h0).nodup_iff.2 (R.low _)).of_map
      · rw [List.nodup_iff_count_le_one]
        intro c
        by_cases hm : c ∈ S.T.low x
        · obtain ⟨hcn, h3⟩ := (I.lowTy x c hm).2 (by omega)
          have hal := (I.lowLive hm).1
          rw [I.mirror c x (fun h => h)]
          have hn : ((S.T.high c).map (name S.num)).Nodup :=
            (P.fits.nodes c hal h3 hcn).nodup_iff.2 (R.nodes (by rw [← (reach_inv P.reach).2]; exact hcn) (name S.num c) h3).1
          exact List.nodup_iff_count_le_one.1 hn.of_map x
        · rw [List.count_eq_zero.2 hm]; omega
  · have hR := (R.nodes (by rw [← (reach_inv P.reach).2]; exact hc) (name S.num c) h3).2
    have hperm := P.fits.nodes c ha h3 hc
    constructor
    · intro hx
      obtain ⟨f, hf, e, he, hxe⟩ := (hR _).1 (hperm.mem_iff.1 (List.mem_map_of_mem hx))
      obtain ⟨f', hf', fa, rfl⟩ := low_has P ha (by omega) hf
      have ft := (I.lowTy c f' hf').1 (by omega)
      obtain ⟨e', he', ea, rfl⟩ := low_has P fa (by omega) he
      have et := (I.lowTy f' e' he').1 (by omega)
      have xa : S.T.alive x = true := (I.highLive (fun h => h) hx).2
      exact ⟨f', hf', e', he', (mem_low P ea xa (by omega)).2 hxe⟩
    · rintro ⟨f, hf, e, he, hx⟩
      have fa := (I.lowLive hf).1
      have ea := (I.lowLive he).1
      have xa := (I.lowLive hx).1
      have ft := (I.lowTy c f hf).1 (by omega)
      have et := (I.lowTy f e he).1 (by omega)
      have := (hR (name S.num x)).2 ⟨_, (mem_low P ha fa (by omega)).1 hf, _, (mem_low P fa ea (by omega)).1 he,
        (mem_low P ea xa (by omega)).1 hx⟩
      obtain ⟨z, hz, hzn⟩ := List.mem_map.1 (hperm.mem_iff.2 this)
      rw [← P.fits.inj z x (I.highLive (fun h => h) hz).2 xa hzn]
      exact hz

theorem part_of_below (P : Piece cn G S) {a b : El} (hb : S.T.alive b = true) (h : Below S.T a b) :
    S.T.alive a = true ∧ Part false G (name S.num b) (name S.num a) := by
  have I := inv_of P
  have key : ∀ {g h k : El}, Part false G h k → Part false G g h → Part false G g k := by
    intro g h k hk hg
    induction hk with
    | self => exact hg
    | low _ a b ih => exact .low ih a b
    | nodes _ _ a => cases a
  induction h with
  | refl => exact ⟨hb, .self⟩
  | @step b c _ hm h0 _ ih =>
    have ba := (I.lowLive hm).1
    obtain ⟨h1, h2⟩ := ih ba
    exact ⟨h1, key h2 (.low .self h0 ((mem_low P hb ba h0).1 hm))⟩

theorem below_of_part (P : Piece cn G S) {b : El} (hb : S.T.alive b = true) {g : El} (h : Part false G (name S.num b) g) :
    ∃ a, S.T.alive a = true ∧ name S.num a = g ∧ Below S.T a b := by
  have I := inv_of P
  have key : ∀ {x y z : El}, Below S.T y z → x ∈ S.T.low y → 0 < y.ty → Below S.T x z := by
    intro x y z h hx h0
    induction h with
    | refl hv => exact .step (.refl (hid_false P x)) hx h0 hv
    | step _ a b c ih => exact .step ih a b c
  induction h with
  | self => exact ⟨b, hb, rfl, .refl (hid_false P b)⟩
  | @low h k _ h0 hk ih =>
    obtain ⟨a, h1, rfl, h3⟩ := ih
    obtain ⟨y, hy, ya, rfl⟩ := low_has P h1 h0 hk
    exact ⟨y, ya, rfl, key h3 hy h0⟩
  | nodes _ _ a => cases a

theorem below_iff (P : Piece cn G S) {a b : El} (hb : S.T.alive b = true) :
    Below S.T a b ↔ S.T.alive a = true ∧ Part false G (name S.num b) (name S.num a) := by
  refine ⟨part_of_below P hb, fun ⟨ha, h⟩ => ?_⟩
  obtain ⟨x, h1, h2, h3⟩ := below_of_part P hb h
  rw [← P.fits.inj x a h1 ha h2]
  exact h3

/-- `getAdjElements` in terms of the whole mesh. -/
theorem adj_spec (P : Piece cn G S) (R : Regular cn G) {t : Nat} (ht : t ≤ 3) {x : El} (hx : S.T.alive x = true) :
    ∃ l, adj S t x = some l ∧ ∀ y, y ∈ l ↔ S.T.alive y = true ∧ y.ty = t ∧
      (Part false G (name S.num x) (name S.num y) ∨ Part false G (name S.num y) (name S.num x)) := by
  have I := inv_of P
  obtain ⟨l, h1, -, -, h4⟩ := getAdj_spec I (good_of P R) hx (hid_false P x) (fun i => i == t) [0, 1, 2, 3]
    (by decide) (by decide)
  refine ⟨l, h1, fun y => ?_⟩
  rw [h4]
  constructor
  · rintro ⟨-, h5, h6⟩
    have ya := incident_alive I hx h6
    refine ⟨ya, by simpa using h5, ?_⟩
    rcases h6 with h | h
    · exact Or.inl (part_of_below P hx h).2
    · exact Or.inr (part_of_below P ya h).2
  · rintro ⟨ya, rfl, h⟩
    have := I.tyLe y ya
    refine ⟨by simp only [List.mem_cons, List.not_mem_nil, or_false]; omega, by simp, ?_⟩
    rcases h with h | h
    · exact Or.inl ((below_iff P hx).2 ⟨ya, h⟩)
    · exact Or.inr ((below_iff P ya).2 ⟨hx, h⟩)

/-- Types decrease towards the boundary. -/
theorem part_ty (P : Piece cn G S) {g h : El} (hg : Has S g) (hp : Part false G g h) : h.ty ≤ g.ty ∧ (h.ty = g.ty → h = g) := by
  obtain ⟨b, hb, rfl⟩ := hg
  obtain ⟨a, ha, rfl, h⟩ := below_of_part P hb hp
  have := below_ty (inv_of P) h
  refine ⟨this, fun he => ?_⟩
  have he' : a.ty = b.ty := he
  rw [((below0 (inv_of P) (by omega)).1 h).1]

/-- Upward: the cells at an element. -/
theorem adj_cells (P : Piece cn G S) (R : Regular cn G) {x : El} (hx : S.T.alive x = true) (h3 : x.ty < 3) :
    ∃ l, adj S 3 x = some l ∧ ∀ y, y ∈ l ↔ S.T.alive y = true ∧ y.ty = 3 ∧ Part false G (name S.num y) (name S.num x) := by
  obtain ⟨l, h1, h2⟩ := adj_spec P R (Nat.le_refl 3) hx
  refine ⟨l, h1, fun y => ?_⟩
  rw [h2]
  constructor
  · rintro ⟨a, b, h | h⟩
    · have := (part_ty P ⟨x, hx, rfl⟩ h).1
      have e1 : (name S.num y).ty = y.ty := rfl
      have e2 : (name S.num x).ty = x.ty := rfl
      omega
    · exact ⟨a, b, h⟩
  · rintro ⟨a, b, h⟩; exact ⟨a, b, Or.inr h⟩

/-- Downward: the elements of a type on the boundary. -/
theorem adj_down (P : Piece cn G S) (R : Regular cn G) {t : Nat} {x : El} (hx : S.T.alive x = true) (h3 : t < x.ty) :
    ∃ l, adj S t x = some l ∧ ∀ y, y ∈ l ↔ S.T.alive y = true ∧ y.ty = t ∧ Part false G (name S.num x) (name S.num y) := by
  have := (inv_of P).tyLe x hx
  obtain ⟨l, h1, h2⟩ := adj_spec P R (t := t) (by omega) hx
  refine ⟨l, h1, fun y => ?_⟩
  rw [h2]
  constructor
  · rintro ⟨a, b, h | h⟩
    · exact ⟨a, b, h⟩
    · have := (part_ty P ⟨y, a, rfl⟩ h).1
      have e1 : (name S.num y).ty = y.ty := rfl
      have e2 : (name S.num x).ty = x.ty := rfl
      omega
  · rintro ⟨a, b, h⟩; exact ⟨a, b, Or.inl h⟩

/-- The cells of a face. -/
theorem high_face (P : Piece cn G S) {f c : El} (hf : S.T.alive f = true) (h2 : f.ty = 2) :
    c ∈ S.T.high f ↔ S.T.alive c = true ∧ c.ty = 3 ∧ Part false G (name S.num c) (name S.num f) := by
  have I := inv_of P
  rw [← I.mem (fun h => h)]
  constructor
  · intro h
    have ca := (I.lowLive h).2
    have ct : c.ty = 3 := by
      have := (I.highTy (fun h => h) ((I.mem (fun h => h)).1 h)).1 (by omega); omega
    exact ⟨ca, ct, .low .self (by show 0 < c.ty; omega) ((mem_low P ca hf (by omega)).1 h)⟩
  · rintro ⟨ca, ct, h⟩
    have hb := (below_iff P ca).2 ⟨hf, h⟩
    exact ((below1 I (by omega)).1 hb).2.1

end Verif.Layers
