import Verif.Layers.Lemmas
import Verif.Transfer.Check
import Mathlib.Data.List.Dedup

/-! # Decision procedures for the hypotheses, for examples -/

namespace Verif.Layers

open Verif.Topology Verif.Transfer

variable {V : Type} {n t : Nat} {cn : Bool} {G : Whole} {W : Nat → Side V}

/-- `Regular` for a table. -/
def regCheck (l : List Row) : Bool :=
  l.all fun r => decide (((ofRows l).low r.e).Nodup) && (r.e.ty != 3 || (decide (((ofRows l).nodes r.e).Nodup) &&
    ((ofRows l).nodes r.e).all fun x => ((ofRows l).low r.e).any fun f => ((ofRows l).low f).any fun e => ((ofRows l).low e).contains x) &&
    ((ofRows l).low r.e).all fun f => ((ofRows l).low f).all fun e => ((ofRows l).low e).all fun x => ((ofRows l).nodes r.e).contains x)

theorem ofRows_row (l : List Row) (g : El) : (∃ r ∈ l, r.e = g) ∨ (ofRows l).low g = [] ∧ (ofRows l).nodes g = [] := by
  cases hf : l.find? fun r => r.e == g with
  | none => right; unfold ofRows; simp [hf]
  | some r => left; exact ⟨r, List.mem_of_find?_eq_some hf, by simpa using List.find?_some hf⟩

theorem reg_check {l : List Row} (h : regCheck l = true) : Regular cn (ofRows l) := by
  unfold regCheck at h
  simp only [List.all_eq_true, Bool.and_eq_true, Bool.or_eq_true, decide_eq_true_eq, List.any_eq_true, List.contains_iff_mem,
    bne_iff_ne] at h
  constructor
  · intro g
    rcases ofRows_row l g with ⟨r, hr, rfl⟩ | ⟨h1, -⟩
    · exact (h r hr).1
    · rw [h1]; exact List.nodup_nil
  · intro _ g h3
    rcases ofRows_row l g with ⟨r, hr, rfl⟩ | ⟨h1, h2⟩
    · obtain ⟨-, h'⟩ := h r hr
      rcases h' with h' | ⟨⟨h1, h2⟩, h4⟩
      · exact absurd h3 h'
      · refine ⟨h1, fun x => ⟨fun hx => ?_, ?_⟩⟩
        · obtain ⟨f, hf, e, he, hx⟩ := h2 x hx
          exact ⟨f, hf, e, he, hx⟩
        · rintro ⟨f, hf, e, he, hx⟩
          exact h4 f hf e he x hx
    · rw [h1, h2]
      exact ⟨List.nodup_nil, fun x => ⟨fun h => (by cases h), fun ⟨f, hf, _⟩ => (by cases hf)⟩⟩

/-- The element and all it is built of. -/
def parts (G : Whole) : Nat → El → List El
  | 0, e => [e]
  | k + 1, e => e :: if 0 < e.ty then (G.low e).flatMap (parts G k) else []

theorem parts_sound : ∀ {k : Nat} {e b : El}, b ∈ parts G k e → Part false G e b
  | 0, e, b, h => by
    rw [parts, List.mem_singleton] at h; subst h; exact .self
  | k + 1, e, b, h => by
    rw [parts, List.mem_cons] at h
    rcases h with rfl | h
    · exact .self
    · split at h
      · next h0 =>
        obtain ⟨x, hx, hb⟩ := List.mem_flatMap.1 h
        exact part_trans (.low .self h0 hx) (parts_sound hb)
      · cases h

theorem parts_step (hty : ∀ e x, x ∈ G.low e → x.ty < e.ty) : ∀ {k : Nat} {e b x : El}, e.ty ≤ k → b ∈ parts G k e → 0 < b.ty →
    x ∈ G.low b → x ∈ parts G k e
  | 0, e, b, x, hk, hb, h0, _ => by
    rw [parts, List.mem_singleton] at hb; subst hb; omega
  | k + 1, e, b, x, hk, hb, h0, hx => by
    rw [parts, List.mem_cons] at hb ⊢
    rcases hb with rfl | hb
    · right
      rw [if_pos h0]
      refine List.mem_flatMap.2 ⟨x, hx, ?_⟩
      cases k <;> simp [parts]
    · right
      split at hb
      · next he =>
        obtain ⟨y, hy, hb⟩ := List.mem_flatMap.1 hb
        have := hty e y hy
        rw [if_pos he]
        exact List.mem_flatMap.2 ⟨y, hy, parts_step hty (by omega) hb h0 hx⟩
      · cases hb

theorem parts_iff (hty : ∀ e x, x ∈ G.low e → x.ty < e.ty) {k : Nat} {e b : El} (hk : e.ty ≤ k) : b ∈ parts G k e ↔ Part false G e b := by
  refine ⟨parts_sound, fun h => ?_⟩
  induction h with
  | self => cases k <;> simp [parts]
  | low _ h0 hx ih => exact parts_step hty hk ih h0 hx
  | nodes _ _ a => cases a

/-- Types of a table decrease. -/
def tyCheck (l : List Row) : Bool := l.all fun r => ((ofRows l).low r.e).all fun x => decide (x.ty < r.e.ty)

theorem ty_check {l : List Row} (h : tyCheck l = true) : ∀ e x, x ∈ (ofRows l).low e → x.ty < e.ty := by
  intro e x hx
  obtain ⟨r, hr, rfl⟩ := ofRows_mem (fun h => by rw [h] at hx; cases hx)
  unfold tyCheck at h
  simp only [List.all_eq_true, decide_eq_true_eq] at h
  exact h r hr x hx

/-- The elements of the distributed mesh. -/
def everything (n : Nat) (W : Nat → Side V) : List El := (List.range n).flatMap fun p => (alls (W p).T).map (name (W p).num)

theorem mem_everything (hr : ∀ p, p < n → Reach cn (W p).T) {g : El} : g ∈ everything n W ↔ InMesh n W g := by
  unfold everything InMesh Has
  simp only [List.mem_flatMap, List.mem_range, List.mem_map]
  constructor
  · rintro ⟨p, hp, e, he, rfl⟩; exact ⟨p, hp, e, (mem_alls (hr p hp) e).1 he, rfl⟩
  · rintro ⟨p, hp, e, he, rfl⟩; exact ⟨p, hp, e, (mem_alls (hr p hp) e).2 he, rfl⟩

/-- Cells of the distributed mesh, with their parts. -/
def cellParts (n : Nat) (G : Whole) (W : Nat → Side V) : List (El × List El) :=
  ((everything n W).filter fun c => c.ty == 3).dedup.map fun c => (c, (parts G 3 c).dedup)

theorem mem_cellParts (hr : ∀ p, p < n → Reach cn (W p).T) (hty : ∀ e x, x ∈ G.low e → x.ty < e.ty) {c b : El} :
    CellAt n G W c b ↔ ∃ x ∈ cellParts n G W, x.1 = c ∧ b ∈ x.2 := by
  unfold cellParts
  simp only [List.mem_map, List.mem_dedup, List.mem_filter, beq_iff_eq, mem_everything hr]
  constructor
  · intro h
    exact ⟨_, ⟨c, ⟨h.mem, h.cell⟩, rfl⟩, rfl, List.mem_dedup.2 ((parts_iff hty (Nat.le_of_eq h.cell)).2 h.part)⟩
  · rintro ⟨-, ⟨a, ⟨h1, h2⟩, rfl⟩, rfl, h3⟩
    exact ⟨h2, h1, parts_sound (List.mem_dedup.1 h3)⟩

/-- `TwoCells`. -/
def twoCheck (n : Nat) (G : Whole) (W : Nat → Side V) : Bool :=
  (cellParts n G W).all fun a => a.2.all fun f => f.ty != 2 ||
    (cellParts n G W).all fun b => !b.2.contains f || (cellParts n G W).all fun c => !c.2.contains f ||
      (a.1 == b.1 || b.1 == c.1 || a.1 == c.1)

theorem two_check (hr : ∀ p, p < n → Reach cn (W p).T) (hty : ∀ e x, x ∈ G.low e → x.ty < e.ty) (h : twoCheck n G W = true) :
    TwoCells n G W := by
  intro f hf a b c ha hb hc
  obtain ⟨a', ha', rfl, hfa⟩ := (mem_cellParts hr hty).1 ha
  obtain ⟨b', hb', rfl, hfb⟩ := (mem_cellParts hr hty).1 hb
  obtain ⟨c', hc', rfl, hfc⟩ := (mem_cellParts hr hty).1 hc
  unfold twoCheck at h
  simp only [List.all_eq_true, Bool.or_eq_true, Bool.not_eq_true', bne_iff_ne, beq_iff_eq, ← Bool.not_eq_true,
    List.contains_iff_mem] at h
  have := ((((h a' ha' f hfa).resolve_left (by simp [hf])) b' hb').resolve_left (by simp [hfb]) c' hc').resolve_left (by simp [hfc])
  rcases this with (h | h) | h
  · exact Or.inl h
  · exact Or.inr (Or.inl h)
  · exact Or.inr (Or.inr h)

/-- `OnSkin`. -/
def onSkinB (n : Nat) (G : Whole) (W : Nat → Side V) (q : Nat) (b : El) : Bool :=
  (cellParts n G W).any fun c => G.owner c.1 == q && c.2.any fun f => f.ty == 2 && (parts G 2 f).contains b &&
    (cellParts n G W).any fun d => G.owner d.1 != q && d.2.contains f

theorem onSkin_of (hr : ∀ p, p < n → Reach cn (W p).T) (hty : ∀ e x, x ∈ G.low e → x.ty < e.ty) {q : Nat} {b : El}
    (h : onSkinB n G W q b = true) : OnSkin n G W q b := by
  unfold onSkinB at h
  simp only [List.any_eq_true, Bool.and_eq_true, beq_iff_eq, bne_iff_ne, List.contains_iff_mem] at h
  obtain ⟨c, hc, oc, f, hf, ⟨f2, hb⟩, d, hd, od, hdf⟩ := h
  exact ⟨f, c.1, d.1, f2, (mem_cellParts hr hty).2 ⟨c, hc, rfl, hf⟩, (mem_cellParts hr hty).2 ⟨d, hd, rfl, hdf⟩, oc, od, parts_sound hb⟩

/-- `Meets`. -/
def meetsCheck (n : Nat) (G : Whole) (W : Nat → Side V) (t : Nat) : Bool :=
  (cellParts n G W).all fun c => c.2.all fun b => b.ty != t || (cellParts n G W).all fun d => !d.2.contains b ||
    G.owner c.1 == G.owner d.1 || onSkinB n G W (G.owner c.1) b

theorem meets_check (hr : ∀ p, p < n → Reach cn (W p).T) (hty : ∀ e x, x ∈ G.low e → x.ty < e.ty) (h : meetsCheck n G W t = true) :
    Meets n G W t := by
  intro c d b hb hc hd ho
  obtain ⟨c', hc', rfl, hbc⟩ := (mem_cellParts hr hty).1 hc
  obtain ⟨d', hd', rfl, hbd⟩ := (mem_cellParts hr hty).1 hd
  unfold meetsCheck at h
  simp only [List.all_eq_true, Bool.or_eq_true, Bool.not_eq_true', bne_iff_ne, beq_iff_eq, ← Bool.not_eq_true,
    List.contains_iff_mem] at h
  rcases ((h c' hc' b hbc).resolve_left (by simp [hb])) d' hd' with (h | h) | h
  · exact absurd hbd h
  · exact absurd h ho
  · exact onSkin_of hr hty h

/-- `Homely`. -/
def homelyCheck (n : Nat) (G : Whole) (W : Nat → Side V) (t : Nat) : Bool :=
  (everything n W).all fun b => b.ty != t || (cellParts n G W).any fun c => c.2.contains b && G.owner c.1 == G.owner b

theorem homely_check (hr : ∀ p, p < n → Reach cn (W p).T) (hty : ∀ e x, x ∈ G.low e → x.ty < e.ty) (h : homelyCheck n G W t = true) :
    Homely n G W t := by
  intro b hb hm
  unfold homelyCheck at h
  simp only [List.all_eq_true, Bool.or_eq_true, bne_iff_ne, beq_iff_eq, List.any_eq_true, Bool.and_eq_true,
    List.contains_iff_mem] at h
  obtain ⟨c, hc, hbc, ho⟩ := (h b ((mem_everything hr).2 hm)).resolve_left (by simp [hb])
  exact ⟨c.1, (mem_cellParts hr hty).2 ⟨c, hc, rfl, hbc⟩, ho⟩

/-- The cells within `k` steps. -/
def withinL (n : Nat) (G : Whole) (W : Nat → Side V) (t p : Nat) : Nat → List (El × List El)
  | 0 => (cellParts n G W).filter fun c => G.owner c.1 == p
  | k + 1 => let l := withinL n G W t p k
    l ++ (cellParts n G W).filter fun d => l.any fun c => c.2.any fun b => b.ty == t && d.2.contains b

theorem withinL_iff (hr : ∀ p, p < n → Reach cn (W p).T) (hty : ∀ e x, x ∈ G.low e → x.ty < e.ty) {p : Nat} : ∀ {k : Nat} {c : El},
    (∀ x ∈ withinL n G W t p k, x ∈ cellParts n G W) ∧ (Within n G W t p k c ↔ ∃ x ∈ withinL n G W t p k, x.1 = c)
  | 0, c => by
    refine ⟨fun x hx => (List.mem_filter.1 hx).1, ?_, ?_⟩
    · intro h
      have ho := within_zero h
      obtain ⟨h3, hm⟩ := h.cell
      obtain ⟨x, hx, rfl, -⟩ := (mem_cellParts hr hty).1 (⟨h3, hm, .self⟩ : CellAt n G W c c)
      exact ⟨x, List.mem_filter.2 ⟨hx, by simp [ho]⟩, rfl⟩
    · rintro ⟨x, hx, rfl⟩
      rw [withinL, List.mem_filter, beq_iff_eq] at hx
      have : x.1 ∈ x.2 := by
        obtain ⟨a, -, ha⟩ := List.mem_map.1 hx.1
        rw [← ha]
        exact List.mem_dedup.2 (by simp [parts])
      have := (mem_cellParts hr hty).2 ⟨x, hx.1, rfl, this⟩
      exact .own this.cell this.mem hx.2
  | k + 1, c => by
    have ih := fun c => withinL_iff hr hty (p := p) (k := k) (c := c)
    refine ⟨fun x hx => ?_, ?_, ?_⟩
    · rw [withinL, List.mem_append, List.mem_filter] at hx
      rcases hx with h | ⟨h, -⟩
      · exact (ih c).1 x h
      · exact h
    · intro h
      rcases within_succ h with h | ⟨d, b, h1, h2, h3, h4⟩
      · obtain ⟨x, hx, rfl⟩ := ((ih c).2).1 h
        exact ⟨x, List.mem_append_left _ hx, rfl⟩
      · obtain ⟨x, hx, rfl⟩ := ((ih d).2).1 h1
        obtain ⟨y, hy, rfl, hyb⟩ := (mem_cellParts hr hty).1 h4
        refine ⟨y, List.mem_append_right _ (List.mem_filter.2 ⟨hy, ?_⟩), rfl⟩
        simp only [List.any_eq_true, Bool.and_eq_true, beq_iff_eq, List.contains_iff_mem]
        refine ⟨x, hx, b, ?_, h3, hyb⟩
        have hxc := (ih x.1).1 x hx
        obtain ⟨a, ha, hax⟩ := List.mem_map.1 hxc
        rw [← hax] at h2 ⊢
        exact List.mem_dedup.2 ((parts_iff hty (Nat.le_of_eq h2.cell)).2 h2.part)
    · rintro ⟨x, hx, rfl⟩
      rw [withinL, List.mem_append, List.mem_filter] at hx
      rcases hx with h | ⟨h, h'⟩
      · exact .stay (((ih x.1).2).2 ⟨x, h, rfl⟩)
      · simp only [List.any_eq_true, Bool.and_eq_true, beq_iff_eq, List.contains_iff_mem] at h'
        obtain ⟨y, hy, b, hb, hbt, hbx⟩ := h'
        exact .step (((ih y.1).2).2 ⟨y, hy, rfl⟩) ((mem_cellParts hr hty).2 ⟨y, (ih y.1).1 y hy, rfl, hb⟩) hbt
          ((mem_cellParts hr hty).2 ⟨x, h, rfl, hbx⟩)

end Verif.Layers
