import Verif.Layers.Skin

/-! # Lemmas: faces of the skin and the bridge -/

namespace Verif.Layers

open Verif.Topology Verif.Transfer

variable {V : Type} {n : Nat} {cn : Bool} {G : Whole} {W : Nat → Side V}

theorem firstOther_some {me : Nat} : ∀ {d : List (Nat × Nat)} {o}, firstOther n me d = some (some o) → o ≠ me ∧ ∃ g, (g, o) ∈ d
  | [], _, h => by cases h
  | v :: vs, o, h => by
    unfold firstOther at h
    split at h
    · split at h
      · next h2 =>
        injection h with h; injection h with h
        subst h
        exact ⟨h2, v.1, by simp⟩
      · obtain ⟨h1, g, h2⟩ := firstOther_some h
        exact ⟨h1, g, by simp [h2]⟩
    · cases h

theorem firstOther_total {me : Nat} : ∀ {d : List (Nat × Nat)}, (∀ x ∈ d, x.2 < n) → ∃ r, firstOther n me d = some r
  | [], _ => ⟨_, rfl⟩
  | v :: vs, h => by
    unfold firstOther
    rw [if_pos (h v (by simp))]
    split
    · exact ⟨_, rfl⟩
    · exact firstOther_total fun x hx => h x (by simp [hx])

theorem firstOther_hit {me : Nat} : ∀ {d : List (Nat × Nat)} {g q : Nat}, (∀ x ∈ d, x.2 < n) → (g, q) ∈ d → q ≠ me →
    (∀ x ∈ d, x.2 = me ∨ x.2 = q) → firstOther n me d = some (some q)
  | [], _, _, _, h, _, _ => by cases h
  | v :: vs, g, q, hn, hm, hq, hall => by
    unfold firstOther
    rw [if_pos (hn v (by simp))]
    by_cases hv : v.2 = me
    · rw [if_neg (by simp [hv])]
      rcases List.mem_cons.1 hm with h | h
      · rw [← h] at hv; exact absurd hv hq
      · exact firstOther_hit (fun x hx => hn x (by simp [hx])) h hq fun x hx => hall x (by simp [hx])
    · rw [if_pos hv]
      rcases hall v (by simp) with h | h
      · exact absurd h hv
      · rw [h]

/-- Three different members of a list of pairwise different numbers. -/
theorem three_of {l : List (Nat × Nat)} (h : (l.map Prod.fst).Nodup) (h2 : ¬ l.length < 2) (h3 : l.length ≠ 2) :
    ∃ a b c, a ∈ l ∧ b ∈ l ∧ c ∈ l ∧ a.1 ≠ b.1 ∧ b.1 ≠ c.1 ∧ a.1 ≠ c.1 := by
  match l, h, h2, h3 with
  | [], _, h2, _ => simp at h2
  | [_], _, h2, _ => simp at h2
  | [_, _], _, _, h3 => simp at h3
  | a :: b :: c :: r, h, _, _ =>
    simp only [List.map_cons, List.nodup_cons, List.mem_cons, not_or] at h
    exact ⟨a, b, c, by simp, by simp, by simp, h.1.1, h.2.1.1, h.1.2.1⟩

theorem flag_own {S : Side V} {l : List El} (h : skinFlag S l = true) : ∃ c ∈ l, S.status c = .owned ∨ S.status c = .shared := by
  match l, h with
  | [], h => cases h
  | [c], h =>
    refine ⟨c, by simp, ?_⟩
    simpa [skinFlag] using h
  | a :: b :: r, h =>
    simp only [skinFlag, Bool.or_eq_true, Bool.and_eq_true, beq_iff_eq] at h
    rcases h with ((⟨h, h'⟩ | ⟨h, h'⟩) | ⟨h, h'⟩) | ⟨h, h'⟩
    · exact ⟨b, by simp, Or.inr h'⟩
    · exact ⟨a, by simp, Or.inr h'⟩
    · exact ⟨a, by simp, Or.inl h⟩
    · exact ⟨b, by simp, Or.inl h⟩

theorem flag_of {S : Side V} {l : List El} {c : El} (hn : l.Nodup) (hc : c ∈ l) (hs : S.status c = .owned ∨ S.status c = .shared)
    (ho : ∀ d ∈ l, d ≠ c → S.status d = .ghost) (h1 : ∀ a ∈ l, ∀ b ∈ l, a ≠ c → b ≠ c → a = b) : skinFlag S l = true := by
  match l, hn, hc with
  | [], _, h => cases h
  | [a], _, h =>
    rw [List.mem_singleton] at h
    subst h
    rcases hs with hs | hs <;> simp [skinFlag, hs]
  | a :: b :: r, hn, h =>
    by_cases hca : c = a
    · subst hca
      have hbc : b ≠ c := by
        intro h; rw [h] at hn; simp at hn
      have := ho b (by simp) hbc
      rcases hs with hs | hs <;> simp [skinFlag, hs, this]
    · have ga := ho a (by simp) (fun h => hca h.symm)
      by_cases hcb : c = b
      · subst hcb
        rcases hs with hs | hs <;> simp [skinFlag, hs, ga]
      · have := h1 a (by simp) b (by simp) (fun h => hca h.symm) (fun h => hcb h.symm)
        rw [this] at hn; simp at hn

/-- A face between a cell of `p` and a cell of `q`. -/
def Between (n : Nat) (G : Whole) (W : Nat → Side V) (p q : Nat) (f : El) : Prop :=
  ∃ c d, CellAt n G W c f ∧ CellAt n G W d f ∧ G.owner c = p ∧ G.owner d = q

theorem skinFace_spec (H : Spread n cn G W) (R : Regular cn G) (two : TwoCells n G W) {p : Nat} (hp : p < n) {f : El}
    (hf : (W p).T.alive f = true) (h2 : f.ty = 2) {d : List (Nat × Nat)}
    (hd : (W p).status f ≠ .owned → PairsOk G d ∧ ∀ g o, (g, o) ∈ d ↔ o = G.owner ⟨3, g⟩ ∧ CellAt n G W ⟨3, g⟩ (name (W p).num f)) :
    ∃ r, skinFace n p (W p) d f = some r ∧ ∀ q, r = some q ↔ q ≠ p ∧ Between n G W p q (name (W p).num f) := by
  have P := H.piece p hp
  have cell_name : ∀ {c : El}, c.ty = 3 → (⟨3, c.id⟩ : El) = c := fun h => by rw [← h]
  -- a face between two processors is on both
  have cross : ∀ q, q ≠ p → Between n G W p q (name (W p).num f) → (W p).status f ≠ .owned := by
    rintro q hq ⟨c, e, hc, he, rfl, rfl⟩ ho
    obtain ⟨b1, b2, b3⟩ := cell_home H he
    have hm := (H.procs _ hp f hf (G.owner e)).2 ⟨b1, b3⟩
    rcases own_status H hp hf (by
      by_contra hne
      rw [(ghost_iff H hp hf).2 hne] at ho; cases ho) with h | h
    · rcases H.own _ hp f hf ((owner_iff H hp hf _).2 (by
        by_contra hne
        rw [(ghost_iff H hp hf).2 hne] at ho; cases ho)) with ⟨h1, -⟩ | ⟨-, h1⟩
      · rw [ho] at h1; cases h1
      · exact hq (h1 _ hm)
    · rw [ho] at h; cases h
  unfold skinFace
  by_cases hs : (W p).status f = .owned
  · rw [if_pos hs]
    exact ⟨none, rfl, fun q => ⟨(fun h => by cases h), fun ⟨h, h'⟩ => absurd hs (cross q h h')⟩⟩
  rw [if_neg hs]
  obtain ⟨hok, hmem⟩ := hd hs
  -- membership of the cells
  have hcell : ∀ c, CellAt n G W c (name (W p).num f) → (c.id, G.owner c) ∈ d := by
    intro c hc
    rw [hmem, cell_name hc.cell]
    exact ⟨rfl, hc⟩
  have own_high : ∀ c, CellAt n G W c (name (W p).num f) → G.owner c = p → ∃ x ∈ (W p).T.high f, name (W p).num x = c := by
    intro c hc ho
    obtain ⟨-, b2, -⟩ := cell_home H hc
    rw [ho] at b2
    obtain ⟨x, hx, hxn⟩ := b2
    exact ⟨x, (high_face P hf h2).2 ⟨hx, (congrArg El.ty hxn).trans hc.cell, hxn ▸ hc.part⟩, hxn⟩
  by_cases hh : (W p).T.high f = []
  · rw [if_pos hh]
    refine ⟨none, rfl, fun q => ⟨(fun h => by cases h), ?_⟩⟩
    rintro ⟨hq, c, e, hc, he, h1, h2⟩
    obtain ⟨x, hx, -⟩ := own_high c hc h1
    rw [hh] at hx; cases hx
  rw [if_neg hh]
  by_cases hl : d.length < 2
  · rw [if_pos hl]
    refine ⟨none, rfl, fun q => ⟨(fun h => by cases h), ?_⟩⟩
    rintro ⟨hq, c, e, hc, he, h1, h2⟩
    have m1 := hcell c hc
    have m2 := hcell e he
    match d, hl, m1, m2 with
    | [], _, m1, _ => cases m1
    | [a], _, m1, m2 =>
      rw [List.mem_singleton] at m1 m2
      have := m1.trans m2.symm
      exact absurd ((Prod.ext_iff.1 this).2.symm.trans h1) (h2 ▸ hq)
    | _ :: _ :: _, hl, _, _ => exact absurd hl (by simp)
  rw [if_neg hl]
  have hat : ∀ x ∈ d, CellAt n G W ⟨3, x.1⟩ (name (W p).num f) := fun x hx => ((hmem x.1 x.2).1 hx).2
  have hlen : d.length = 2 := by
    by_contra hne
    obtain ⟨a, b, c, ha, hb, hc, h1, h2', h3⟩ := three_of hok.1 hl hne
    rcases two (name (W p).num f) h2 _ _ _ (hat a ha) (hat b hb) (hat c hc) with h | h | h
    · exact h1 (congrArg El.id h)
    · exact h2' (congrArg El.id h)
    · exact h3 (congrArg El.id h)
  rw [if_neg (by omega)]
  have hlt : ∀ x ∈ d, x.2 < n := by
    intro x hx
    rw [hok.2 x hx]
    exact (cell_home H (hat x hx)).1
  by_cases hfl : skinFlag (W p) ((W p).T.high f) = true
  · rw [if_pos hfl]
    obtain ⟨r, hr⟩ := firstOther_total (me := p) hlt
    refine ⟨r, hr, fun q => ⟨?_, ?_⟩⟩
    · rintro rfl
      obtain ⟨h1, g, h3⟩ := firstOther_some hr
      obtain ⟨h4, h5⟩ := (hmem g q).1 h3
      obtain ⟨c, hc, hcs⟩ := flag_own hfl
      obtain ⟨c1, c2, c3⟩ := (high_face P hf h2).1 hc
      refine ⟨h1, name (W p).num c, _, ⟨c2, ⟨p, hp, c, c1, rfl⟩, c3⟩, h5, ?_, h4.symm⟩
      by_contra hne
      rw [(ghost_iff H hp c1).2 hne] at hcs
      rcases hcs with h | h <;> cases h
    · rintro ⟨hq, c, e, hc, he, h1, h3⟩
      have := firstOther_hit (me := p) (q := q) hlt (h3 ▸ hcell e he) hq (by
        intro x hx
        rw [hok.2 x hx]
        rcases two (name (W p).num f) h2 _ _ _ hc he (hat x hx) with h | h | h
        · exact absurd (h ▸ h1) (h3 ▸ hq)
        · exact Or.inr (h ▸ h3)
        · exact Or.inl (h ▸ h1))
      rw [hr] at this
      injection this
  · rw [if_neg hfl]
    refine ⟨none, rfl, fun q => ⟨(fun h => by cases h), ?_⟩⟩
    rintro ⟨hq, c, e, hc, he, h1, h3⟩
    obtain ⟨x, hx, hxn⟩ := own_high c hc h1
    obtain ⟨x1, x2, x3⟩ := (high_face P hf h2).1 hx
    have other : ∀ y ∈ (W p).T.high f, y ≠ x → (W p).T.alive y = true ∧ name (W p).num y = e := by
      intro y hy hyx
      obtain ⟨y1, y2, y3⟩ := (high_face P hf h2).1 hy
      rcases two (name (W p).num f) h2 _ _ (name (W p).num y) hc he ⟨y2, ⟨p, hp, y, y1, rfl⟩, y3⟩ with h | h | h
      · exact absurd (h ▸ h1) (h3 ▸ hq)
      · exact ⟨y1, h.symm⟩
      · exact absurd (P.fits.inj _ _ y1 x1 (h.symm.trans hxn.symm)) hyx
    refine absurd (flag_of ((good_of P R).nodupHigh (inv_of P) f) hx (own_status H hp x1 (hxn ▸ h1)) ?_ ?_) hfl
    · intro y hy hyx
      obtain ⟨y1, y2⟩ := other y hy hyx
      rw [ghost_iff H hp y1, y2, h3]
      exact hq
    · intro a ha b hb hax hbx
      obtain ⟨a1, a2⟩ := other a ha hax
      obtain ⟨b1, b2⟩ := other b hb hbx
      exact P.fits.inj _ _ a1 b1 (a2.trans b2.symm)

end Verif.Layers
