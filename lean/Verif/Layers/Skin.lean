import Verif.Layers.Local
import Verif.Transfer.Final

/-! # Lemmas: the skin -/

namespace Verif.Layers

open Verif.Topology Verif.Transfer

variable {V : Type} {n : Nat} {cn : Bool} {G : Whole} {W : Nat → Side V}

theorem mem_look {A : Type} {S : Side V} (r : Reach cn S.T) (e : Parallel.El) :
    e ∈ (look A S).elems ↔ S.T.alive (ofP e) = true := mem_view r e

/-- Owner, as a number. -/
theorem owner_nat (H : Spread n cn G W) {p : Nat} (hp : p < n) {e : El} (he : (W p).T.alive e = true) :
    ((W p).owner e).toNat = G.owner (name (W p).num e) := by
  rw [(H.piece p hp).owner e he]; rfl

theorem owner_iff (H : Spread n cn G W) {p : Nat} (hp : p < n) {e : El} (he : (W p).T.alive e = true) (q : Nat) :
    (W p).owner e = (q : Int) ↔ G.owner (name (W p).num e) = q := by
  rw [(H.piece p hp).owner e he]; exact Int.ofNat_inj

theorem ghost_iff (H : Spread n cn G W) {p : Nat} (hp : p < n) {e : El} (he : (W p).T.alive e = true) :
    (W p).status e = .ghost ↔ G.owner (name (W p).num e) ≠ p := by
  constructor
  · intro h ho
    rcases H.own p hp e he ((owner_iff H hp he p).2 ho) with ⟨h1, -⟩ | ⟨h1, -⟩ <;> rw [h] at h1 <;> cases h1
  · intro h
    exact H.ghost p hp e he fun ho => h ((owner_iff H hp he p).1 ho)

theorem own_status (H : Spread n cn G W) {p : Nat} (hp : p < n) {e : El} (he : (W p).T.alive e = true)
    (ho : G.owner (name (W p).num e) = p) : (W p).status e = .owned ∨ (W p).status e = .shared := by
  rcases H.own p hp e he ((owner_iff H hp he p).2 ho) with ⟨h1, -⟩ | ⟨h1, -⟩
  · exact Or.inr h1
  · exact Or.inl h1

theorem same_name {A : Type} {p q : Nat} {e e' : Parallel.El} : Parallel.SameElem (fun p => look A (W p)) p e q e' ↔
    name (W q).num (ofP e') = name (W p).num (ofP e) := by
  have hk : ∀ (r : Nat) (x : Parallel.El), (look A (W r)).key x = (((W r).num (ofP x) : Nat) : Int) := fun _ _ => rfl
  constructor
  · rintro ⟨h1, h2⟩
    have h2 : (look A (W p)).key e = (look A (W q)).key e' := h2
    rw [hk, hk] at h2
    have h2 := Int.ofNat_inj.1 h2
    unfold name
    rw [El.mk.injEq]
    exact ⟨h1.symm, h2.symm⟩
  · intro h
    unfold name at h
    rw [El.mk.injEq] at h
    refine ⟨h.1.symm, ?_⟩
    show (look A (W p)).key e = (look A (W q)).key e'
    rw [hk, hk, h.2]

theorem agreed_look (H : Spread n cn G W) (A : Type) : Parallel.Agreed n fun p => look A (W p) where
  nodup p _ := view_nodup (W p)
  types p hp e he := by
    have := tyLe (H.piece p hp).reach ((mem_look (H.piece p hp).reach e).1 he)
    have h2 : (ofP e).ty = e.ty := rfl
    omega
  unique p hp e e' he he' hs := by
    have P := H.piece p hp
    have h : ofP e' = ofP e := P.fits.inj _ _ ((mem_look P.reach e').1 he') ((mem_look P.reach e).1 he) (same_name.1 hs)
    exact (congrArg toP h).symm
  sorted p hp e he := H.sorted p hp _ ((mem_look (H.piece p hp).reach e).1 he)
  procs p hp e he q := by
    have hal := (mem_look (H.piece p hp).reach e).1 he
    refine (H.procs p hp _ hal q).trans ⟨?_, ?_⟩
    · rintro ⟨hq, e', h1, h2⟩
      exact ⟨hq, toP e', (mem_look (H.piece q hq).reach _).2 h1, same_name.2 h2⟩
    · rintro ⟨hq, e', h1, h2⟩
      exact ⟨hq, ofP e', (mem_look (H.piece q hq).reach _).1 h1, same_name.1 h2⟩
  owner p hp e he := by
    have hal := (mem_look (H.piece p hp).reach e).1 he
    show ((W p).owner (ofP e)).toNat ∈ (W p).procs (ofP e)
    rw [owner_nat H hp hal]
    exact (H.procs p hp _ hal _).2 (H.home p hp _ hal)
  same p q hp hq e e' he he' hs := by
    show ((W p).owner (ofP e)).toNat = ((W q).owner (ofP e')).toNat
    rw [owner_nat H hp ((mem_look (H.piece p hp).reach e).1 he), owner_nat H hq ((mem_look (H.piece q hq).reach e').1 he'),
      same_name.1 hs]
  status p hp e he := by
    have hal := (mem_look (H.piece p hp).reach e).1 he
    show (W p).status (ofP e) = if (W p).procs (ofP e) = [p] then .owned else
      if ((W p).owner (ofP e)).toNat = p then .shared else .ghost
    have hself : p ∈ (W p).procs (ofP e) := (H.procs p hp _ hal p).2 ⟨hp, _, hal, rfl⟩
    rw [owner_nat H hp hal]
    by_cases ho : G.owner (name (W p).num (ofP e)) = p
    · rcases H.own p hp _ hal ((owner_iff H hp hal p).2 ho) with ⟨h1, q, h2, h3⟩ | ⟨h1, h2⟩
      · rw [h1, if_neg, if_pos ho]
        intro h; rw [h, List.mem_singleton] at h2; exact h3 h2
      · rw [h1, if_pos]
        exact Parallel.single_of (H.sorted p hp _ hal) fun x => ⟨h2 x, fun h => h ▸ hself⟩
    · rw [(ghost_iff H hp hal).2 ho, if_neg, if_neg ho]
      intro h
      have := (H.procs p hp _ hal _).2 (H.home p hp _ hal)
      rw [h, List.mem_singleton] at this
      exact ho this

/-! ## UnpackSkin -/

/-- Numbers of cells with their owners, every number once. -/
def PairsOk (G : Whole) (l : List (Nat × Nat)) : Prop := (l.map Prod.fst).Nodup ∧ ∀ x ∈ l, x.2 = G.owner ⟨3, x.1⟩

theorem skinMerge_spec : ∀ (x arr : List (Nat × Nat)), PairsOk G arr → (∀ y ∈ x, y.2 = G.owner ⟨3, y.1⟩) →
    PairsOk G (skinMerge arr x) ∧ ∀ i, i ∈ skinMerge arr x ↔ i ∈ arr ∨ i ∈ x
  | [], arr, h, _ => ⟨h, by simp [skinMerge]⟩
  | v :: vs, arr, h, hx => by
    have hvs : ∀ y ∈ vs, y.2 = G.owner ⟨3, y.1⟩ := fun y hy => hx y (by simp [hy])
    unfold skinMerge
    split
    · next hv =>
      obtain ⟨w, hw, hwv⟩ := List.any_eq_true.1 hv
      have hwv : w.1 = v.1 := by simpa using hwv
      have : w = v := by
        apply Prod.ext hwv
        rw [h.2 w hw, hx v (by simp), hwv]
      obtain ⟨h1, h2⟩ := skinMerge_spec vs arr h hvs
      refine ⟨h1, fun i => ?_⟩
      rw [h2, List.mem_cons]
      constructor
      · rintro (h | h)
        · exact Or.inl h
        · exact Or.inr (Or.inr h)
      · rintro (h | rfl | h)
        · exact Or.inl h
        · exact Or.inl (this ▸ hw)
        · exact Or.inr h
    · next hv =>
      have hv : ∀ w ∈ arr, w.1 ≠ v.1 := by
        intro w hw he
        exact hv (List.any_eq_true.2 ⟨w, hw, by simp [he]⟩)
      obtain ⟨h1, h2⟩ := skinMerge_spec vs (arr ++ [v]) ⟨by
        rw [List.map_append, List.nodup_append]
        refine ⟨h.1, by simp, ?_⟩
        intro a ha b hb
        obtain ⟨w, hw, rfl⟩ := List.mem_map.1 ha
        rw [List.map_cons, List.map_nil, List.mem_singleton] at hb
        rw [hb]; exact hv w hw, by
        intro x hxm
        rcases List.mem_append.1 hxm with h' | h'
        · exact h.2 x h'
        · rw [List.mem_singleton.1 h']; exact hx v (by simp)⟩ hvs
      refine ⟨h1, fun i => ?_⟩
      rw [h2]
      simp only [List.mem_append, List.mem_cons, List.not_mem_nil, or_false]
      rw [or_assoc]

/-! ## What the faces know after the exchange -/

theorem skinOf_ok (H : Spread n cn G W) (R : Regular cn G) {p : Nat} (hp : p < n) {e : El} (he : (W p).T.alive e = true) :
    ∃ r, skinOf n (W p) e = some r ∧
      ((e.ty = 2 ∧ ((W p).status e = .ghost ∨ (W p).status e = .shared) → ∃ l, r = some l ∧ PairsOk G l ∧
        ∀ g o, (g, o) ∈ l ↔ o = G.owner ⟨3, g⟩ ∧ Has (W p) ⟨3, g⟩ ∧ Part false G ⟨3, g⟩ (name (W p).num e)) ∧
      (¬ (e.ty = 2 ∧ ((W p).status e = .ghost ∨ (W p).status e = .shared)) → r = none)) := by
  have P := H.piece p hp
  unfold skinOf
  by_cases hc : e.ty = 2 ∧ ((W p).status e = .ghost ∨ (W p).status e = .shared)
  · rw [if_pos hc]
    obtain ⟨l, h1, h2⟩ := adj_cells P R he (by omega)
    have hnd : l.Nodup := by
      obtain ⟨l', e1, hn, -⟩ := getAdj_spec (inv_of P) (good_of P R) he (hid_false P e) (fun i => i == 3) [0, 1, 2, 3]
        (by decide) (by decide)
      unfold adj at h1
      rw [e1] at h1
      injection h1 with h1
      rw [← h1]; exact hn
    rw [h1]
    have hall : (l.all fun c => decide (0 ≤ (W p).owner c ∧ (W p).owner c < (n : Int))) = true := by
      rw [List.all_eq_true]
      intro c hcm
      have ca := ((h2 c).1 hcm).1
      have := (H.home p hp c ca).1
      rw [decide_eq_true_iff, P.owner c ca]
      omega
    simp only [hall, if_true]
    refine ⟨_, rfl, fun _ => ⟨_, rfl, ⟨?_, ?_⟩, ?_⟩, fun h => absurd hc h⟩
    · rw [List.map_map, List.nodup_iff_pairwise_ne, List.pairwise_map]
      refine List.Pairwise.imp_of_mem ?_ (List.nodup_iff_pairwise_ne.1 hnd)
      intro a b ha hb hab hn
      obtain ⟨a1, a2, -⟩ := (h2 a).1 ha
      obtain ⟨b1, b2, -⟩ := (h2 b).1 hb
      exact hab (same_ty P a1 b1 (a2.trans b2.symm) hn)
    · intro x hx
      obtain ⟨c, hcm, rfl⟩ := List.mem_map.1 hx
      obtain ⟨a1, a2, -⟩ := (h2 c).1 hcm
      simp only
      rw [owner_nat H hp a1, name, a2]
    · intro g o
      rw [List.mem_map]
      constructor
      · rintro ⟨c, hcm, he⟩
        obtain ⟨a1, a2, a3⟩ := (h2 c).1 hcm
        have hn : name (W p).num c = ⟨3, g⟩ := by
          have := (Prod.ext_iff.1 he).1
          simp only at this
          unfold name; rw [a2, this]
        have ho := (Prod.ext_iff.1 he).2
        simp only [owner_nat H hp a1, hn] at ho
        exact ⟨ho.symm, ⟨c, a1, hn⟩, hn ▸ a3⟩
      · rintro ⟨rfl, ⟨c, a1, hn⟩, hpt⟩
        refine ⟨c, (h2 c).2 ⟨a1, congrArg El.ty hn, hn ▸ hpt⟩, ?_⟩
        rw [owner_nat H hp a1, hn]
        have := congrArg El.id hn
        exact Prod.ext this rfl
  · rw [if_neg hc]
    exact ⟨none, rfl, fun h => absurd h hc, fun _ => rfl⟩

/-- Faces present on several processors. -/
theorem cross_iff (H : Spread n cn G W) {p : Nat} (hp : p < n) {e : El} (he : (W p).T.alive e = true) :
    (W p).status e ≠ .owned ↔ ((W p).status e = .ghost ∨ (W p).status e = .shared) := by
  by_cases ho : G.owner (name (W p).num e) = p
  · rcases own_status H hp he ho with h | h <;> rw [h] <;> simp
  · rw [(ghost_iff H hp he).2 ho]; simp

theorem owned_copies (H : Spread n cn G W) {p q : Nat} (hp : p < n) (hq : q < n) {e e' : El} (he : (W p).T.alive e = true)
    (he' : (W q).T.alive e' = true) (hn : name (W q).num e' = name (W p).num e) (h : (W p).status e ≠ .owned) :
    (W q).status e' ≠ .owned :=
  (agreed_look H Nat).notOwned hp hq (e := toP e) (e' := toP e') ((mem_look (H.piece p hp).reach _).2 he)
    ((mem_look (H.piece q hq).reach _).2 he') (same_name.2 hn) h

/-- An element of the mesh on a part of a cell of a processor is on that processor. -/
theorem cell_home (H : Spread n cn G W) {c b : El} (hc : CellAt n G W c b) :
    G.owner c < n ∧ Has (W (G.owner c)) c ∧ Has (W (G.owner c)) b := by
  obtain ⟨p, hp, e, he, rfl⟩ := hc.mem
  obtain ⟨h1, h2⟩ := H.home p hp e he
  refine ⟨h1, h2, ?_⟩
  obtain ⟨x, hx, hxn⟩ := h2
  obtain ⟨a, ha, han, -⟩ := below_of_part (H.piece _ h1) hx (hxn ▸ hc.part)
  exact ⟨a, ha, han⟩

/-- The content of the tag on a face that is not owned: the cells of the face in the whole mesh with their owners. -/
theorem skin_data (H : Spread n cn G W) (R : Regular cn G) {init : Nat → Parallel.El → Option (List (Nat × Nat))}
    {G2 : Nat → Parallel.Local (Nat × Nat)}
    (hi : ∀ p, p < n → ∀ e, (W p).T.alive e = true → skinOf n (W p) e = some (init p (toP e)))
    (h : Parallel.CollectRun n 0 (fun i => i == 2) skinUnpack init (fun p => look _ (W p)) G2) {p : Nat} (hp : p < n) {f : El}
    (hf : (W p).T.alive f = true) (h2 : f.ty = 2) (hs : (W p).status f ≠ .owned) :
    PairsOk G (((G2 p).data 0 (toP f)).getD []) ∧
      ∀ g o, (g, o) ∈ ((G2 p).data 0 (toP f)).getD [] ↔ o = G.owner ⟨3, g⟩ ∧ CellAt n G W ⟨3, g⟩ (name (W p).num f) := by
  have hinit : ∀ q, q < n → ∀ e, (W q).T.alive e = true → _ := fun q hq e he => skinOf_ok H R hq he
  have hP : ∀ q, q < n → ∀ e, e ∈ (look (Nat × Nat) (W q)).elems → PairsOk G ((init q e).getD []) := by
    intro q hq e he
    have hal := (mem_look (H.piece q hq).reach e).1 he
    obtain ⟨r, r1, r2, r3⟩ := hinit q hq _ hal
    rw [hi q hq _ hal] at r1
    injection r1 with r1
    rw [show init q e = r from r1]
    by_cases hc : (ofP e).ty = 2 ∧ ((W q).status (ofP e) = .ghost ∨ (W q).status (ofP e) = .shared)
    · obtain ⟨l, rfl, hl, -⟩ := r2 hc
      exact hl
    · rw [r3 hc]
      exact ⟨List.nodup_nil, fun _ h => by cases h⟩
  have hfin := Parallel.collect_final (P := PairsOk G) (Q := fun x => ∀ y ∈ x, y.2 = G.owner ⟨3, y.1⟩) (f := skinMerge)
    (agreed_look H (Nat × Nat)) (fun arr x a b => skinMerge_spec x arr a b) hP
    (fun q hq e x he _ hx _ => by have := (hP q hq e he).2; rw [hx] at this; exact this) h hp (e := toP f)
    ((mem_look (H.piece p hp).reach _).2 hf) (by show (f.ty == 2) = true; simp [h2])
  refine ⟨hfin.1, fun g o => ?_⟩
  rw [hfin.2]
  constructor
  · rintro ⟨q, e', hq, he', hsame, hm⟩
    have hal := (mem_look (H.piece q hq).reach e').1 he'
    have hn := same_name.1 hsame
    obtain ⟨r, r1, r2, r3⟩ := hinit q hq _ hal
    rw [hi q hq _ hal] at r1
    injection r1 with r1
    rw [show init q e' = r from r1] at hm
    by_cases hc : (ofP e').ty = 2 ∧ ((W q).status (ofP e') = .ghost ∨ (W q).status (ofP e') = .shared)
    · obtain ⟨l, rfl, -, hl⟩ := r2 hc
      obtain ⟨a, b, c⟩ := (hl g o).1 hm
      exact ⟨a, rfl, ⟨q, hq, b⟩, hn ▸ c⟩
    · rw [r3 hc] at hm; cases hm
  · rintro ⟨rfl, hc⟩
    obtain ⟨q, hq, x, hx, hxn⟩ := hc.mem
    obtain ⟨a, ha, han, -⟩ := below_of_part (H.piece q hq) hx (hxn ▸ hc.part)
    refine ⟨q, toP a, hq, (mem_look (H.piece q hq).reach _).2 ha, same_name.2 han, ?_⟩
    obtain ⟨r, r1, r2, -⟩ := hinit q hq _ ha
    rw [hi q hq _ ha] at r1
    injection r1 with r1
    obtain ⟨l, rfl, -, hl⟩ := r2 ⟨(congrArg El.ty han).trans h2, (cross_iff H hq ha).1 (owned_copies H hp hq hf ha han hs)⟩
    rw [r1]
    exact (hl g _).2 ⟨rfl, ⟨x, hx, hxn⟩, han ▸ hc.part⟩

end Verif.Layers
