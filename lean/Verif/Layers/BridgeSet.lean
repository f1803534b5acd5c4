import Verif.Layers.Faces
import Mathlib.Tactic.Choose

/-! # Lemmas: the result of ComputeSharedSkinSet -/

namespace Verif.Layers

open Verif.Topology Verif.Transfer

variable {V : Type} {n : Nat} {cn : Bool} {G : Whole} {W : Nat → Side V}

theorem skinFaces_spec {me : Nat} {S : Side V} {d : El → List (Nat × Nat)} : ∀ {fs : List El},
    (∀ f ∈ fs, ∃ r, skinFace n me S (d f) f = some r) →
    ∃ l, skinFaces n me S d fs = some l ∧ ∀ o f, (o, f) ∈ l ↔ f ∈ fs ∧ skinFace n me S (d f) f = some (some o)
  | [], _ => ⟨[], rfl, by simp⟩
  | f :: fs, h => by
    obtain ⟨l, h1, h2⟩ := skinFaces_spec (fs := fs) fun x hx => h x (by simp [hx])
    obtain ⟨r, hr⟩ := h f (by simp)
    unfold skinFaces
    rw [hr, h1]
    cases r with
    | none =>
      refine ⟨l, rfl, fun o x => ?_⟩
      rw [h2, List.mem_cons]
      constructor
      · rintro ⟨a, b⟩; exact ⟨Or.inr a, b⟩
      · rintro ⟨rfl | a, b⟩
        · rw [hr] at b; cases b
        · exact ⟨a, b⟩
    | some q =>
      refine ⟨_, rfl, fun o x => ?_⟩
      rw [List.mem_cons, h2, List.mem_cons]
      constructor
      · rintro (h | ⟨a, b⟩)
        · rw [Prod.mk.injEq] at h
          rw [h.1, h.2]
          exact ⟨Or.inl rfl, hr⟩
        · exact ⟨Or.inr a, b⟩
      · rintro ⟨rfl | a, b⟩
        · rw [hr] at b
          injection b with b; injection b with b
          exact Or.inl (by rw [b])
        · exact Or.inr ⟨a, b⟩

theorem mem_ofProc {l : List (Nat × El)} {q : Nat} {f : El} : f ∈ ofProc l q ↔ (q, f) ∈ l := by
  unfold ofProc
  rw [List.mem_map]
  constructor
  · rintro ⟨⟨a, b⟩, h, rfl⟩
    rw [List.mem_filter] at h
    have : a = q := by simpa using h.2
    exact this ▸ h.1
  · intro h
    exact ⟨(q, f), List.mem_filter.2 ⟨h, by simp⟩, rfl⟩

theorem visit_spec {S : Side V} {t : Nat} : ∀ {fs acc : List El}, (∀ f ∈ fs, ∃ l, adj S t f = some l) →
    ∃ v, visit S t acc fs = some v ∧ ∀ b, b ∈ v ↔ b ∈ acc ∨ ∃ f ∈ fs, ∃ l, adj S t f = some l ∧ b ∈ l
  | [], acc, _ => ⟨acc, rfl, by simp⟩
  | f :: fs, acc, h => by
    obtain ⟨l, hl⟩ := h f (by simp)
    obtain ⟨v, h1, h2⟩ := visit_spec (fs := fs) (acc := l.foldl Transfer.addNew acc) fun x hx => h x (by simp [hx])
    refine ⟨v, by unfold visit; rw [hl]; exact h1, fun b => ?_⟩
    rw [h2, mem_foldNew]
    constructor
    · rintro ((h | h) | ⟨x, hx, h⟩)
      · exact Or.inl h
      · exact Or.inr ⟨f, by simp, l, hl, h⟩
      · exact Or.inr ⟨x, by simp [hx], h⟩
    · rintro (h | ⟨x, hx, l', h3, h4⟩)
      · exact Or.inl (Or.inl h)
      · rcases List.mem_cons.1 hx with rfl | hx
        · rw [hl] at h3
          injection h3 with h3
          exact Or.inl (Or.inr (h3 ▸ h4))
        · exact Or.inr ⟨x, hx, l', h3, h4⟩

/-- Faces of the skin on a processor. -/
theorem faces_mem (H : Spread n cn G W) (R : Regular cn G) (two : TwoCells n G W)
    {init : Nat → Parallel.El → Option (List (Nat × Nat))} {G2 : Nat → Parallel.Local (Nat × Nat)}
    (hi : ∀ p, p < n → ∀ e, (W p).T.alive e = true → skinOf n (W p) e = some (init p (toP e)))
    (h : Parallel.CollectRun n 0 (fun i => i == 2) skinUnpack init (fun p => look _ (W p)) G2) {p : Nat} (hp : p < n) :
    ∃ l, skinFaces n p (W p) (fun e => ((G2 p).data 0 (toP e)).getD []) (elemsOf (W p).T 2) = some l ∧
      ∀ q f, (q, f) ∈ l ↔ (W p).T.alive f = true ∧ f.ty = 2 ∧ q ≠ p ∧ Between n G W p q (name (W p).num f) := by
  have P := H.piece p hp
  have key : ∀ f ∈ elemsOf (W p).T 2, ∃ r, skinFace n p (W p) (((G2 p).data 0 (toP f)).getD []) f = some r ∧
      ∀ q, r = some q ↔ q ≠ p ∧ Between n G W p q (name (W p).num f) := by
    intro f hf
    obtain ⟨f1, f2⟩ := (mem_elemsOf P.reach 2 f).1 hf
    exact skinFace_spec H R two hp f1 f2 fun hs => skin_data H R hi h hp f1 f2 hs
  obtain ⟨l, h1, h2⟩ := skinFaces_spec (n := n) (me := p) (S := W p) (d := fun e => ((G2 p).data 0 (toP e)).getD [])
    (fs := elemsOf (W p).T 2) fun f hf => let ⟨r, hr, _⟩ := key f hf; ⟨r, hr⟩
  refine ⟨l, h1, fun q f => ?_⟩
  rw [h2, mem_elemsOf P.reach, and_assoc]
  constructor
  · rintro ⟨a, b, c⟩
    obtain ⟨r, r1, r2⟩ := key f ((mem_elemsOf P.reach 2 f).2 ⟨a, b⟩)
    rw [r1] at c
    injection c with c
    exact ⟨a, b, (r2 q).1 c⟩
  · rintro ⟨a, b, c⟩
    obtain ⟨r, r1, r2⟩ := key f ((mem_elemsOf P.reach 2 f).2 ⟨a, b⟩)
    refine ⟨a, b, ?_⟩
    rw [r1, (r2 q).2 c]

theorem part_trans {a b c : El} (h1 : Part false G a b) (h2 : Part false G b c) : Part false G a c := by
  induction h2 with
  | self => exact h1
  | low _ a b ih => exact .low ih a b
  | nodes _ _ a => cases a

/-- Elements on the skin are visited. -/
theorem visit_mem (H : Spread n cn G W) (R : Regular cn G) {t : Nat} (ht : t < 2) {p : Nat} (hp : p < n) {l : List (Nat × El)}
    (hl : ∀ q f, (q, f) ∈ l ↔ (W p).T.alive f = true ∧ f.ty = 2 ∧ q ≠ p ∧ Between n G W p q (name (W p).num f)) :
    ∃ v, visit (W p) t [] ((List.range n).flatMap (ofProc l)) = some v ∧
      ∀ b, b ∈ v ↔ (W p).T.alive b = true ∧ b.ty = t ∧ OnSkin n G W p (name (W p).num b) := by
  have P := H.piece p hp
  have hm : ∀ f, f ∈ (List.range n).flatMap (ofProc l) ↔ ∃ q, q < n ∧ (q, f) ∈ l := by
    intro f
    simp only [List.mem_flatMap, List.mem_range, mem_ofProc]
  obtain ⟨v, h1, h2⟩ := visit_spec (S := W p) (t := t) (acc := []) (fs := (List.range n).flatMap (ofProc l)) (by
    intro f hf
    obtain ⟨q, -, hq⟩ := (hm f).1 hf
    obtain ⟨a, b, -⟩ := (hl q f).1 hq
    obtain ⟨x, hx, -⟩ := adj_down P R (t := t) a (by omega)
    exact ⟨x, hx⟩)
  refine ⟨v, h1, fun b => ?_⟩
  rw [h2]
  constructor
  · rintro (h | ⟨f, hf, x, hx, hb⟩)
    · cases h
    · obtain ⟨q, -, hq⟩ := (hm f).1 hf
      obtain ⟨f1, f2, hne, c, d, hc, hd, oc, od⟩ := (hl q f).1 hq
      obtain ⟨x', hx', hxm⟩ := adj_down P R (t := t) f1 (by omega)
      rw [hx] at hx'
      injection hx' with hx'
      subst hx'
      obtain ⟨b1, b2, b3⟩ := (hxm b).1 hb
      exact ⟨b1, b2, name (W p).num f, c, d, f2, hc, hd, oc, od ▸ hne, b3⟩
  · rintro ⟨b1, b2, f, c, d, f2, hc, hd, oc, od, hfb⟩
    obtain ⟨-, -, hcf⟩ := cell_home H hc
    rw [oc] at hcf
    obtain ⟨x, hx, rfl⟩ := hcf
    obtain ⟨y, hy, hym⟩ := adj_down P R (t := t) hx (show t < x.ty by have : x.ty = 2 := f2; omega)
    exact Or.inr ⟨x, (hm x).2 ⟨G.owner d, (cell_home H hd).1, (hl _ x).2 ⟨hx, f2, od, c, d, hc, hd, oc, rfl⟩⟩, y, hy,
      (hym b).2 ⟨b1, b2, hfb⟩⟩

theorem take1_spec (arr x : List Nat) (_ : True) (h : x.length ≤ 1) :
    True ∧ ∀ i, i ∈ arr ++ x.take 1 ↔ i ∈ arr ∨ i ∈ x := by
  refine ⟨trivial, fun i => ?_⟩
  rw [List.mem_append, List.take_of_length_le h]

theorem onskin_len {vis : Nat → List El} {p : Nat} {e : Parallel.El} {x : List Nat}
    (h : (if (vis p).contains (⟨e.ty, e.id⟩ : El) then some [p] else none) = some x) : x.length ≤ 1 := by
  split at h
  · injection h with h; rw [← h]; simp
  · cases h

/-- Processors that visited an element. -/
theorem onskin_data (H : Spread n cn G W) {t : Nat} {vis : Nat → List El}
    (hv : ∀ p, p < n → ∀ b, b ∈ vis p ↔ (W p).T.alive b = true ∧ b.ty = t ∧ OnSkin n G W p (name (W p).num b))
    {G4 : Nat → Parallel.Local Nat}
    (h : Parallel.CollectRun n 0 (fun i => i == t) onSkinUnpack
        (fun p e => if (vis p).contains (⟨e.ty, e.id⟩ : El) then some [p] else none) (fun p => look _ (W p)) G4)
    {p : Nat} (hp : p < n) {b : El} (hb : (W p).T.alive b = true) (hbt : b.ty = t) (q : Nat) :
    q ∈ ((G4 p).data 0 (toP b)).getD [] ↔ q < n ∧ OnSkin n G W q (name (W p).num b) := by
  have hfin := Parallel.collect_final (P := fun _ => True) (Q := fun x => x.length ≤ 1) (f := fun arr x => arr ++ x.take 1)
    (agreed_look H Nat) take1_spec (fun _ _ _ _ => trivial) (fun _ _ _ _ _ _ hx _ => onskin_len hx) h hp (e := toP b)
    ((mem_look (H.piece p hp).reach _).2 hb) (by show (b.ty == t) = true; simp [hbt])
  rw [hfin.2]
  constructor
  · rintro ⟨r, e', hr, he', hs, hm⟩
    split at hm
    · next hc =>
      have hrq : q = r := by simpa using hm
      subst hrq
      have := (hv q hr (ofP e')).1 (by simpa [ofP] using hc)
      rw [same_name.1 hs] at this
      exact ⟨hr, this.2.2⟩
    · cases hm
  · rintro ⟨hq, hs⟩
    have hs' := hs
    obtain ⟨f, c, d, f2, hc, hd, oc, od, hfb⟩ := hs
    obtain ⟨-, hch, -⟩ := cell_home H hc
    rw [oc] at hch
    obtain ⟨x, hx, rfl⟩ := hch
    obtain ⟨a, ha, han, -⟩ := below_of_part (H.piece q hq) hx (part_trans hc.part hfb)
    refine ⟨q, toP a, hq, (mem_look (H.piece q hq).reach _).2 ha, same_name.2 han, ?_⟩
    have : (vis q).contains (⟨(toP a).ty, (toP a).id⟩ : El) = true := by
      rw [List.contains_iff_mem]
      exact (hv q hq a).2 ⟨ha, (congrArg El.ty han).trans hbt, han ▸ hs'⟩
    rw [if_pos this]
    simp

theorem mem_bridgeOf {me : Nat} {vis : List El} {os : El → List Nat} {br : Nat → List El} (h : bridgeOf n me vis os = some br)
    (q : Nat) (b : El) : b ∈ br q ↔ b ∈ vis ∧ q ∈ os b ∧ q ≠ me := by
  unfold bridgeOf at h
  split at h
  · injection h with h
    subst h
    simp only [List.mem_flatMap, List.mem_map, List.mem_filter, Bool.and_eq_true, beq_iff_eq, bne_iff_ne]
    constructor
    · rintro ⟨e, he, p, ⟨h1, rfl, h2⟩, rfl⟩
      exact ⟨he, h1, h2⟩
    · rintro ⟨h1, h2, h3⟩
      exact ⟨b, h1, q, ⟨h2, rfl, h3⟩, rfl⟩
  · cases h

/-- What ComputeSharedSkinSet is to return. -/
def Shared (n t : Nat) (G : Whole) (W : Nat → Side V) (p q : Nat) (b : El) : Prop :=
  if t = 2 then Between n G W p q b else OnSkin n G W p b ∧ OnSkin n G W q b

theorem between_lt (H : Spread n cn G W) {p q : Nat} {f : El} (h : Between n G W p q f) : q < n := by
  obtain ⟨c, d, -, hd, -, rfl⟩ := h
  exact (cell_home H hd).1

theorem skinSet_mem (H : Spread n cn G W) (R : Regular cn G) (two : TwoCells n G W) {t : Nat} (ht : t < 3)
    {bridge : Nat → Nat → List El} (h : SkinSet n t W bridge) {p : Nat} (hp : p < n) (q : Nat) (b : El) :
    b ∈ bridge p q ↔ (W p).T.alive b = true ∧ b.ty = t ∧ q < n ∧ q ≠ p ∧ Shared n t G W p q (name (W p).num b) := by
  obtain ⟨init, G2, sf, h1, h2, h3, h4⟩ := h
  have hsf : ∀ p, p < n → ∀ q f, (q, f) ∈ sf p ↔ (W p).T.alive f = true ∧ f.ty = 2 ∧ q ≠ p ∧ Between n G W p q (name (W p).num f) := by
    intro p hp
    obtain ⟨l, l1, l2⟩ := faces_mem H R two h1 h2 hp
    rw [h3 p hp] at l1
    injection l1 with l1
    rw [l1]; exact l2
  unfold Shared
  by_cases h2t : t = 2
  · rw [if_pos h2t] at h4 ⊢
    rw [h4 p hp, mem_ofProc, hsf p hp, h2t]
    constructor
    · rintro ⟨a, b, c, d⟩; exact ⟨a, b, between_lt H d, c, d⟩
    · rintro ⟨a, b, -, c, d⟩; exact ⟨a, b, c, d⟩
  · rw [if_neg h2t] at h4 ⊢
    obtain ⟨vis, G4, v1, v2, v3⟩ := h4
    have hv : ∀ p, p < n → ∀ b, b ∈ vis p ↔ (W p).T.alive b = true ∧ b.ty = t ∧ OnSkin n G W p (name (W p).num b) := by
      intro p hp
      obtain ⟨v, w1, w2⟩ := visit_mem H R (t := t) (by omega) hp (hsf p hp)
      rw [v1 p hp] at w1
      injection w1 with w1
      rw [w1]; exact w2
    rw [mem_bridgeOf (v3 p hp), hv p hp]
    constructor
    · rintro ⟨⟨a, b', c⟩, d, e⟩
      obtain ⟨d1, d2⟩ := (onskin_data H hv v2 hp a b' q).1 d
      exact ⟨a, b', d1, e, c, d2⟩
    · rintro ⟨a, b', c, d, e, f⟩
      exact ⟨⟨a, b', e⟩, (onskin_data H hv v2 hp a b' q).2 ⟨c, f⟩, d⟩

theorem skinSet_exists (H : Spread n cn G W) (R : Regular cn G) (two : TwoCells n G W) {t : Nat} (ht : t < 3) :
    ∃ bridge, SkinSet n t W bridge := by
  let init : Nat → Parallel.El → Option (List (Nat × Nat)) := fun p e => (skinOf n (W p) (ofP e)).getD none
  have h1 : ∀ p, p < n → ∀ e, (W p).T.alive e = true → skinOf n (W p) e = some (init p (toP e)) := by
    intro p hp e he
    obtain ⟨r, hr, -⟩ := skinOf_ok H R hp he
    show _ = some ((skinOf n (W p) (ofP (toP e))).getD none)
    rw [show ofP (toP e) = e from rfl, hr]
    rfl
  have hP : ∀ q, q < n → ∀ e, e ∈ (look (Nat × Nat) (W q)).elems → PairsOk G ((init q e).getD []) := by
    intro q hq e he
    have hal := (mem_look (H.piece q hq).reach e).1 he
    obtain ⟨r, r1, r2, r3⟩ := skinOf_ok H R hq hal
    rw [h1 q hq _ hal] at r1
    injection r1 with r1
    rw [show init q e = r from r1]
    by_cases hc : (ofP e).ty = 2 ∧ ((W q).status (ofP e) = .ghost ∨ (W q).status (ofP e) = .shared)
    · obtain ⟨l, rfl, hl, -⟩ := r2 hc
      exact hl
    · rw [r3 hc]
      exact ⟨List.nodup_nil, fun _ h => by cases h⟩
  obtain ⟨G2, h2⟩ := Parallel.collect_exists (k := 0) (mask := fun i => i == 2) (P := PairsOk G)
    (Q := fun x => ∀ y ∈ x, y.2 = G.owner ⟨3, y.1⟩) (f := skinMerge) (init := init)
    (agreed_look H (Nat × Nat)) (fun arr x a b => skinMerge_spec x arr a b) hP
    (fun q hq e x he _ hx _ => by have := (hP q hq e he).2; rw [hx] at this; exact this)
  have h3 : ∀ p, ∃ l, p < n → skinFaces n p (W p) (fun e => ((G2 p).data 0 (toP e)).getD []) (elemsOf (W p).T 2) = some l ∧
      ∀ q f, (q, f) ∈ l ↔ (W p).T.alive f = true ∧ f.ty = 2 ∧ q ≠ p ∧ Between n G W p q (name (W p).num f) := by
    intro p
    by_cases hp : p < n
    · obtain ⟨l, hl⟩ := faces_mem H R two h1 h2 hp
      exact ⟨l, fun _ => hl⟩
    · exact ⟨[], fun h => absurd h hp⟩
  choose sf hsf using h3
  by_cases h2t : t = 2
  · exact ⟨fun p => ofProc (sf p), init, G2, sf, h1, h2, fun p hp => (hsf p hp).1, by rw [if_pos h2t]; exact fun _ _ => rfl⟩
  · have h4 : ∀ p, ∃ v, p < n → visit (W p) t [] ((List.range n).flatMap (ofProc (sf p))) = some v ∧
        ∀ b, b ∈ v ↔ (W p).T.alive b = true ∧ b.ty = t ∧ OnSkin n G W p (name (W p).num b) := by
      intro p
      by_cases hp : p < n
      · obtain ⟨v, hv⟩ := visit_mem H R (t := t) (by omega) hp (hsf p hp).2
        exact ⟨v, fun _ => hv⟩
      · exact ⟨[], fun h => absurd h hp⟩
    choose vis hvis using h4
    obtain ⟨G4, h5⟩ := Parallel.collect_exists (k := 0) (mask := fun i => i == t) (P := fun _ => True) (Q := fun x => x.length ≤ 1)
      (f := fun (arr : List Nat) x => arr ++ x.take 1)
      (init := fun p e => if (vis p).contains (⟨e.ty, e.id⟩ : El) then some [p] else none)
      (agreed_look H Nat) take1_spec (fun _ _ _ _ => trivial) (fun _ _ _ _ _ _ hx _ => onskin_len hx)
    have h6 : ∀ p, ∃ br, p < n → bridgeOf n p (vis p) (fun e => ((G4 p).data 0 (toP e)).getD []) = some br := by
      intro p
      by_cases hp : p < n
      · unfold bridgeOf
        rw [if_pos]
        · exact ⟨_, fun _ => rfl⟩
        · rw [List.all_eq_true]
          intro e he
          rw [List.all_eq_true]
          intro q hq
          obtain ⟨e1, e2, -⟩ := ((hvis p hp).2 e).1 he
          exact decide_eq_true ((onskin_data H (fun p hp => (hvis p hp).2) h5 hp e1 e2 q).1 hq).1
      · exact ⟨fun _ => [], fun h => absurd h hp⟩
    choose br hbr using h6
    exact ⟨br, init, G2, sf, h1, h2, fun p hp => (hsf p hp).1, by
      rw [if_neg h2t]
      exact ⟨vis, G4, fun p hp => (hvis p hp).1, h5, hbr⟩⟩

end Verif.Layers
