import Verif.Migrate.Pass
import Verif.Layers.BridgeSet

/-! # Lemmas: marking of layers of cells -/

namespace Verif.Migrate

open Verif.Topology Verif.Transfer Verif.Layers

variable {V : Type} {n : Nat} {cn : Bool} {G : Whole} {S : Side V} {q : Nat}

/-- A cell of the processor. -/
def LCell (S : Side V) (e : El) : Prop := S.T.alive e = true ∧ e.ty = 3

/-- `b` is on the boundary of the cell `e`. -/
def At (G : Whole) (S : Side V) (e b : El) : Prop := Part false G (name S.num e) (name S.num b)

/-- Lists of cells are sorted; the marker is on cells that have `q` and on elements all cells of which have `q`. -/
structure MOk (G : Whole) (S : Side V) (q : Nat) (m : Mark) : Prop where
  sorted : ∀ e, LCell S e → (m.np e).Pairwise (· < ·)
  busy : ∀ e, LCell S e → e ∈ m.busy → q ∈ m.np e
  bridge : ∀ j e, j ∈ m.busy → j.ty < 3 → LCell S e → At G S e j → q ∈ m.np e

/-- What has been added: `q` to the cells with `X`. -/
structure MAdd (G : Whole) (S : Side V) (q : Nat) (m m' : Mark) (X : El → Prop) : Prop where
  ok : MOk G S q m'
  mem : ∀ e, LCell S e → ∀ r, r ∈ m'.np e ↔ r ∈ m.np e ∨ r = q ∧ X e
  out : ∀ e, e.ty ≠ 3 → m'.np e = m.np e
  layer : ∀ e, e ∈ m'.layer ↔ e ∈ m.layer ∨ LCell S e ∧ X e ∧ q ∉ m.np e

theorem MAdd.refl {m : Mark} (h : MOk G S q m) {X : El → Prop} (hX : ∀ e, LCell S e → X e → q ∈ m.np e) : MAdd G S q m m X :=
  ⟨h, fun e he r => ⟨Or.inl, fun k => k.elim id fun ⟨a, b⟩ => a ▸ hX e he b⟩, fun _ _ => rfl,
    fun e => ⟨Or.inl, fun k => k.elim id fun ⟨a, b, c⟩ => absurd (hX e a b) c⟩⟩

theorem MAdd.trans {m m1 m2 : Mark} {X Y Z : El → Prop} (h : MAdd G S q m m1 X) (h' : MAdd G S q m1 m2 Y)
    (hz : ∀ e, LCell S e → (Z e ↔ X e ∨ Y e)) : MAdd G S q m m2 Z := by
  refine ⟨h'.ok, fun e he r => ?_, fun e he => (h'.out e he).trans (h.out e he), fun e => ?_⟩
  · rw [h'.mem e he, h.mem e he, hz e he]
    constructor
    · rintro ((a | ⟨a, b⟩) | ⟨a, b⟩)
      · exact .inl a
      · exact .inr ⟨a, .inl b⟩
      · exact .inr ⟨a, .inr b⟩
    · rintro (a | ⟨a, b | b⟩)
      · exact .inl (.inl a)
      · exact .inl (.inr ⟨a, b⟩)
      · exact .inr ⟨a, b⟩
  · rw [h'.layer, h.layer]
    constructor
    · rintro ((a | ⟨a, b, c⟩) | ⟨a, b, c⟩)
      · exact .inl a
      · exact .inr ⟨a, (hz e a).2 (.inl b), c⟩
      · exact .inr ⟨a, (hz e a).2 (.inr b), fun k => c ((h.mem e a q).2 (.inl k))⟩
    · rintro (a | ⟨a, b, c⟩)
      · exact .inl (.inl a)
      · by_cases hx : X e
        · exact .inl (.inr ⟨a, hx, c⟩)
        · exact .inr ⟨a, ((hz e a).1 b).resolve_left hx, fun k => ((h.mem e a q).1 k).elim c fun k => hx k.2⟩

theorem markOne_busy {m : Mark} (h : MOk G S q m) {c : El} (hc : LCell S c) (hq : q ∈ m.np c) :
    MAdd G S q m { m with busy := m.busy ++ [c] } (fun e => e = c) := by
  refine ⟨⟨h.sorted, fun e he hb => ?_, fun j e hj h3 he ha => ?_⟩, fun e he r => ⟨.inl, ?_⟩, fun _ _ => rfl, fun e => ⟨.inl, ?_⟩⟩
  · rcases List.mem_append.1 hb with hb | hb
    · exact h.busy e he hb
    · rw [List.mem_singleton] at hb; subst hb; exact hq
  · rcases List.mem_append.1 hj with hb | hb
    · exact h.bridge j e hb h3 he ha
    · rw [List.mem_singleton] at hb; subst hb; rw [hc.2] at h3; omega
  · rintro (a | ⟨rfl, rfl⟩)
    · exact a
    · exact hq
  · rintro (a | ⟨_, rfl, b⟩)
    · exact a
    · exact absurd hq b

theorem markOne_new {m : Mark} (h : MOk G S q m) {c : El} (hc : LCell S c) (hq : q ∉ m.np c) :
    MAdd G S q m ⟨set1 m.np c (addProc q (m.np c)), m.busy ++ [c], m.layer ++ [c]⟩ (fun e => e = c) := by
  have hmem : ∀ e r, r ∈ set1 m.np c (addProc q (m.np c)) e ↔ r ∈ m.np e ∨ r = q ∧ e = c := by
    intro e r
    by_cases hec : e = c
    · subst hec; rw [set1_same, mem_addProc]; constructor
      · rintro (a | a); exacts [.inr ⟨a, rfl⟩, .inl a]
      · rintro (a | ⟨a, _⟩); exacts [.inr a, .inl a]
    · rw [set1_ne _ _ hec]; exact ⟨.inl, fun k => k.elim id fun k => absurd k.2 hec⟩
  refine ⟨⟨fun e he => ?_, fun e he hb => ?_, fun j e hj h3 he ha => ?_⟩, fun e _ r => hmem e r, fun e he => ?_, fun e => ?_⟩
  · show (set1 m.np c (addProc q (m.np c)) e).Pairwise _
    by_cases hec : e = c
    · subst hec; rw [set1_same]; exact addProc_sorted _ _ (h.sorted e he)
    · rw [set1_ne _ _ hec]; exact h.sorted e he
  · refine (hmem e q).2 ?_
    rcases List.mem_append.1 hb with hb | hb
    · exact .inl (h.busy e he hb)
    · exact .inr ⟨rfl, List.mem_singleton.1 hb⟩
  · refine (hmem e q).2 ?_
    rcases List.mem_append.1 hj with hb | hb
    · exact .inl (h.bridge j e hb h3 he ha)
    · rw [List.mem_singleton] at hb; subst hb; rw [hc.2] at h3; omega
  · exact set1_ne _ _ (by rintro rfl; exact he hc.2)
  · rw [List.mem_append, List.mem_singleton]
    constructor
    · rintro (a | rfl)
      · exact .inl a
      · exact .inr ⟨hc, rfl, hq⟩
    · rintro (a | ⟨_, b, _⟩); exacts [.inl a, .inr b]

theorem markCells_spec : ∀ (cs : List El) {m : Mark}, MOk G S q m → (∀ c ∈ cs, LCell S c) →
    MAdd G S q m (markCells q m cs) (fun e => e ∈ cs)
  | [], m, h, _ => .refl h (fun _ _ k => by simp at k)
  | c :: cs, m, h, hl => by
    have hc := hl c (by simp)
    have hz : ∀ e, LCell S e → (e ∈ c :: cs ↔ e = c ∨ e ∈ cs) := fun e _ => List.mem_cons
    have hl' : ∀ c ∈ cs, LCell S c := fun x hx => hl x (by simp [hx])
    unfold markCells
    split
    · rename_i hb
      have hb := h.busy c hc (by simpa using hb)
      exact (MAdd.refl h (X := fun e => e = c) (fun e _ k => by rw [k]; exact hb)).trans (markCells_spec cs h hl') hz
    · split
      · rename_i hf
        have := markOne_busy h hc ((foundProc_iff (h.sorted c hc)).1 hf)
        exact this.trans (markCells_spec cs this.ok hl') hz
      · rename_i hf
        have := markOne_new h hc (fun k => hf ((foundProc_iff (h.sorted c hc)).2 k))
        exact this.trans (markCells_spec cs this.ok hl') hz

theorem markFirst_spec (P : Piece cn G S) (R : Regular cn G) : ∀ (bs : List El) {m : Mark}, MOk G S q m →
    (∀ b ∈ bs, S.T.alive b = true ∧ b.ty < 3) →
    ∃ m', markFirst S q m bs = some m' ∧ MAdd G S q m m' (fun e => ∃ b ∈ bs, At G S e b)
  | [], m, h, _ => ⟨m, rfl, .refl h (fun _ _ k => by simp at k)⟩
  | b :: bs, m, h, hl => by
    obtain ⟨hb, h3⟩ := hl b (by simp)
    obtain ⟨l, h1, h2⟩ := adj_cells P R hb h3
    have a1 := markCells_spec l h (fun c hc => ⟨((h2 c).1 hc).1, ((h2 c).1 hc).2.1⟩)
    obtain ⟨m', b1, b2⟩ := markFirst_spec P R bs a1.ok (fun x hx => hl x (by simp [hx]))
    refine ⟨m', by unfold markFirst; rw [h1]; exact b1, a1.trans b2 fun e he => ?_⟩
    simp only [List.mem_cons, exists_eq_or_imp, h2, he.1, he.2, true_and]
    rfl

theorem markBridge_spec (P : Piece cn G S) (R : Regular cn G) : ∀ (js : List El) {m : Mark}, MOk G S q m →
    (∀ j ∈ js, S.T.alive j = true ∧ j.ty < 3) →
    ∃ m', markBridge S q m js = some m' ∧ MAdd G S q m m' (fun e => ∃ j ∈ js, At G S e j)
  | [], m, h, _ => ⟨m, rfl, .refl h (fun _ _ k => by simp at k)⟩
  | j :: js, m, h, hl => by
    obtain ⟨hb, h3⟩ := hl j (by simp)
    obtain ⟨l, h1, h2⟩ := adj_cells P R hb h3
    have hl' : ∀ x ∈ js, S.T.alive x = true ∧ x.ty < 3 := fun x hx => hl x (by simp [hx])
    have hz : ∀ e, LCell S e → ((∃ i ∈ j :: js, At G S e i) ↔ At G S e j ∨ ∃ i ∈ js, At G S e i) := fun e _ => by
      simp only [List.mem_cons, exists_eq_or_imp]
    unfold markBridge
    cases hbz : m.busy.contains j with
    | true =>
      have hm : ∀ e, LCell S e → At G S e j → q ∈ m.np e := fun e he ha => h.bridge j e (by simpa using hbz) h3 he ha
      obtain ⟨m', b1, b2⟩ := markBridge_spec P R js h hl'
      exact ⟨m', by simpa using b1, (MAdd.refl h (X := fun e => At G S e j) hm).trans b2 hz⟩
    | false =>
      have a1 := markCells_spec l h (fun c hc => ⟨((h2 c).1 hc).1, ((h2 c).1 hc).2.1⟩)
      have a2 : MAdd G S q m { markCells q m l with busy := (markCells q m l).busy ++ [j] } (fun e => At G S e j) := by
        have hx : ∀ e, LCell S e → (e ∈ l ↔ At G S e j) := fun e he => by
          rw [h2]; simp only [he.1, he.2, true_and]; rfl
        refine ⟨⟨a1.ok.sorted, fun e he hb => ?_, fun i e hi hi3 he ha => ?_⟩, fun e he r => ?_, a1.out, fun e => ?_⟩
        · rcases List.mem_append.1 hb with hb | hb
          · exact a1.ok.busy e he hb
          · rw [List.mem_singleton] at hb; subst hb; have := he.2; omega
        · rcases List.mem_append.1 hi with hb | hb
          · exact a1.ok.bridge i e hb hi3 he ha
          · rw [List.mem_singleton] at hb; subst hb
            exact (a1.mem e he q).2 (.inr ⟨rfl, (hx e he).2 ha⟩)
        · rw [← hx e he]; exact a1.mem e he r
        · refine (a1.layer e).trans (or_congr_right (and_congr_right fun he => ?_))
          rw [hx e he]
      obtain ⟨m', b1, b2⟩ := markBridge_spec P R js a2.ok hl'
      refine ⟨m', ?_, a2.trans b2 hz⟩
      simp only [Bool.false_eq_true, if_false, h1]
      exact b1

theorem markNext_spec (P : Piece cn G S) (R : Regular cn G) {t : Nat} (ht : t < 3) : ∀ (cs : List El) {m : Mark}, MOk G S q m →
    (∀ c ∈ cs, LCell S c) →
    ∃ m', markNext S t q m cs = some m' ∧
      MAdd G S q m m' (fun e => ∃ c ∈ cs, ∃ j, S.T.alive j = true ∧ j.ty = t ∧ At G S c j ∧ At G S e j)
  | [], m, h, _ => ⟨m, rfl, .refl h (fun _ _ k => by simp at k)⟩
  | c :: cs, m, h, hl => by
    obtain ⟨hb, h3⟩ := hl c (by simp)
    obtain ⟨l, h1, h2⟩ := adj_down P R (t := t) hb (by omega)
    obtain ⟨m1, a1, a2⟩ := markBridge_spec P R l h (fun j hj => ⟨((h2 j).1 hj).1, by rw [((h2 j).1 hj).2.1]; exact ht⟩)
    obtain ⟨m', b1, b2⟩ := markNext_spec P R ht cs a2.ok (fun x hx => hl x (by simp [hx]))
    refine ⟨m', by unfold markNext; rw [h1]; simp only [a1]; exact b1, a2.trans b2 fun e he => ?_⟩
    simp only [List.mem_cons, exists_eq_or_imp, h2, and_assoc]
    rfl

theorem mem_splitFaces {np : El → List Nat} : ∀ {fs : List El} {q : Nat} {f : El},
    (q, f) ∈ splitFaces np fs ↔ f ∈ fs ∧ ∃ a b, np f = [a, b] ∧ (q = a ∨ q = b)
  | [], _, _ => by simp [splitFaces]
  | x :: fs, q, f => by
    unfold splitFaces
    split
    · rename_i a b hx
      simp only [List.mem_cons, Prod.mk.injEq, mem_splitFaces (fs := fs)]
      constructor
      · rintro (⟨rfl, rfl⟩ | ⟨rfl, rfl⟩ | ⟨h, k⟩)
        · exact ⟨.inl rfl, _, _, hx, .inl rfl⟩
        · exact ⟨.inl rfl, _, _, hx, .inr rfl⟩
        · exact ⟨.inr h, k⟩
      · rintro ⟨rfl | h, a', b', k, l⟩
        · rw [hx] at k; injection k with k1 k2; injection k2 with k2 _; subst k1; subst k2
          rcases l with rfl | rfl
          · exact .inl ⟨rfl, rfl⟩
          · exact .inr (.inl ⟨rfl, rfl⟩)
        · exact .inr (.inr ⟨h, a', b', k, l⟩)
    · rename_i hx
      rw [mem_splitFaces (fs := fs), List.mem_cons]
      constructor
      · rintro ⟨h, k⟩; exact ⟨.inr h, k⟩
      · rintro ⟨rfl | h, a, b, k, l⟩
        · exact absurd k (hx a b)
        · exact ⟨h, a, b, k, l⟩

/-- `f` is a face between two parts, one of which is `q`. -/
def Split (S : Side V) (np : El → List Nat) (q : Nat) (f : El) : Prop :=
  S.T.alive f = true ∧ f.ty = 2 ∧ ∃ a b, np f = [a, b] ∧ (q = a ∨ q = b)

theorem splitSkin_spec (P : Piece cn G S) (R : Regular cn G) {t : Nat} (ht : t < 3) (np : El → List Nat) (q : Nat) :
    ∃ sk, splitSkin S t np q = some sk ∧ ∀ b, b ∈ sk ↔ S.T.alive b = true ∧ b.ty = t ∧ ∃ f, Split S np q f ∧ At G S f b := by
  have hf : ∀ f, f ∈ ofProc (splitFaces np (elemsOf S.T 2)) q ↔ Split S np q f := by
    intro f
    rw [mem_ofProc, mem_splitFaces, mem_elemsOf P.reach]
    exact and_assoc
  unfold splitSkin
  by_cases h2 : t = 2
  · subst h2
    rw [if_pos rfl]
    refine ⟨_, rfl, fun b => ?_⟩
    rw [hf]
    constructor
    · intro h; exact ⟨h.1, h.2.1, b, h, .self⟩
    · rintro ⟨hb, hb2, f, h, ha⟩
      have := (part_ty P ⟨f, h.1, rfl⟩ ha).2 (by show b.ty = f.ty; rw [hb2, h.2.1])
      rw [P.fits.inj b f hb h.1 this]; exact h
  · rw [if_neg h2]
    have had : ∀ f, Split S np q f → ∃ l, adj S t f = some l ∧ ∀ y, y ∈ l ↔ S.T.alive y = true ∧ y.ty = t ∧ At G S f y :=
      fun f h => adj_down P R h.1 (by rw [h.2.1]; omega)
    obtain ⟨v, h1, h3⟩ := visit_spec (S := S) (t := t) (acc := []) (fs := ofProc (splitFaces np (elemsOf S.T 2)) q)
      (fun f h => by obtain ⟨l, hl, _⟩ := had f ((hf f).1 h); exact ⟨l, hl⟩)
    refine ⟨v, h1, fun b => ?_⟩
    rw [h3]
    constructor
    · rintro (h | ⟨f, h, l, hl, hb⟩)
      · simp at h
      · obtain ⟨l', k1, k2⟩ := had f ((hf f).1 h)
        rw [hl] at k1; injection k1 with k1; subst k1
        exact ⟨((k2 b).1 hb).1, ((k2 b).1 hb).2.1, f, (hf f).1 h, ((k2 b).1 hb).2.2⟩
    · rintro ⟨hb, hb2, f, h, ha⟩
      obtain ⟨l', k1, k2⟩ := had f h
      exact .inr ⟨f, (hf f).2 h, l', k1, (k2 b).2 ⟨hb, hb2, ha⟩⟩

/-- Sorted lists of the cells. -/
def CellSorted (S : Side V) (np : El → List Nat) : Prop := ∀ e, LCell S e → (np e).Pairwise (· < ·)

theorem firstAll_spec (P : Piece cn G S) (R : Regular cn G) {t : Nat} (ht : t < 3) (np0 : El → List Nat) :
    ∀ (qs : List Nat) (np : El → List Nat), qs.Nodup → CellSorted S np → ∃ np' L, firstAll S t np0 qs np = some (np', L) ∧
      CellSorted S np' ∧ (∀ e, e.ty ≠ 3 → np' e = np e) ∧
      (∀ e, LCell S e → ∀ r, r ∈ np' e ↔ r ∈ np e ∨ r ∈ qs ∧ ∃ b f, b.ty = t ∧ S.T.alive b = true ∧ Split S np0 r f ∧ At G S f b ∧ At G S e b) ∧
      ∀ q e, e ∈ L q ↔ q ∈ qs ∧ LCell S e ∧ q ∉ np e ∧
        ∃ b f, b.ty = t ∧ S.T.alive b = true ∧ Split S np0 q f ∧ At G S f b ∧ At G S e b
  | [], np, _, h => ⟨np, fun _ => [], rfl, h, fun _ _ => rfl, fun e _ r => by simp, fun q e => by simp⟩
  | q :: qs, np, hd, h => by
    obtain ⟨sk, s1, s2⟩ := splitSkin_spec P R ht np0 q
    obtain ⟨m, m1, m2⟩ := markFirst_spec (q := q) P R sk (m := ⟨np, [], []⟩)
      ⟨h, fun e _ hb => by simp at hb, fun j e hb => by simp at hb⟩ (fun b hb => ⟨((s2 b).1 hb).1, by rw [((s2 b).1 hb).2.1]; exact ht⟩)
    obtain ⟨np', L, a1, a2, a3, a4, a5⟩ := firstAll_spec P R ht np0 qs m.np (List.nodup_cons.1 hd).2 m2.ok.sorted
    have hX : ∀ e, (∃ b ∈ sk, At G S e b) ↔ ∃ b f, b.ty = t ∧ S.T.alive b = true ∧ Split S np0 q f ∧ At G S f b ∧ At G S e b := by
      intro e
      constructor
      · rintro ⟨b, hb, ha⟩
        obtain ⟨k1, k2, f, k3, k4⟩ := (s2 b).1 hb
        exact ⟨b, f, k2, k1, k3, k4, ha⟩
      · rintro ⟨b, f, k2, k1, k3, k4, ha⟩
        exact ⟨b, (s2 b).2 ⟨k1, k2, f, k3, k4⟩, ha⟩
    refine ⟨np', set1 L q m.layer, by unfold firstAll; rw [s1]; simp only [m1, a1], a2,
      fun e he => (a3 e he).trans (m2.out e he), fun e he r => ?_, fun k e => ?_⟩
    · rw [a4 e he, m2.mem e he, hX, List.mem_cons]
      constructor
      · rintro ((a | ⟨a, b⟩) | ⟨a, b⟩)
        · exact .inl a
        · subst a; exact .inr ⟨.inl rfl, b⟩
        · exact .inr ⟨.inr a, b⟩
      · rintro (a | ⟨a | a, b⟩)
        · exact .inl (.inl a)
        · subst a; exact .inl (.inr ⟨rfl, b⟩)
        · exact .inr ⟨a, b⟩
    · by_cases hkq : k = q
      · subst hkq
        rw [set1_same, m2.layer]
        constructor
        · rintro (hk | ⟨k1, k2, k3⟩)
          · simp at hk
          · exact ⟨by simp, k1, k3, (hX e).1 k2⟩
        · rintro ⟨-, k1, k3, k2⟩
          exact .inr ⟨k1, (hX e).2 k2, k3⟩
      · rw [set1_ne _ _ hkq, a5, List.mem_cons]
        have hm : ∀ e, LCell S e → (k ∈ m.np e ↔ k ∈ np e) := fun e he =>
          (m2.mem e he k).trans ⟨fun h => h.elim id fun h => absurd h.1 hkq, .inl⟩
        constructor
        · rintro ⟨k1, k2, k3, k4⟩
          exact ⟨.inr k1, k2, fun h => k3 ((hm e k2).2 h), k4⟩
        · rintro ⟨k1, k2, k3, k4⟩
          exact ⟨k1.resolve_left hkq, k2, fun h => k3 ((hm e k2).1 h), k4⟩

theorem nextAll_spec (P : Piece cn G S) (R : Regular cn G) {t : Nat} (ht : t < 3) {old : Nat → List El}
    (ho : ∀ q e, e ∈ old q → LCell S e) :
    ∀ (qs : List Nat) (np : El → List Nat), qs.Nodup → CellSorted S np → (∀ q ∈ qs, ∀ e ∈ old q, q ∈ np e) →
      ∃ np' L, nextAll S t old qs np = some (np', L) ∧
      CellSorted S np' ∧ (∀ e, e.ty ≠ 3 → np' e = np e) ∧
      (∀ e, LCell S e → ∀ r, r ∈ np' e ↔ r ∈ np e ∨ r ∈ qs ∧ ∃ c ∈ old r, ∃ j, S.T.alive j = true ∧ j.ty = t ∧ At G S c j ∧ At G S e j) ∧
      ∀ q e, e ∈ L q ↔ q ∈ qs ∧ LCell S e ∧ q ∉ np e ∧ ∃ c ∈ old q, ∃ j, S.T.alive j = true ∧ j.ty = t ∧ At G S c j ∧ At G S e j
  | [], np, _, h, _ => ⟨np, fun _ => [], rfl, h, fun _ _ => rfl, fun e _ r => by simp, fun q e => by simp⟩
  | q :: qs, np, hd, h, hq => by
    obtain ⟨m, m1, m2⟩ := markNext_spec (q := q) P R ht (old q) (m := ⟨np, old q, []⟩)
      ⟨h, fun e _ hb => hq q (by simp) e hb, fun j e hb h3 _ _ => by have := (ho q j hb).2; omega⟩ (fun c hc => ho q c hc)
    obtain ⟨np', L, a1, a2, a3, a4, a5⟩ := nextAll_spec P R ht ho qs m.np (List.nodup_cons.1 hd).2 m2.ok.sorted
      (fun k hk e he => (m2.mem e (ho k e he) k).2 (.inl (hq k (by simp [hk]) e he)))
    refine ⟨np', set1 L q m.layer, by unfold nextAll; rw [m1]; simp only [a1], a2,
      fun e he => (a3 e he).trans (m2.out e he), fun e he r => ?_, fun k e => ?_⟩
    · rw [a4 e he, m2.mem e he, List.mem_cons]
      constructor
      · rintro ((a | ⟨a, b⟩) | ⟨a, b⟩)
        · exact .inl a
        · subst a; exact .inr ⟨.inl rfl, b⟩
        · exact .inr ⟨.inr a, b⟩
      · rintro (a | ⟨a | a, b⟩)
        · exact .inl (.inl a)
        · subst a; exact .inl (.inr ⟨rfl, b⟩)
        · exact .inr ⟨a, b⟩
    · by_cases hkq : k = q
      · subst hkq
        rw [set1_same, m2.layer]
        constructor
        · rintro (hk | ⟨k1, k2, k3⟩)
          · simp at hk
          · exact ⟨by simp, k1, k3, k2⟩
        · rintro ⟨-, k1, k3, k2⟩
          exact .inr ⟨k1, k2, k3⟩
      · rw [set1_ne _ _ hkq, a5, List.mem_cons]
        have hm : ∀ e, LCell S e → (k ∈ m.np e ↔ k ∈ np e) := fun e he =>
          (m2.mem e he k).trans ⟨fun h => h.elim id fun h => absurd h.1 hkq, .inl⟩
        constructor
        · rintro ⟨k1, k2, k3, k4⟩
          exact ⟨.inr k1, k2, fun h => k3 ((hm e k2).2 h), k4⟩
        · rintro ⟨k1, k2, k3, k4⟩
          exact ⟨k1.resolve_left hkq, k2, fun h => k3 ((hm e k2).1 h), k4⟩

theorem moreLayers_spec (P : Piece cn G S) (R : Regular cn G) {t : Nat} (ht : t < 3) {D : Nat → Nat → El → Prop}
    (hD : ∀ i q c j e, D i q c → LCell S c → LCell S e → S.T.alive j = true → j.ty = t → At G S c j → At G S e j → D (i + 1) q e) :
    ∀ (k i : Nat) (old : Nat → List El) (np : El → List Nat), CellSorted S np →
      (∀ q e, e ∈ old q → q < n ∧ LCell S e ∧ q ∈ np e ∧ D i q e) →
      ∃ np', moreLayers S n t k old np = some np' ∧ CellSorted S np' ∧ (∀ e, e.ty ≠ 3 → np' e = np e) ∧
        ∀ e, LCell S e → ∀ r, (r ∈ np e → r ∈ np' e) ∧ (r ∈ np' e → r ∈ np e ∨ r < n ∧ ∃ i', i' ≤ i + k ∧ D i' r e)
  | 0, i, old, np, h, _ => ⟨np, rfl, h, fun _ _ => rfl, fun e _ r => ⟨id, .inl⟩⟩
  | k + 1, i, old, np, h, ho => by
    obtain ⟨np1, L, a1, a2, a3, a4, a5⟩ := nextAll_spec P R ht (old := old) (fun q e he => (ho q e he).2.1) (List.range n) np
      List.nodup_range h (fun q _ e he => (ho q e he).2.2.1)
    obtain ⟨np', b1, b2, b3, b4⟩ := moreLayers_spec P R ht hD k (i + 1) L np1 a2 (fun q e he => by
      obtain ⟨k1, k2, k3, c, k4, j, k5, k6, k7, k8⟩ := (a5 q e).1 he
      exact ⟨List.mem_range.1 k1, k2, (a4 e k2 q).2 (.inr ⟨k1, c, k4, j, k5, k6, k7, k8⟩), hD i q c j e (ho q c k4).2.2.2 (ho q c k4).2.1 k2 k5 k6 k7 k8⟩)
    refine ⟨np', by unfold moreLayers; rw [a1]; exact b1, b2, fun e he => (b3 e he).trans (a3 e he), fun e he r => ⟨fun hr => ?_, fun hr => ?_⟩⟩
    · exact (b4 e he r).1 ((a4 e he r).2 (.inl hr))
    · rcases (b4 e he r).2 hr with hr | ⟨hr, i', hi, hd⟩
      · rcases (a4 e he r).1 hr with hr | ⟨hr, c, k4, j, k5, k6, k7, k8⟩
        · exact .inl hr
        · exact .inr ⟨List.mem_range.1 hr, i + 1, by omega, hD i r c j e (ho r c k4).2.2.2 (ho r c k4).2.1 he k5 k6 k7 k8⟩
      · exact .inr ⟨hr, i', by omega, hd⟩

/-- All layers: processors are added to cells; those of the first layer are all there; those that are added are `D`. -/
theorem markLayers_spec (P : Piece cn G S) (R : Regular cn G) {t : Nat} (ht : t < 3) {D : Nat → Nat → El → Prop}
    (np : El → List Nat) (h : CellSorted S np)
    (h1 : ∀ q b f e, q < n → Split S np q f → LCell S e → S.T.alive b = true → b.ty = t → At G S f b → At G S e b → D 1 q e)
    (hD : ∀ i q c j e, D i q c → LCell S c → LCell S e → S.T.alive j = true → j.ty = t → At G S c j → At G S e j → D (i + 1) q e)
    {layers : Nat} (hl : layers ≠ 0) :
    ∃ np', markLayers S n t layers np = some np' ∧ CellSorted S np' ∧ (∀ e, e.ty ≠ 3 → np' e = np e) ∧
      ∀ e, LCell S e → ∀ r, (r ∈ np e → r ∈ np' e) ∧
        (∀ b f, r < n → b.ty = t → S.T.alive b = true → Split S np r f → At G S f b → At G S e b → r ∈ np' e) ∧
        (r ∈ np' e → r ∈ np e ∨ r < n ∧ ∃ i, i ≤ layers ∧ D i r e) := by
  obtain ⟨np1, L, a1, a2, a3, a4, a5⟩ := firstAll_spec P R ht np (List.range n) np List.nodup_range h
  obtain ⟨np', b1, b2, b3, b4⟩ := moreLayers_spec (n := n) P R ht hD (layers - 1) 1 L np1 a2 (fun q e he => by
    obtain ⟨k1, k2, k3, b, f, k4, k5, k6, k7, k8⟩ := (a5 q e).1 he
    exact ⟨List.mem_range.1 k1, k2, (a4 e k2 q).2 (.inr ⟨k1, b, f, k4, k5, k6, k7, k8⟩), h1 q b f e (List.mem_range.1 k1) k6 k2 k5 k4 k7 k8⟩)
  refine ⟨np', by unfold markLayers; rw [a1]; exact b1, b2, fun e he => (b3 e he).trans (a3 e he), fun e he r => ⟨fun hr => ?_, ?_, fun hr => ?_⟩⟩
  · exact (b4 e he r).1 ((a4 e he r).2 (.inl hr))
  · intro b f hr hb hba hs h7 h8
    exact (b4 e he r).1 ((a4 e he r).2 (.inr ⟨List.mem_range.2 hr, b, f, hb, hba, hs, h7, h8⟩))
  · rcases (b4 e he r).2 hr with hr | ⟨hr, i', hi, hd⟩
    · rcases (a4 e he r).1 hr with hr | ⟨hr, b, f, k4, k5, k6, k7, k8⟩
      · exact .inl hr
      · exact .inr ⟨List.mem_range.1 hr, 1, by omega, h1 r b f e (List.mem_range.1 hr) k6 he k5 k4 k7 k8⟩
    · exact .inr ⟨hr, i', by omega, hd⟩

/-- Two cells have `j` in common. -/
def Share (G : Whole) (S : Side V) (t : Nat) (c d : El) : Prop := ∃ j, S.T.alive j = true ∧ j.ty = t ∧ At G S c j ∧ At G S d j

theorem moreLayers_lower (P : Piece cn G S) (R : Regular cn G) {t : Nat} (ht : t < 3) {q : Nat} (hq : q < n) :
    ∀ (k : Nat) (old : Nat → List El) (np np' : El → List Nat) (F : Nat → El → Prop), CellSorted S np →
      (∀ q e, e ∈ old q → q < n ∧ LCell S e ∧ q ∈ np e) →
      (∀ e d, LCell S e → LCell S d → q ∈ np e → e ∉ old q → Share G S t e d → q ∈ np d) →
      (∀ e, LCell S e → F 0 e → q ∈ np e) →
      (∀ i d, LCell S d → F (i + 1) d → F i d ∨ ∃ c, LCell S c ∧ F i c ∧ Share G S t c d) →
      moreLayers S n t k old np = some np' → ∀ e, LCell S e → F k e → q ∈ np' e
  | 0, old, np, np', F, _, _, _, h0, _, h, e, he, hf => by
    unfold moreLayers at h; injection h with h; subst h
    exact h0 e he hf
  | k + 1, old, np, np', F, hs, ho, hcl, h0, hF, h, e, he, hf => by
    obtain ⟨np1, L, a1, a2, a3, a4, a5⟩ := nextAll_spec P R ht (old := old) (fun q e he => (ho q e he).2.1) (List.range n) np
      List.nodup_range hs (fun q _ e he => (ho q e he).2.2)
    unfold moreLayers at h; rw [a1] at h
    have hqr := List.mem_range.2 hq
    have hnew : ∀ c d, LCell S d → c ∈ old q → Share G S t c d → q ∈ np1 d := fun c d hd hc ⟨j, k1, k2, k3, k4⟩ =>
      (a4 d hd q).2 (.inr ⟨hqr, c, hc, j, k1, k2, k3, k4⟩)
    have hnext : ∀ c d, LCell S c → LCell S d → q ∈ np c → Share G S t c d → q ∈ np1 d := fun c d hc hd hqc hsh => by
      by_cases hco : c ∈ old q
      · exact hnew c d hd hco hsh
      · exact (a4 d hd q).2 (.inl (hcl c d hc hd hqc hco hsh))
    refine moreLayers_lower P R ht hq k L np1 np' (fun i => F (i + 1)) a2 (fun q e he => ?_) (fun e d he hd hqe hel hsh => ?_)
      (fun d hd hf => ?_) (fun i d hd hf => hF (i + 1) d hd hf) h e he hf
    · obtain ⟨k1, k2, k3, c, k4, j, k5, k6, k7, k8⟩ := (a5 q e).1 he
      exact ⟨List.mem_range.1 k1, k2, (a4 e k2 q).2 (.inr ⟨k1, c, k4, j, k5, k6, k7, k8⟩)⟩
    · by_cases hqn : q ∈ np e
      · exact hnext e d he hd hqn hsh
      · rcases (a4 e he q).1 hqe with h | ⟨-, c, k4, k5⟩
        · exact absurd h hqn
        · exact absurd ((a5 q e).2 ⟨hqr, he, hqn, c, k4, k5⟩) hel
    · rcases hF 0 d hd hf with h | ⟨c, c1, c2, c3⟩
      · exact (a4 d hd q).2 (.inl (h0 d hd h))
      · exact hnext c d c1 hd (h0 c c1 c2) c3

/-- Cells on a path that the processor has are marked. -/
theorem markLayers_lower (P : Piece cn G S) (R : Regular cn G) {t : Nat} (ht : t < 3) {q : Nat} (hq : q < n) {layers : Nat}
    (hl : layers ≠ 0) {np np' : El → List Nat} {F : Nat → El → Prop} (hs : CellSorted S np)
    (hfirst : ∀ e d b, LCell S e → LCell S d → q ∈ np e → q ∉ np d → S.T.alive b = true → b.ty = t → At G S e b → At G S d b →
      ∃ f, Split S np q f ∧ At G S f b)
    (h0 : ∀ e, LCell S e → F 0 e → q ∈ np e)
    (hF : ∀ i d, LCell S d → F (i + 1) d → F i d ∨ ∃ c, LCell S c ∧ F i c ∧ Share G S t c d)
    (h : markLayers S n t layers np = some np') : ∀ e, LCell S e → F layers e → q ∈ np' e := by
  obtain ⟨np1, L, a1, a2, a3, a4, a5⟩ := firstAll_spec P R ht np (List.range n) np List.nodup_range hs
  unfold markLayers at h; rw [a1] at h
  have hqr := List.mem_range.2 hq
  have hnext : ∀ c d, LCell S c → LCell S d → q ∈ np c → Share G S t c d → q ∈ np1 d := fun c d hc hd hqc hsh => by
    by_cases hqd : q ∈ np d
    · exact (a4 d hd q).2 (.inl hqd)
    · obtain ⟨b, k1, k2, k3, k4⟩ := hsh
      obtain ⟨f, f1, f2⟩ := hfirst c d b hc hd hqc hqd k1 k2 k3 k4
      exact (a4 d hd q).2 (.inr ⟨hqr, b, f, k2, k1, f1, f2, k4⟩)
  intro e he hf
  refine moreLayers_lower P R ht hq (layers - 1) L np1 np' (fun i => F (i + 1)) a2 (fun q e he => ?_) (fun e d he hd hqe hel hsh => ?_)
    (fun d hd hf => ?_) (fun i d hd hf => hF (i + 1) d hd hf) h e he (by rw [Nat.sub_add_cancel (by omega)]; exact hf)
  · obtain ⟨k1, k2, k3, b, f, k4, k5, k6, k7, k8⟩ := (a5 q e).1 he
    exact ⟨List.mem_range.1 k1, k2, (a4 e k2 q).2 (.inr ⟨k1, b, f, k4, k5, k6, k7, k8⟩)⟩
  · by_cases hqn : q ∈ np e
    · exact hnext e d he hd hqn hsh
    · rcases (a4 e he q).1 hqe with h | ⟨-, k⟩
      · exact absurd h hqn
      · exact absurd ((a5 q e).2 ⟨hqr, he, hqn, k⟩) hel
  · rcases hF 0 d hd hf with h | ⟨c, c1, c2, c3⟩
    · exact (a4 d hd q).2 (.inl (h0 d hd h))
    · exact hnext c d c1 hd (h0 c c1 c2) c3

end Verif.Migrate
