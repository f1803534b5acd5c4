import Verif.Transfer.Steps

/-! # Lemmas: the data received, and a whole message -/

namespace Verif.Transfer

open Verif.Topology

variable {V : Type}

theorem forall₂_mem_left {A B : Type} {P : A → B → Prop} {l : List A} {m : List B} (h : List.Forall₂ P l m) {a : A}
    (ha : a ∈ l) : ∃ b, (a, b) ∈ l.zip m ∧ P a b := by
  induction h with
  | nil => cases ha
  | @cons x y l m hp _ ih =>
    rcases List.mem_cons.1 ha with rfl | ha
    · exact ⟨y, by simp, hp⟩
    · obtain ⟨b, h1, h2⟩ := ih ha; exact ⟨b, by simp [h1], h2⟩

theorem forall₂_zip {A B : Type} {P : A → B → Prop} {l : List A} {m : List B} (h : List.Forall₂ P l m) {a : A} {b : B}
    (hab : (a, b) ∈ l.zip m) : P a b := by
  induction h with
  | nil => cases hab
  | @cons x y l m hp _ ih =>
    simp only [List.zip_cons_cons, List.mem_cons, Prod.mk.injEq] at hab
    rcases hab with ⟨rfl, rfl⟩ | h
    · exact hp
    · exact ih h

theorem forall₂_append {A B : Type} {P : A → B → Prop} {l l' : List A} {m m' : List B} (h : List.Forall₂ P l m)
    (h' : List.Forall₂ P l' m') : List.Forall₂ P (l ++ l') (m ++ m') := by
  induction h with
  | nil => exact h'
  | cons hp _ ih => exact .cons hp ih

/-- The tags received reach the marked elements and nothing else changes. -/
theorem putTags_ok (S : Side V) (dest : Nat) (d : El → Rec V) {l : List El} {out : List (El × Bool)}
    (h : List.Forall₂ (fun e p => p.2 = (S.owner e != (dest : Int))) l out)
    (hf : ∀ e p e' p', (e, p) ∈ l.zip out → (e', p') ∈ l.zip out → p.1 = p'.1 → d e = d e') (R : Side V) :
    ∃ R', putTags out ((marks dest S l).map d) R = some R' ∧ R'.T = R.T ∧ R'.status = R.status ∧ R'.sh = R.sh ∧
      R'.gh = R.gh ∧
      (∀ e p, (e, p) ∈ l.zip out → S.owner e ≠ (dest : Int) → R'.tags p.1 = d e) ∧
      ∀ x, (∀ e p, (e, p) ∈ l.zip out → p.1 = x → S.owner e = (dest : Int)) → R'.tags x = R.tags x := by
  induction h generalizing R with
  | nil => exact ⟨R, rfl, rfl, rfl, rfl, rfl, by simp, by simp⟩
  | @cons e p l out hp _ ih =>
    obtain ⟨x, b⟩ := p
    simp only at hp
    subst hp
    have hf' : ∀ e p e' p', (e, p) ∈ l.zip out → (e', p') ∈ l.zip out → p.1 = p'.1 → d e = d e' :=
      fun e p e' p' h1 h2 => hf e p e' p' (by simp [h1]) (by simp [h2])
    by_cases ho : S.owner e = (dest : Int)
    · have hb : (S.owner e != (dest : Int)) = false := by simpa using ho
      obtain ⟨R', h1, h2, h3, h4, h5, h6, h7⟩ := ih hf' R
      refine ⟨R', ?_, h2, h3, h4, h5, ?_, ?_⟩
      · rw [hb]
        simp only [putTags, marks, List.filter_cons, hb, Bool.false_eq_true, if_false]
        exact h1
      · intro e' p' hm hne
        simp only [List.zip_cons_cons, List.mem_cons, Prod.mk.injEq] at hm
        rcases hm with ⟨rfl, -⟩ | hm
        · exact absurd ho hne
        · exact h6 e' p' hm hne
      · intro y hy
        exact h7 y fun e' p' hm hpy => hy e' p' (by simp [hm]) hpy
    · have hb : (S.owner e != (dest : Int)) = true := by simpa using ho
      let R1 : Side V := { R with
        num := set1 R.num x (d e).num, owner := set1 R.owner x (d e).owner,
        procs := set1 R.procs x (d e).procs, val := set1 R.val x (d e).val }
      have hR1 : R1.tags x = d e := by simp only [Side.tags, R1, set1_same]
      have hR1' : ∀ y, y ≠ x → R1.tags y = R.tags y := fun y hy => by simp only [Side.tags, R1, set1_ne _ _ hy]
      obtain ⟨R', h1, h2, h3, h4, h5, h6, h7⟩ := ih hf' R1
      refine ⟨R', ?_, h2, h3, h4, h5, ?_, ?_⟩
      · rw [hb]
        simp only [marks, List.filter_cons, hb, if_true, List.map_cons, putTags]
        exact h1
      · intro e' p' hm hne
        have hm0 := hm
        simp only [List.zip_cons_cons, List.mem_cons, Prod.mk.injEq] at hm
        rcases hm with ⟨rfl, rfl⟩ | hm
        · by_cases hex : ∃ e2 p2, (e2, p2) ∈ l.zip out ∧ p2.1 = x ∧ S.owner e2 ≠ (dest : Int)
          · obtain ⟨e2, p2, hz, hpx, ho2⟩ := hex
            have := h6 e2 p2 hz ho2
            rw [hpx] at this
            rw [show (x, S.owner e' != (dest : Int)).1 = x from rfl, this]
            exact hf e2 p2 e' _ (by simp [hz]) hm0 hpx
          · rw [show (x, S.owner e' != (dest : Int)).1 = x from rfl, h7 x, hR1]
            intro e2 p2 hz hpx
            by_contra hno
            exact hex ⟨e2, p2, hz, hpx, hno⟩
        · exact h6 e' p' hm hne
      · intro y hy
        have hyx : y ≠ x := by
          rintro rfl
          exact ho (hy e (y, S.owner e != (dest : Int)) (by simp) rfl)
        rw [h7 y fun e' p' hm hpy => hy e' p' (by simp [hm]) hpy, hR1' y hyx]

theorem putTags_append (o o' : List (El × Bool)) (d d' : List (Rec V)) (R : Side V)
    (h : (o.filter fun p => p.2).length = d.length) :
    putTags (o ++ o') (d ++ d') R = match putTags o d R with
      | none => none
      | some R1 => putTags o' d' R1 := by
  induction o generalizing d R with
  | nil =>
    cases d with
    | nil => rfl
    | cons r d => simp at h
  | cons p o ih =>
    obtain ⟨x, b⟩ := p
    cases b with
    | false => exact ih d R (by simpa using h)
    | true =>
      cases d with
      | nil => simp at h
      | cons r d => exact ih d _ (by simpa using h)

theorem putAll_eq {out : Nat → List (El × Bool)} {data : Nat → List (Rec V)} (R : Side V)
    (h : ∀ t, t < 4 → ((out t).filter fun p => p.2).length = (data t).length) :
    putAll out data R = putTags (out 0 ++ (out 1 ++ (out 2 ++ out 3))) (data 0 ++ (data 1 ++ (data 2 ++ data 3))) R := by
  rw [putTags_append _ _ _ _ _ (h 0 (by omega))]
  unfold putAll
  cases h0 : putTags (out 0) (data 0) R with
  | none => rfl
  | some R1 =>
    simp only
    rw [putTags_append _ _ _ _ _ (h 1 (by omega))]
    cases h1 : putTags (out 1) (data 1) R1 with
    | none => rfl
    | some R2 =>
      simp only
      rw [putTags_append _ _ _ _ _ (h 2 (by omega))]
      cases h2 : putTags (out 2) (data 2) R2 <;> rfl

theorem marked_length {S : Side V} {dest : Nat} {l : List El} {out : List (El × Bool)}
    (h : List.Forall₂ (fun e p => p.2 = (S.owner e != (dest : Int))) l out) :
    (out.filter fun p => p.2).length = (marks dest S l).length := by
  induction h with
  | nil => rfl
  | @cons e p l out hp _ ih =>
    simp only [marks, List.filter_cons, hp]
    cases (S.owner e != (dest : Int)) with
    | false => simpa [marks] using ih
    | true => simpa [marks] using ih

/-- All elements sent. -/
def allOf (sel : Nat → List El) : List El := sel 0 ++ (sel 1 ++ (sel 2 ++ sel 3))

theorem mem_allOf {sel : Nat → List El} {e : El} : e ∈ allOf sel ↔ ∃ t, t < 4 ∧ e ∈ sel t := by
  unfold allOf
  simp only [List.mem_append]
  constructor
  · rintro (h | h | h | h)
    exacts [⟨0, by omega, h⟩, ⟨1, by omega, h⟩, ⟨2, by omega, h⟩, ⟨3, by omega, h⟩]
  · rintro ⟨t, ht, h⟩
    rcases (by omega : t = 0 ∨ t = 1 ∨ t = 2 ∨ t = 3) with rfl | rfl | rfl | rfl <;> simp [h]

/-! ## The sender's state -/

theorem mem_addProc (q p : Nat) (l : List Nat) : q ∈ addProc p l ↔ q = p ∨ q ∈ l := by
  induction l with
  | nil => simp [addProc]
  | cons a l ih =>
    unfold addProc
    split
    · simp only [List.mem_cons, ih]
      exact ⟨fun h => by rcases h with h | h | h <;> simp [h], fun h => by rcases h with h | h | h <;> simp [h]⟩
    · split
      · next h => subst h; simp
      · simp

theorem addProc_sorted (p : Nat) (l : List Nat) (h : l.Pairwise (· < ·)) : (addProc p l).Pairwise (· < ·) := by
  induction l with
  | nil => simp [addProc]
  | cons a l ih =>
    unfold addProc
    rw [List.pairwise_cons] at h
    split
    · rw [List.pairwise_cons]
      refine ⟨fun q hq => ?_, ih h.2⟩
      rcases (mem_addProc q p l).1 hq with rfl | hq
      · assumption
      · exact h.1 q hq
    · split
      · exact List.pairwise_cons.2 h
      · refine List.pairwise_cons.2 ⟨fun q hq => ?_, List.pairwise_cons.2 h⟩
        rcases List.mem_cons.1 hq with rfl | hq
        · omega
        · have := h.1 q hq; omega

theorem addProc_same {p : Nat} {l : List Nat} (h : l.Pairwise (· < ·)) (hp : p ∈ l) : addProc p l = l := by
  induction l with
  | nil => cases hp
  | cons a l ih =>
    unfold addProc
    rw [List.pairwise_cons] at h
    rcases List.mem_cons.1 hp with rfl | hp
    · simp
    · rw [if_pos (h.1 p hp), ih h.2 hp]

theorem touch_sorted (me dest : Nat) (l : List El) (S : Side V) (e : El) (h : (S.procs e).Pairwise (· < ·)) :
    ((l.foldl (touch me dest) S).procs e).Pairwise (· < ·) := by
  induction l generalizing S with
  | nil => exact h
  | cons x l ih =>
    refine ih _ ?_
    unfold touch
    split
    · by_cases hx : e = x
      · subst hx; simp only [set1_same]; exact addProc_sorted _ _ h
      · simp only [set1_ne _ _ hx]; exact h
    · exact h

theorem touch_fold (me dest : Nat) (l : List El) (S : Side V) :
    let S' := l.foldl (touch me dest) S
    S'.T = S.T ∧ S'.num = S.num ∧ S'.owner = S.owner ∧ S'.val = S.val ∧ S'.sh = S.sh ∧ S'.gh = S.gh ∧
      (∀ e, ¬ (e ∈ l ∧ S.owner e = (me : Int)) → S'.procs e = S.procs e ∧ S'.status e = S.status e) ∧
      ∀ e ∈ l, S.owner e = (me : Int) → S'.status e = .shared ∧
        ∀ q, q ∈ S'.procs e ↔ q = dest ∨ q ∈ S.procs e := by
  have hadd := mem_addProc
  induction l generalizing S with
  | nil => exact ⟨rfl, rfl, rfl, rfl, rfl, rfl, fun _ _ => ⟨rfl, rfl⟩, by simp⟩
  | cons x l ih =>
    obtain ⟨a1, a2, a3, a4, a5, a6, a7, a8⟩ := ih (touch me dest S x)
    by_cases ho : S.owner x = (me : Int)
    · have ht : touch me dest S x = { S with
          procs := set1 S.procs x (addProc dest (S.procs x)), status := set1 S.status x .shared } := if_pos ho
      rw [ht] at a1 a2 a3 a4 a5 a6 a7 a8
      simp only [List.foldl_cons, ht]
      refine ⟨a1, a2, a3, a4, a5, a6, ?_, ?_⟩
      · intro e he
        have hx : e ≠ x := by rintro rfl; exact he ⟨by simp, ho⟩
        obtain ⟨b1, b2⟩ := a7 e fun h => he ⟨by simp [h.1], h.2⟩
        exact ⟨b1.trans (set1_ne _ _ hx), b2.trans (set1_ne _ _ hx)⟩
      · intro e he hoe
        by_cases hl : e ∈ l
        · obtain ⟨b1, b2⟩ := a8 e hl hoe
          refine ⟨b1, fun q => ?_⟩
          rw [b2]
          by_cases hx : e = x
          · subst hx; simp only [set1_same, hadd]
            exact ⟨fun h => by rcases h with h | h | h <;> simp [h], fun h => by rcases h with h | h <;> simp [h]⟩
          · simp only [set1_ne _ _ hx]
        · have hx : e = x := by rcases List.mem_cons.1 he with h | h; exacts [h, absurd h hl]
          subst hx
          obtain ⟨b1, b2⟩ := a7 e fun h => hl h.1
          exact ⟨b2.trans (set1_same _ _ _), fun q => by rw [b1]; simp only [set1_same, hadd]⟩
    · have ht : touch me dest S x = S := if_neg ho
      rw [ht] at a1 a2 a3 a4 a5 a6 a7 a8
      simp only [List.foldl_cons, ht]
      refine ⟨a1, a2, a3, a4, a5, a6, ?_, ?_⟩
      · intro e he; exact a7 e fun h => he ⟨by simp [h.1], h.2⟩
      · intro e he hoe
        have hx : e ≠ x := by rintro rfl; exact ho hoe
        exact a8 e (by rcases List.mem_cons.1 he with h | h; exacts [absurd h hx, h]) hoe

end Verif.Transfer
