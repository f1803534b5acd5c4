import Verif.Transfer.Rounds

/-! # Lemmas: the messages of the first round -/

namespace Verif.Transfer

open Verif.Topology

variable {V : Type} {n : Nat} {cn : Bool} {G : Whole} {W : Nat → Side V} {byNum : Nat → Bool} {pick : Topo → Nat → Nat}

/-- Processor `p` after the elements of `done` have been packed. -/
structure Packing (n : Nat) (A : Side V) (p : Nat) (byNum : Nat → Bool) (done : List (Nat × (Nat → List El))) (S : Side V) :
    Prop where
  like : Like A S
  rest : ∀ e, ¬ (A.T.alive e = true ∧ A.owner e = (p : Int)) → S.procs e = A.procs e
  own : ∀ e, A.T.alive e = true → A.owner e = (p : Int) → ∀ r, r ∈ S.procs e ↔ r ∈ A.procs e ∨
    ∃ sel, (r, sel) ∈ done ∧ e ∈ gather A byNum r sel e.ty
  ok : OwnOk n p S

/-- The message `M` for `q` contains the elements gathered for `sel`; `S1` is the sender after all messages. -/
def Mail (A : Side V) (p q : Nat) (byNum : Nat → Bool) (sel : Nat → List El) (M : Msg V) (S1 : Side V) : Prop :=
  ∃ S S', Like A S ∧ (∀ e, S.known byNum q e = A.known byNum q e) ∧
    pack p q byNum true (gather A byNum q sel) S = some (S', M) ∧
    (∀ e, A.T.alive e = true → A.owner e ≠ (p : Int) → S.procs e = A.procs e) ∧
    ∀ e, ∀ r ∈ S'.procs e, r ∈ S1.procs e

/-- Sending keeps statuses and lists of own elements right. -/
theorem ownOk_given {p q : Nat} {S S' : Side V} {sel : Nat → List El} (h : OwnOk n p S) (hg : Given S S' p q sel) (hq : q < n)
    (hne : q ≠ p) : OwnOk n p S' := by
  obtain ⟨hT, -, hO, -⟩ := hg.same
  refine ⟨?_, ?_, ?_, ?_⟩
  · intro e he ho
    rw [hT] at he; rw [hO] at ho
    exact hg.sorted e (h.sorted e he ho)
  · intro e he ho r hr
    rw [hT] at he; rw [hO] at ho
    by_cases hs : ∃ t, t < 4 ∧ e ∈ sel t
    · obtain ⟨t, ht, hs⟩ := hs
      rcases ((hg.own t ht e hs ho).2 r).1 hr with rfl | hr
      · exact hq
      · exact h.range e he ho r hr
    · rw [(hg.rest e fun _ t ht hs' => hs ⟨t, ht, hs'⟩).1] at hr
      exact h.range e he ho r hr
  · intro e he ho
    rw [hT] at he; rw [hO] at ho
    by_cases hs : ∃ t, t < 4 ∧ e ∈ sel t
    · obtain ⟨t, ht, hs⟩ := hs
      obtain ⟨h1, h2⟩ := hg.own t ht e hs ho
      exact Or.inl ⟨h1, q, (h2 q).2 (Or.inl rfl), hne⟩
    · obtain ⟨h1, h2⟩ := hg.rest e fun _ t ht hs' => hs ⟨t, ht, hs'⟩
      rw [h1, h2]; exact h.status e he ho
  · intro e he ho
    rw [hT] at he; rw [hO] at ho
    rw [(hg.rest e fun h => absurd h ho).2]
    exact h.ghost e he ho

theorem packAll_ok (ok : G.Ok) (H : Spread n cn G W) (fresh : Fresh cn pick) {p : Nat} (hp : p < n) :
    ∀ (boxes done : List (Nat × (Nat → List El))) (S : Side V), Packing n (W p) p byNum done S →
      ((done ++ boxes).map Prod.fst).Nodup →
      (∀ b ∈ boxes, b.1 < n ∧ b.1 ≠ p ∧ ∀ t, ∀ e ∈ b.2 t, (W p).T.alive e = true ∧ e.ty = t) →
      ∃ S' ms, packAll p byNum true boxes S = some (S', ms) ∧ Packing n (W p) p byNum (done ++ boxes) S' ∧
        (∀ e, ∀ r ∈ S.procs e, r ∈ S'.procs e) ∧
        (∀ m ∈ ms, ∃ sel, (m.1, sel) ∈ boxes ∧ Mail (W p) p m.1 byNum sel m.2 S') ∧
        ∀ b ∈ boxes, ∃ M, (b.1, M) ∈ ms := by
  intro boxes
  induction boxes with
  | nil =>
    intro done S hP _ _
    exact ⟨S, [], rfl, by simpa using hP, fun _ _ h => h, by simp, by simp⟩
  | cons b boxes ih =>
    obtain ⟨q, sel⟩ := b
    intro done S hP hnd hb
    obtain ⟨hq, hqp, hl⟩ := hb (q, sel) (by simp)
    have hqd : ∀ sel', (q, sel') ∉ done := by
      intro sel' hm
      rw [List.map_append, List.nodup_append] at hnd
      exact hnd.2.2 q (List.mem_map_of_mem (f := Prod.fst) hm) q (by simp) rfl
    have hproc : ∀ e, q ∈ S.procs e ↔ q ∈ (W p).procs e := by
      intro e
      by_cases he : (W p).T.alive e = true ∧ (W p).owner e = (p : Int)
      · rw [hP.own e he.1 he.2]
        exact ⟨fun h => by rcases h with h | ⟨s, hs, -⟩; exacts [h, absurd hs (hqd s)], Or.inl⟩
      · rw [hP.rest e he]
    have hknown : ∀ e, S.known byNum q e = (W p).known byNum q e := by
      intro e
      unfold Side.known
      congr 1
      rw [Bool.eq_iff_iff, List.contains_iff_mem, List.contains_iff_mem]
      exact hproc e
    have hga : gather S byNum q sel = gather (W p) byNum q sel := gather_congr hP.like.T hknown
    have hmem : ∀ t, ∀ e ∈ gather (W p) byNum q sel t, (W p).T.alive e = true ∧ e.ty = t :=
      fun t e he => (gather_part (H.piece p hp) hl t e he).2
    have c := ctx_of (byNum := byNum) ok H fresh hp hq (Ne.symm hqp) hP.like (fun e _ => hknown e) (H.piece q hq)
      (Like.rfl' (W q)).more hl
    obtain ⟨M, hpk, -⟩ := pack_ok c true
    have hg := given_ok p q (gather (W p) byNum q sel) S
    generalize (allOf (gather (W p) byNum q sel)).foldl (touch p q) S = S1 at hpk hg
    obtain ⟨g1, g2, g3, g4, g5, g6⟩ := hg.same
    have hlike : Like (W p) S1 := hP.like.trans ⟨g1, g2, g3, g4, g5, g6⟩
    have hmono1 : ∀ e, ∀ r ∈ S.procs e, r ∈ S1.procs e := by
      intro e r hr
      by_cases hs : S.owner e = (p : Int) ∧ ∃ t, t < 4 ∧ e ∈ gather (W p) byNum q sel t
      · obtain ⟨ho, t, ht, hs⟩ := hs
        exact ((hg.own t ht e hs ho).2 r).2 (Or.inr hr)
      · rw [(hg.rest e fun ho t ht hs' => hs ⟨ho, t, ht, hs'⟩).1]; exact hr
    have hP1 : Packing n (W p) p byNum (done ++ [(q, sel)]) S1 := by
      refine ⟨hlike, ?_, ?_, ownOk_given hP.ok hg hq hqp⟩
      · intro e he
        rw [(hg.rest e ?_).1]
        · exact hP.rest e he
        · intro ho t _ het
          rw [hP.like.owner] at ho
          exact he ⟨(hmem t e het).1, ho⟩
      · intro e he ho r
        have ho' : S.owner e = (p : Int) := by rw [hP.like.owner]; exact ho
        by_cases hs : e ∈ gather (W p) byNum q sel e.ty
        · have h4 : e.ty < 4 := Nat.lt_of_le_of_lt (tyLe (H.piece p hp).reach he) (by omega)
          rw [(hg.own e.ty h4 e hs ho').2 r, hP.own e he ho r]
          constructor
          · rintro (rfl | h | ⟨s, h1, h2⟩)
            · exact Or.inr ⟨sel, by simp, hs⟩
            · exact Or.inl h
            · exact Or.inr ⟨s, by simp [h1], h2⟩
          · rintro (h | ⟨s, h1, h2⟩)
            · exact Or.inr (Or.inl h)
            · rw [List.mem_append, List.mem_singleton] at h1
              rcases h1 with h1 | h1
              · exact Or.inr (Or.inr ⟨s, h1, h2⟩)
              · exact Or.inl (congrArg Prod.fst h1)
        · rw [(hg.rest e ?_).1, hP.own e he ho r]
          · constructor
            · rintro (h | ⟨s, h1, h2⟩)
              · exact Or.inl h
              · exact Or.inr ⟨s, by simp [h1], h2⟩
            · rintro (h | ⟨s, h1, h2⟩)
              · exact Or.inl h
              · rw [List.mem_append, List.mem_singleton] at h1
                rcases h1 with h1 | h1
                · exact Or.inr ⟨s, h1, h2⟩
                · cases h1; exact absurd h2 hs
          · intro _ t _ het
            have := (hmem t e het).2
            rw [this] at hs
            exact hs het
    obtain ⟨S', ms, k1, k2, k3, k4, k5⟩ := ih (done ++ [(q, sel)]) S1 hP1 (by simpa using hnd)
      (fun b hb' => hb b (by simp [hb']))
    refine ⟨S', (q, M) :: ms, ?_, by simpa using k2, fun e r hr => k3 e r (hmono1 e r hr), ?_, ?_⟩
    · simp only [packAll, hga, hpk, k1]
    · intro m hm
      rcases List.mem_cons.1 hm with rfl | hm
      · refine ⟨sel, by simp, S, S1, hP.like, hknown, hpk, ?_, k3⟩
        intro e _ ho
        exact hP.rest e fun h => ho h.2
      · obtain ⟨s, h1, h2⟩ := k4 m hm
        exact ⟨s, by simp [h1], h2⟩
    · intro b hb'
      rcases List.mem_cons.1 hb' with rfl | hb'
      · exact ⟨M, by simp⟩
      · obtain ⟨M', h⟩ := k5 b hb'
        exact ⟨M', by simp [h]⟩

theorem mem_outbox {me q : Nat} {S : Side V} {sendto : El → List Nat} {sel : Nat → List El} :
    (q, sel) ∈ outbox n me S sendto ↔ q < n ∧ q ≠ me ∧ (∃ t, t < 4 ∧ chosen S sendto q t ≠ []) ∧ sel = chosen S sendto q := by
  unfold outbox
  simp only [List.mem_map, List.mem_filter, List.mem_range, Bool.and_eq_true, bne_iff_ne, ne_eq, List.any_eq_true,
    Bool.not_eq_true', Prod.mk.injEq]
  constructor
  · rintro ⟨a, ⟨h1, h2, t, h3, h4⟩, rfl, rfl⟩
    exact ⟨h1, h2, ⟨t, h3, by intro h; rw [h] at h4; cases h4⟩, rfl⟩
  · rintro ⟨h1, h2, ⟨t, h3, h4⟩, rfl⟩
    exact ⟨q, ⟨h1, h2, t, h3, by simpa using h4⟩, rfl, rfl⟩

theorem nodup_outbox (me : Nat) (S : Side V) (sendto : El → List Nat) : ((outbox n me S sendto).map Prod.fst).Nodup := by
  unfold outbox
  rw [List.map_map]
  have : (Prod.fst ∘ fun q => (q, chosen S sendto q)) = id := rfl
  rw [this, List.map_id]
  exact List.nodup_range.filter _

theorem sendtoOk_of {S : Side V} (r : Reach cn S.T) {sendto : El → List Nat} (h : Marked n S sendto) :
    sendtoOk n S sendto = true := by
  unfold sendtoOk
  simp only [List.all_eq_true, decide_eq_true_eq]
  intro t _ e he k hk
  exact h.range e ((mem_elemsOf r t e).1 he).1 k hk

/-- The first part on processor `p`. -/
theorem sendMarked_ok (ok : G.Ok) (H : Spread n cn G W) (fresh : Fresh cn pick) {p : Nat} (hp : p < n)
    {sendto : El → List Nat} (hm : Marked n (W p) sendto) :
    ∃ S' ms, sendMarked n p byNum sendto (W p) = some (S', ms) ∧ Packing n (W p) p byNum (outbox n p (W p) sendto) S' ∧
      (∀ e, ∀ r ∈ (W p).procs e, r ∈ S'.procs e) ∧
      (∀ m ∈ ms, m.1 < n ∧ m.1 ≠ p ∧ Mail (W p) p m.1 byNum (chosen (W p) sendto m.1) m.2 S') ∧
      ∀ q, q < n → q ≠ p → (∃ t, t < 4 ∧ chosen (W p) sendto q t ≠ []) → ∃ M, (q, M) ∈ ms := by
  have hr := (H.piece p hp).reach
  obtain ⟨S', ms, h1, h2, h3, h4, h5⟩ := packAll_ok (byNum := byNum) ok H fresh hp (outbox n p (W p) sendto) [] (W p)
    ⟨Like.rfl' _, fun _ _ => rfl, fun e _ _ r => by simp, H.ownOk hp⟩ (by simpa using nodup_outbox p (W p) sendto) (by
      rintro ⟨q, sel⟩ hb
      obtain ⟨a, b, -, rfl⟩ := mem_outbox.1 hb
      exact ⟨a, b, fun t e he => by have := (mem_chosen hr sendto q t e).1 he; exact ⟨this.1, this.2.1⟩⟩)
  refine ⟨S', ms, ?_, by simpa using h2, h3, ?_, ?_⟩
  · unfold sendMarked
    rw [sendtoOk_of hr hm, if_pos rfl, h1]
  · intro m hm'
    obtain ⟨sel, a, b⟩ := h4 m hm'
    obtain ⟨c1, c2, -, rfl⟩ := mem_outbox.1 a
    exact ⟨c1, c2, b⟩
  · intro q hq hqp hc
    exact h5 (q, chosen (W p) sendto q) (mem_outbox.2 ⟨hq, hqp, hc, rfl⟩)

end Verif.Transfer
