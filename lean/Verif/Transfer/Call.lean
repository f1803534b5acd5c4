import Mathlib.Tactic.Choose
import Verif.Transfer.Final

/-! # Lemmas: the whole call -/

namespace Verif.Transfer

open Verif.Topology

variable {V : Type} {n : Nat} {cn : Bool} {G : Whole} {W : Nat → Side V} {byNum : Nat → Bool} {pick : Topo → Nat → Nat}
  {sendto : Nat → El → List Nat}

theorem mem_mail {box : Nat → List (Nat × Msg V)} {q : Nat} {m : Nat × Msg V} :
    m ∈ mail n box q ↔ m.1 < n ∧ (q, m.2) ∈ box m.1 := by
  unfold mail
  simp only [List.mem_flatMap, List.mem_range, List.mem_map, List.mem_filter, beq_iff_eq]
  constructor
  · rintro ⟨p, hp, ⟨a, M⟩, ⟨h1, rfl⟩, rfl⟩; exact ⟨hp, h1⟩
  · rintro ⟨h1, h2⟩; exact ⟨m.1, h1, (q, m.2), ⟨h2, rfl⟩, rfl⟩

/-- The processors after the first part, and their messages. -/
structure First (n : Nat) (W : Nat → Side V) (byNum : Nat → Bool) (sendto : Nat → El → List Nat) (S1 : Nat → Side V)
    (box : Nat → List (Nat × Msg V)) : Prop where
  pk : ∀ p, p < n → Packing n (W p) p byNum (outbox n p (W p) (sendto p)) (S1 p)
  mono : ∀ p, p < n → ∀ e, ∀ r ∈ (W p).procs e, r ∈ (S1 p).procs e
  mail : ∀ p, p < n → ∀ m ∈ box p, m.1 < n ∧ m.1 ≠ p ∧ Mail (W p) p m.1 byNum (chosen (W p) (sendto p) m.1) m.2 (S1 p)
  all : ∀ p, p < n → ∀ q, q < n → q ≠ p → (∃ t, t < 4 ∧ chosen (W p) (sendto p) q t ≠ []) → ∃ M, (q, M) ∈ box p

theorem first_exists (ok : G.Ok) (H : Spread n cn G W) (fresh : Fresh cn pick) (hm : ∀ p, p < n → Marked n (W p) (sendto p)) :
    ∃ S1 box, (∀ p, p < n → sendMarked n p byNum (sendto p) (W p) = some (S1 p, box p)) ∧
      First n W byNum sendto S1 box := by
  have : ∀ p, ∃ S' ms, p < n → sendMarked n p byNum (sendto p) (W p) = some (S', ms) ∧
      Packing n (W p) p byNum (outbox n p (W p) (sendto p)) S' ∧ (∀ e, ∀ r ∈ (W p).procs e, r ∈ S'.procs e) ∧
      (∀ m ∈ ms, m.1 < n ∧ m.1 ≠ p ∧ Mail (W p) p m.1 byNum (chosen (W p) (sendto p) m.1) m.2 S') ∧
      ∀ q, q < n → q ≠ p → (∃ t, t < 4 ∧ chosen (W p) (sendto p) q t ≠ []) → ∃ M, (q, M) ∈ ms := by
    intro p
    by_cases hp : p < n
    · obtain ⟨S', ms, h⟩ := sendMarked_ok (byNum := byNum) ok H fresh hp (hm p hp)
      exact ⟨S', ms, fun _ => h⟩
    · exact ⟨W p, [], fun h => absurd h hp⟩
  choose S1 box h using this
  exact ⟨S1, box, fun p hp => (h p hp).1, fun p hp => (h p hp).2.1, fun p hp => (h p hp).2.2.1, fun p hp => (h p hp).2.2.2.1,
    fun p hp => (h p hp).2.2.2.2⟩

theorem first_of (ok : G.Ok) (H : Spread n cn G W) (fresh : Fresh cn pick) (hm : ∀ p, p < n → Marked n (W p) (sendto p))
    {S1 : Nat → Side V} {box : Nat → List (Nat × Msg V)}
    (h : ∀ p, p < n → sendMarked n p byNum (sendto p) (W p) = some (S1 p, box p)) : First n W byNum sendto S1 box := by
  obtain ⟨S, b, h1, h2⟩ := first_exists (byNum := byNum) ok H fresh hm
  have : ∀ p, p < n → S p = S1 p ∧ b p = box p := by
    intro p hp
    have := (h1 p hp).symm.trans (h p hp)
    simpa using this
  refine ⟨fun p hp => ?_, fun p hp => ?_, fun p hp => ?_, fun p hp => ?_⟩
  · rw [← (this p hp).1]; exact h2.pk p hp
  · rw [← (this p hp).1]; exact h2.mono p hp
  · rw [← (this p hp).1, ← (this p hp).2]; exact h2.mail p hp
  · rw [← (this p hp).2]; exact h2.all p hp

/-- The processors after the first round. -/
structure Second (n : Nat) (cn : Bool) (G : Whole) (W : Nat → Side V) (byNum : Nat → Bool) (sendto : Nat → El → List Nat)
    (S1 B : Nat → Side V) (told : Nat → List (Int × El)) : Prop where
  taking : ∀ q, q < n → Taking n cn G W S1 sendto q (B q) (told q)
  sent : ∀ p q, p < n → q < n → ∀ sel, (q, sel) ∈ outbox n p (W p) (sendto p) →
    ∀ g, Among (W p) (gather (W p) byNum q sel) g → Has (B q) g
  has : ∀ q, q < n → ∀ g, Has (B q) g ↔ Has (W q) g ∨ Wanted n cn G W sendto q g

theorem taking_start (H : Spread n cn G W) {S1 : Nat → Side V} {box : Nat → List (Nat × Msg V)}
    (F : First n W byNum sendto S1 box) {q : Nat} (hq : q < n) : Taking n cn G W S1 sendto q (S1 q) [] := by
  have P := F.pk q hq
  refine ⟨P.like.piece (H.piece q hq), P.like.more, P.ok, ?_, ?_, by simp, ?_, ?_⟩
  · intro x hx _; rw [P.like.T] at hx; exact ⟨hx, rfl⟩
  · intro x hx; rw [P.like.T] at hx; exact Or.inl hx
  · intro x hx hx'; rw [P.like.T] at hx; rw [hx] at hx'; cases hx'
  · intro f hf x hx; rw [P.like.T] at hx; rw [P.like.val, P.like.num]; exact hf q hq x hx

theorem second_one (ok : G.Ok) (H : Spread n cn G W) (fresh : Fresh cn pick) (dup : Bool)
    (hm : ∀ p, p < n → Marked n (W p) (sendto p)) {S1 : Nat → Side V} {box order : Nat → List (Nat × Msg V)}
    (F : First n W byNum sendto S1 box) {q : Nat} (hq : q < n) (ho : (order q).Perm (mail n box q)) :
    ∃ R told, takeMarked q dup pick (order q) (S1 q, []) = some (R, told) ∧ Taking n cn G W S1 sendto q R told ∧
      (∀ p, p < n → ∀ sel, (q, sel) ∈ outbox n p (W p) (sendto p) →
        ∀ g, Among (W p) (gather (W p) byNum q sel) g → Has R g) ∧
      ∀ g, Has R g ↔ Has (W q) g ∨ Wanted n cn G W sendto q g := by
  obtain ⟨R, told, h1, h2, h3, h4⟩ := take_all (byNum := byNum) ok H fresh dup hq (fun p hp => (hm p hp).once) (order q)
    (fun m hmm => by
      obtain ⟨a, b⟩ := mem_mail.1 (ho.mem_iff.1 hmm)
      obtain ⟨-, c, d⟩ := F.mail m.1 a _ b
      exact ⟨a, Ne.symm c, d⟩) (S1 q) [] (taking_start H F hq)
  have hkW : Kept (W q) R := h2.more.kept
  have hsent : ∀ p, p < n → ∀ sel, (q, sel) ∈ outbox n p (W p) (sendto p) →
        ∀ g, Among (W p) (gather (W p) byNum q sel) g → Has R g := by
    intro p hp sel hs g hg
    obtain ⟨-, c1, c2, rfl⟩ := mem_outbox.1 hs
    obtain ⟨M, hM⟩ := F.all p hp q hq c1 c2
    exact h4 (p, M) (ho.mem_iff.2 (mem_mail.2 ⟨hp, hM⟩)) g hg
  refine ⟨R, told, h1, h2, hsent, fun g => ⟨?_, ?_⟩⟩
  · rintro ⟨x, hx, rfl⟩
    rcases h2.new x hx with h | h
    · left; exact ⟨x, h, (hkW.name h).symm⟩
    · exact Or.inr h
  · rintro (h | ⟨p, hp, hne, e, he, hqe, hpt⟩)
    · exact hkW.has h
    · have PW := H.piece p hp
      have hl : ∀ t, ∀ e ∈ chosen (W p) (sendto p) q t, (W p).T.alive e = true ∧ e.ty = t := fun t e he => by
        have := (mem_chosen PW.reach (sendto p) q t e).1 he; exact ⟨this.1, this.2.1⟩
      have hec : e ∈ chosen (W p) (sendto p) q e.ty := (mem_chosen PW.reach _ _ _ _).2 ⟨he, rfl, hqe⟩
      have hob : (q, chosen (W p) (sendto p) q) ∈ outbox n p (W p) (sendto p) := by
        refine mem_outbox.2 ⟨hq, Ne.symm hne, ⟨e.ty, ?_, ?_⟩, rfl⟩
        · have := tyLe PW.reach he; omega
        · intro h; rw [h] at hec; cases hec
      rcases part_gather (byNum := byNum) (q := q) PW hl (K := Has (W q)) (fun x hx hk => by
          unfold Side.known at hk
          rw [Bool.and_eq_true] at hk
          exact ((H.procs p hp x hx q).1 (List.contains_iff_mem.1 hk.2)).2)
        (fun _ _ => part_has (H.piece q hq)) hec hpt with h | ⟨s, hs, x, hx, hxn⟩
      · exact hkW.has h
      · exact hsent p hp _ hob g ⟨s, hs, x, hx, hxn⟩

theorem second_exists (ok : G.Ok) (H : Spread n cn G W) (fresh : Fresh cn pick) (dup : Bool)
    (hm : ∀ p, p < n → Marked n (W p) (sendto p)) {S1 : Nat → Side V} {box order : Nat → List (Nat × Msg V)}
    (F : First n W byNum sendto S1 box) (ho : ∀ q, q < n → (order q).Perm (mail n box q)) :
    ∃ B told, (∀ q, q < n → takeMarked q dup pick (order q) (S1 q, []) = some (B q, told q)) ∧
      Second n cn G W byNum sendto S1 B told := by
  have : ∀ q, ∃ R told, q < n → takeMarked q dup pick (order q) (S1 q, []) = some (R, told) ∧
      Taking n cn G W S1 sendto q R told ∧
      (∀ p, p < n → ∀ sel, (q, sel) ∈ outbox n p (W p) (sendto p) →
        ∀ g, Among (W p) (gather (W p) byNum q sel) g → Has R g) ∧
      ∀ g, Has R g ↔ Has (W q) g ∨ Wanted n cn G W sendto q g := by
    intro q
    by_cases hq : q < n
    · obtain ⟨R, told, h⟩ := second_one ok H fresh dup hm F hq (ho q hq)
      exact ⟨R, told, fun _ => h⟩
    · exact ⟨W q, [], fun h => absurd h hq⟩
  choose B told h using this
  exact ⟨B, told, fun q hq => (h q hq).1, fun q hq => (h q hq).2.1, fun p q hp hq => (h q hq).2.2.1 p hp,
    fun q hq => (h q hq).2.2.2⟩

theorem second_of (ok : G.Ok) (H : Spread n cn G W) (fresh : Fresh cn pick) {dup : Bool}
    (hm : ∀ p, p < n → Marked n (W p) (sendto p)) {S1 B : Nat → Side V} {box order : Nat → List (Nat × Msg V)}
    {told : Nat → List (Int × El)} (F : First n W byNum sendto S1 box) (ho : ∀ q, q < n → (order q).Perm (mail n box q))
    (h : ∀ q, q < n → takeMarked q dup pick (order q) (S1 q, []) = some (B q, told q)) :
    Second n cn G W byNum sendto S1 B told := by
  obtain ⟨B', t', h1, h2⟩ := second_exists ok H fresh dup hm F ho
  have : ∀ p, p < n → B' p = B p ∧ t' p = told p := by
    intro p hp
    have := (h1 p hp).symm.trans (h p hp)
    simpa using this
  refine ⟨fun q hq => ?_, fun p q hp hq => ?_, fun q hq => ?_⟩
  · rw [← (this q hq).1, ← (this q hq).2]; exact h2.taking q hq
  · rw [← (this q hq).1]; exact h2.sent p q hp hq
  · rw [← (this q hq).1]; exact h2.has q hq

/-- The messages of the second round. -/
structure Third (n : Nat) (B : Nat → Side V) (told : Nat → List (Int × El)) (S2 : Nat → Side V)
    (box : Nat → List (Nat × Msg V)) : Prop where
  same : ∀ p, p < n → S2 p = B p
  mail : ∀ p, p < n → ∀ m ∈ box p, m.1 < n ∧ m.1 ≠ p ∧
    pack p m.1 (fun _ => false) false (gather (B p) (fun _ => false) m.1 (toldSel (told p) m.1)) (B p) = some (B p, m.2)
  all : ∀ p, p < n → ∀ o x, ((o : Nat) : Int) ≠ (p : Int) → ((o : Int), x) ∈ told p → ∃ M, (o, M) ∈ box p

theorem third_exists (ok : G.Ok) (H : Spread n cn G W) (fresh : Fresh cn pick) {S1 B : Nat → Side V}
    {box : Nat → List (Nat × Msg V)} {told : Nat → List (Int × El)} (F : First n W byNum sendto S1 box)
    (K : Second n cn G W byNum sendto S1 B told) :
    ∃ box', (∀ p, p < n → sendInform n p (told p) (B p) = some (B p, box' p)) ∧ Third n B told B box' := by
  have : ∀ p, ∃ ms, p < n → sendInform n p (told p) (B p) = some (B p, ms) ∧
      (∀ m ∈ ms, m.1 < n ∧ m.1 ≠ p ∧
        pack p m.1 (fun _ => false) false (gather (B p) (fun _ => false) m.1 (toldSel (told p) m.1)) (B p) =
          some (B p, m.2)) ∧
      ∀ o x, ((o : Nat) : Int) ≠ (p : Int) → ((o : Int), x) ∈ told p → ∃ M, (o, M) ∈ ms := by
    intro p
    by_cases hp : p < n
    · obtain ⟨ms, h⟩ := sendInform_ok ok H fresh hp (K.taking p hp) (F.mono p hp)
      exact ⟨ms, fun _ => h⟩
    · exact ⟨[], fun h => absurd h hp⟩
  choose ms h using this
  exact ⟨ms, fun p hp => (h p hp).1, fun _ _ => rfl, fun p hp => (h p hp).2.1, fun p hp => (h p hp).2.2⟩

theorem third_of (ok : G.Ok) (H : Spread n cn G W) (fresh : Fresh cn pick) {S1 B S2 : Nat → Side V}
    {box box' : Nat → List (Nat × Msg V)} {told : Nat → List (Int × El)} (F : First n W byNum sendto S1 box)
    (K : Second n cn G W byNum sendto S1 B told) (h : ∀ p, p < n → sendInform n p (told p) (B p) = some (S2 p, box' p)) :
    Third n B told S2 box' := by
  obtain ⟨b, h1, h2⟩ := third_exists ok H fresh F K
  have : ∀ p, p < n → B p = S2 p ∧ b p = box' p := by
    intro p hp
    have := (h1 p hp).symm.trans (h p hp)
    simpa using this
  refine ⟨fun p hp => (this p hp).1.symm, fun p hp => ?_, fun p hp => ?_⟩
  · rw [← (this p hp).2]; exact h2.mail p hp
  · rw [← (this p hp).2]; exact h2.all p hp

theorem fourth_one (ok : G.Ok) (H : Spread n cn G W) (fresh : Fresh cn pick) (dup : Bool) {S1 B S2 : Nat → Side V}
    {box' order' : Nat → List (Nat × Msg V)} {told : Nat → List (Int × El)}
    (K : Second n cn G W byNum sendto S1 B told) (T : Third n B told S2 box') {o : Nat} (hoN : o < n)
    (ho : (order' o).Perm (mail n box' o)) :
    ∃ R, takeInform o dup pick (order' o) (S2 o) = some R ∧ Informed n B o R ∧
      ∀ q, q < n → q ≠ o → ∀ x, ((o : Int), x) ∈ told q → ∀ e, (B o).T.alive e = true →
          name (B o).num e = name (B q).num x → q ∈ R.procs e := by
  rw [T.same o hoN]
  obtain ⟨R, h1, h2, -, h4⟩ := inform_all (told := told) (B := B) ok H fresh dup hoN K.taking (order' o) (fun m hm => by
      obtain ⟨a, b⟩ := mem_mail.1 (ho.mem_iff.1 hm)
      obtain ⟨-, c, d⟩ := T.mail m.1 a _ b
      exact ⟨a, c, d⟩) (B o) ⟨Like.rfl' _, (K.taking o hoN).ok, fun _ _ h => h, fun _ _ _ _ h => Or.inl h⟩
  refine ⟨R, h1, h2, fun q hq hne x hx e he hn => ?_⟩
  obtain ⟨M, hM⟩ := T.all q hq o x (fun h => hne (by exact_mod_cast h.symm)) hx
  exact h4 (q, M) (ho.mem_iff.2 (mem_mail.2 ⟨hq, hM⟩)) x hx e he hn

/-- The processors after the second round. -/
structure Fourth (n : Nat) (B : Nat → Side V) (told : Nat → List (Int × El)) (D : Nat → Side V) : Prop where
  inf : ∀ o, o < n → Informed n B o (D o)
  heard : ∀ o, o < n → ∀ q, q < n → q ≠ o → ∀ x, ((o : Int), x) ∈ told q → ∀ e, (B o).T.alive e = true →
    name (B o).num e = name (B q).num x → q ∈ (D o).procs e

theorem fourth_exists (ok : G.Ok) (H : Spread n cn G W) (fresh : Fresh cn pick) (dup : Bool) {S1 B S2 : Nat → Side V}
    {box' order' : Nat → List (Nat × Msg V)} {told : Nat → List (Int × El)}
    (K : Second n cn G W byNum sendto S1 B told) (T : Third n B told S2 box')
    (ho : ∀ o, o < n → (order' o).Perm (mail n box' o)) :
    ∃ D, (∀ o, o < n → takeInform o dup pick (order' o) (S2 o) = some (D o)) ∧ Fourth n B told D := by
  have : ∀ o, ∃ R, o < n → takeInform o dup pick (order' o) (S2 o) = some R ∧ Informed n B o R ∧
      ∀ q, q < n → q ≠ o → ∀ x, ((o : Int), x) ∈ told q → ∀ e, (B o).T.alive e = true →
          name (B o).num e = name (B q).num x → q ∈ R.procs e := by
    intro o
    by_cases h : o < n
    · obtain ⟨R, k⟩ := fourth_one ok H fresh dup K T h (ho o h)
      exact ⟨R, fun _ => k⟩
    · exact ⟨W o, fun h' => absurd h' h⟩
  choose D h using this
  exact ⟨D, fun q hq => (h q hq).1, fun q hq => (h q hq).2.1, fun q hq => (h q hq).2.2⟩

theorem fourth_of (ok : G.Ok) (H : Spread n cn G W) (fresh : Fresh cn pick) {dup : Bool} {S1 B S2 D : Nat → Side V}
    {box' order' : Nat → List (Nat × Msg V)} {told : Nat → List (Int × El)}
    (K : Second n cn G W byNum sendto S1 B told) (T : Third n B told S2 box')
    (ho : ∀ o, o < n → (order' o).Perm (mail n box' o))
    (h : ∀ o, o < n → takeInform o dup pick (order' o) (S2 o) = some (D o)) : Fourth n B told D := by
  obtain ⟨D', h1, h2⟩ := fourth_exists ok H fresh dup K T ho
  have : ∀ p, p < n → D' p = D p := by
    intro p hp
    have := (h1 p hp).symm.trans (h p hp)
    simpa using this
  refine ⟨fun q hq => ?_, fun q hq => ?_⟩
  · rw [← this q hq]; exact h2.inf q hq
  · rw [← this q hq]; exact h2.heard q hq

theorem like_has {A S : Side V} (h : Like A S) (g : El) : Has S g ↔ Has A g := by
  unfold Has; rw [h.T, h.num]

/-- The owners know who has their elements. -/
theorem ready (ok : G.Ok) (H : Spread n cn G W) {S1 B D : Nat → Side V}
    {box : Nat → List (Nat × Msg V)} {told : Nat → List (Int × El)} (F : First n W byNum sendto S1 box)
    (K : Second n cn G W byNum sendto S1 B told) (Q : Fourth n B told D) : Ready n cn G D := by
  have hlk : ∀ p, p < n → Like (B p) (D p) := fun p hp => (Q.inf p hp).like
  have hkept : ∀ p, p < n → Kept (W p) (B p) := fun p hp => (K.taking p hp).more.kept
  refine ⟨fun p hp => (hlk p hp).piece (K.taking p hp).piece, fun p hp => (Q.inf p hp).ok, ?_, ?_⟩
  · intro o ho e he hoe r
    rw [(hlk o ho).T] at he
    rw [(hlk o ho).owner] at hoe
    rw [(hlk o ho).num]
    have TK := K.taking o ho
    obtain ⟨heW, hpr⟩ := TK.own e he hoe
    have hnm : name (B o).num e = name (W o).num e := (hkept o ho).name heW
    have hoW : (W o).owner e = (o : Int) := by rw [← ((hkept o ho).old e heW).2.2]; exact hoe
    constructor
    · intro hr
      rcases (Q.inf o ho).sound e he hoe r hr with h | ⟨h1, h2⟩
      · rw [hpr] at h
        rcases ((F.pk o ho).own e heW hoW r).1 h with h | ⟨sel, h1, h2⟩
        · obtain ⟨h1, h2⟩ := (H.procs o ho e heW r).1 h
          refine ⟨h1, ?_⟩
          rw [like_has (hlk r h1), hnm]
          exact (hkept r h1).has h2
        · have hrn := (mem_outbox.1 h1).1
          refine ⟨hrn, ?_⟩
          rw [like_has (hlk r hrn), hnm]
          refine K.sent o r ho hrn sel h1 _ ⟨e.ty, ?_, e, h2, rfl⟩
          have := tyLe (H.piece o ho).reach heW
          omega
      · exact ⟨h1, (like_has (hlk r h1) _).2 h2⟩
    · rintro ⟨hrn, hr⟩
      rw [like_has (hlk r hrn)] at hr
      have hold : Has (W r) (name (W o).num e) → r ∈ (D o).procs e := by
        intro h
        refine (Q.inf o ho).mono e r ?_
        rw [hpr]
        exact F.mono o ho e r ((H.procs o ho e heW r).2 ⟨hrn, h⟩)
      by_cases hro : r = o
      · subst hro; exact hold ⟨e, heW, rfl⟩
      · obtain ⟨x, hx, hxn⟩ := hr
        have TR := K.taking r hrn
        cases hxW : (W r).T.alive x with
        | true => exact hold ⟨x, hxW, by rw [← (hkept r hrn).name hxW, hxn, hnm]⟩
        | false =>
          have how : G.owner (name (B r).num x) = o := by
            have h1 := TK.piece.owner e he
            rw [hoe, ← hxn] at h1
            exact_mod_cast h1.symm
          rcases TR.tell x hx hxW with h | ⟨e0, h1, h2, h3⟩
          · rw [TR.piece.owner x hx, how] at h
            exact Q.heard o ho r hrn hro x h e he hxn.symm
          · rw [how] at h1 h2 h3
            have : e0 = e := (H.piece o ho).fits.inj e0 e h1 heW (by rw [h2, hxn, hnm])
            subst this
            refine (Q.inf o ho).mono e0 r ?_
            rw [hpr]; exact h3
  · intro p hp e he
    rw [(hlk p hp).T] at he
    rw [(hlk p hp).num]
    obtain ⟨h1, h2⟩ := (K.taking p hp).home H hp he
    exact ⟨h1, (like_has (hlk _ h1) _).2 ((hkept _ h1).has h2)⟩

/-- The last part: the result. -/
theorem spread_final {D E W' : Nat → Side V} (R : Ready n cn G D) {tr : List Parallel.Event} {S : Parallel.Sys Nat}
    (hE : ∀ p, p < n → recompute n p (D p) = some (E p))
    (hr : Parallel.Run (procsCall n) (fun p => view (E p)) tr S) (hd : Parallel.Done (procsCall n) S)
    (hW : ∀ p, p < n → W' p = setProcs (E p) (S.loc p)) :
    Spread n cn G W' ∧ ∀ p, p < n → (W' p).T = (D p).T ∧ (W' p).num = (D p).num ∧ (W' p).owner = (D p).owner ∧
      (W' p).val = (D p).val := by
  have hstore : ∀ p, p < n → (E p).T = (D p).T ∧ (E p).num = (D p).num ∧ (E p).owner = (D p).owner ∧
      (E p).val = (D p).val ∧ (E p).status = (D p).status ∧ (E p).procs = (D p).procs ∧
      (∀ q t, ((E p).sh q t).Pairwise (fun a b => (D p).num a < (D p).num b) ∧ ∀ x, x ∈ (E p).sh q t ↔
        (D p).T.alive x = true ∧ x.ty = t ∧ (D p).owner x = (p : Int) ∧ q ≠ p ∧ q ∈ (D p).procs x) ∧
      ∀ o t, ((E p).gh o t).Pairwise (fun a b => (D p).num a < (D p).num b) ∧ ∀ x, x ∈ (E p).gh o t ↔
        (D p).T.alive x = true ∧ x.ty = t ∧ (D p).owner x = o ∧ o ≠ (p : Int) := by
    intro p hp
    obtain ⟨E0, h1, h2⟩ := R.recompute hp
    rw [hE p hp, Option.some.injEq] at h1
    rw [h1]; exact h2
  have hhas : ∀ p, p < n → ∀ g, Has (E p) g ↔ Has (D p) g := by
    intro p hp g
    obtain ⟨a1, a2, -⟩ := hstore p hp
    unfold Has; rw [a1, a2]
  have RE : Ready n cn G E := by
    refine ⟨fun p hp => ?_, fun p hp => ?_, fun p hp => ?_, fun p hp => ?_⟩ <;>
      obtain ⟨a1, a2, a3, a4, a5, a6, -⟩ := hstore p hp
    · have P := R.piece p hp
      exact ⟨by rw [a1]; exact P.reach, by rw [a1]; exact P.plain, by rw [a1, a2]; exact P.fits,
        by rw [a1, a2, a3]; exact P.owner⟩
    · have O := R.ok p hp
      exact ⟨by rw [a1, a3, a6]; exact O.sorted, by rw [a1, a3, a6]; exact O.range, by rw [a1, a3, a5, a6]; exact O.status,
        by rw [a1, a3, a5]; exact O.ghost⟩
    · intro e he ho r
      rw [a1] at he
      rw [a3] at ho
      rw [a6, a2, R.procs p hp e he ho]
      exact ⟨fun ⟨h, k⟩ => ⟨h, (hhas r h _).2 k⟩, fun ⟨h, k⟩ => ⟨h, (hhas r h _).1 k⟩⟩
    · intro e he
      rw [a1] at he
      rw [a2]
      obtain ⟨h, k⟩ := R.home p hp e he
      exact ⟨h, (hhas _ h _).2 k⟩
  have hT : ∀ p, p < n → (W' p).T = (E p).T ∧ (W' p).num = (E p).num ∧ (W' p).owner = (E p).owner ∧
      (W' p).status = (E p).status ∧ (W' p).sh = (E p).sh ∧ (W' p).gh = (E p).gh ∧ (W' p).val = (E p).val := by
    intro p hp; rw [hW p hp]; exact ⟨rfl, rfl, rfl, rfl, rfl, rfl, rfl⟩
  have hhas' : ∀ p, p < n → ∀ g, Has (W' p) g ↔ Has (E p) g := by
    intro p hp g
    obtain ⟨a1, a2, -⟩ := hT p hp
    unfold Has; rw [a1, a2]
  have hown : ∀ p, p < n → ∀ e, (E p).T.alive e = true → (E p).owner e = (p : Int) → (W' p).procs e = (E p).procs e := by
    intro p hp e he ho
    rw [hW p hp]; exact (RE.final hr hd hp).1 e he ho
  have hgh : ∀ p, p < n → ∀ e, (E p).T.alive e = true → (E p).owner e ≠ (p : Int) → ∃ o e', o < n ∧
      (E o).T.alive e' = true ∧ name (E o).num e' = name (E p).num e ∧ (E o).owner e' = (o : Int) ∧
      (W' p).procs e = (E o).procs e' := by
    intro p hp e he ho
    obtain ⟨o, e', h1, h2, h3, h4, h5, -⟩ := RE.pair hp he ho
    refine ⟨o, e', h1, h3, h4, h5, ?_⟩
    rw [hW p hp]; exact (RE.final hr hd hp).2 e o e' he ho h2 h3 h4
  refine ⟨⟨?_, ?_, ?_, ?_, ?_, ?_, ?_, ?_⟩, ?_⟩
  · intro p hp
    obtain ⟨a1, a2, a3, -⟩ := hT p hp
    have P := RE.piece p hp
    exact ⟨by rw [a1]; exact P.reach, by rw [a1]; exact P.plain, by rw [a1, a2]; exact P.fits,
      by rw [a1, a2, a3]; exact P.owner⟩
  · intro p hp e he
    rw [(hT p hp).1] at he
    by_cases ho : (E p).owner e = (p : Int)
    · rw [hown p hp e he ho]; exact (RE.ok p hp).sorted e he ho
    · obtain ⟨o, e', h1, h2, -, h3, h4⟩ := hgh p hp e he ho
      rw [h4]; exact (RE.ok o h1).sorted e' h2 h3
  · intro p hp e he q
    obtain ⟨a1, a2, -⟩ := hT p hp
    rw [a1] at he
    rw [a2]
    have key : ∀ g, (q < n ∧ Has (E q) g) ↔ q < n ∧ Has (W' q) g := fun g =>
      ⟨fun ⟨h, k⟩ => ⟨h, (hhas' q h _).2 k⟩, fun ⟨h, k⟩ => ⟨h, (hhas' q h _).1 k⟩⟩
    by_cases ho : (E p).owner e = (p : Int)
    · rw [hown p hp e he ho, RE.procs p hp e he ho, key]
    · obtain ⟨o, e', h1, h2, h2', h3, h4⟩ := hgh p hp e he ho
      rw [h4, RE.procs o h1 e' h2 h3, h2', key]
  · intro p hp e he
    obtain ⟨a1, a2, -⟩ := hT p hp
    rw [a1] at he
    rw [a2]
    obtain ⟨h, k⟩ := RE.home p hp e he
    exact ⟨h, (hhas' _ h _).2 k⟩
  · intro p hp e he ho
    obtain ⟨a1, a2, a3, a4, -⟩ := hT p hp
    rw [a1] at he
    rw [a3] at ho
    rw [a4]
    exact (RE.ok p hp).ghost e he ho
  · intro p hp e he ho
    obtain ⟨a1, a2, a3, a4, -⟩ := hT p hp
    rw [a1] at he
    rw [a3] at ho
    rw [a4, hown p hp e he ho]
    exact (RE.ok p hp).status e he ho
  · intro p hp q t
    obtain ⟨a1, a2, a3, a4, a5, -⟩ := hT p hp
    obtain ⟨b1, b2, b3, -, b5, b6, b7, -⟩ := hstore p hp
    obtain ⟨h1, h2⟩ := b7 q t
    refine ⟨by rw [a5, a2, b2]; exact h1, fun x => ?_⟩
    rw [a5, a1, a3, h2, ← b1, ← b3, ← b6]
    constructor
    · rintro ⟨h1, h2, h3, h4, h5⟩
      exact ⟨h1, h2, h3, h4, by rw [hown p hp x h1 h3]; exact h5⟩
    · rintro ⟨h1, h2, h3, h4, h5⟩
      exact ⟨h1, h2, h3, h4, by rw [hown p hp x h1 h3] at h5; exact h5⟩
  · intro p hp o t
    obtain ⟨a1, a2, a3, a4, -, a6, -⟩ := hT p hp
    obtain ⟨b1, b2, b3, -, b5, b6, -, b8⟩ := hstore p hp
    obtain ⟨h1, h2⟩ := b8 o t
    refine ⟨by rw [a6, a2, b2]; exact h1, fun x => ?_⟩
    rw [a6, a1, a3, h2, b1, b3]
  · intro p hp
    obtain ⟨a1, a2, a3, -, -, -, a7⟩ := hT p hp
    obtain ⟨b1, b2, b3, b4, -⟩ := hstore p hp
    exact ⟨a1.trans b1, a2.trans b2, a3.trans b3, a7.trans b4⟩

/-- The result of the call. -/
theorem exchange_result {dup : Bool} (ok : G.Ok) (H : Spread n cn G W) (fresh : Fresh cn pick)
    (hm : ∀ p, p < n → Marked n (W p) (sendto p)) {W' : Nat → Side V} {X : Trace V}
    (h : Exchange n byNum dup pick sendto W W' X) :
    Spread n cn G W' ∧ (∀ q, q < n → ∀ g, Has (W' q) g ↔ Has (W q) g ∨ Wanted n cn G W sendto q g) ∧
      (∀ q, q < n → Kept (W q) (W' q)) ∧ ∀ f, SameValues n W f → SameValues n W' f := by
  have F := first_of ok H fresh hm h.send
  have K := second_of ok H fresh hm F h.arrive h.take
  have T := third_of ok H fresh F K h.send'
  have Q := fourth_of ok H fresh K T h.arrive' h.take'
  have R := ready ok H F K Q
  obtain ⟨h1, h2⟩ := spread_final R h.store h.run h.done h.result
  have hlk : ∀ p, p < n → Like (X.got p) (X.got' p) := fun p hp => (Q.inf p hp).like
  refine ⟨h1, ?_, ?_, ?_⟩
  · intro q hq g
    rw [← K.has q hq g, ← like_has (hlk q hq)]
    obtain ⟨a1, a2, -⟩ := h2 q hq
    unfold Has; rw [a1, a2]
  · intro q hq
    obtain ⟨a1, a2, a3, -⟩ := h2 q hq
    have := (K.taking q hq).more.kept.trans (hlk q hq).kept
    exact ⟨by rw [a1, a2, a3]; exact this.old, by rw [a1]; exact this.conn⟩
  · intro f hf p hp e he
    obtain ⟨a1, a2, a3, a4⟩ := h2 p hp
    rw [a1, (hlk p hp).T] at he
    rw [a2, a4, (hlk p hp).num, (hlk p hp).val]
    exact (K.taking p hp).vals f hf e he

/-- The call completes, whatever the order of arrival. -/
theorem exchange_exists (dup : Bool) (ok : G.Ok) (H : Spread n cn G W) (fresh : Fresh cn pick)
    (hm : ∀ p, p < n → Marked n (W p) (sendto p)) (arr arr' : Nat → List (Nat × Msg V) → List (Nat × Msg V))
    (ha : ∀ q l, (arr q l).Perm l) (ha' : ∀ q l, (arr' q l).Perm l) :
    ∃ W' X, Exchange n byNum dup pick sendto W W' X ∧ (∀ q, X.order q = arr q (mail n X.box q)) ∧
      ∀ q, X.order' q = arr' q (mail n X.box' q) := by
  obtain ⟨S1, box, h1, F⟩ := first_exists (byNum := byNum) ok H fresh hm
  obtain ⟨B, told, h2, K⟩ := second_exists (order := fun q => arr q (mail n box q)) ok H fresh dup hm F
    fun q _ => ha q _
  obtain ⟨box', h3, T⟩ := third_exists ok H fresh F K
  obtain ⟨D, h4, Q⟩ := fourth_exists (order' := fun q => arr' q (mail n box' q)) ok H fresh dup K T fun q _ => ha' q _
  have R := ready ok H F K Q
  have : ∀ p, ∃ E, p < n → recompute n p (D p) = some E ∧ view E = view (D p) := by
    intro p
    by_cases hp : p < n
    · obtain ⟨E, k, a1, a2, a3, a4, a5, a6, -⟩ := R.recompute hp
      refine ⟨E, fun _ => ⟨k, ?_⟩⟩
      unfold view
      rw [a1, a2, a3, a5, a6]
    · exact ⟨W p, fun h => absurd h hp⟩
  choose E h5 using this
  let E' : Nat → Side V := fun p => if p < n then E p else D p
  have hE' : ∀ p, p < n → E' p = E p := fun p hp => if_pos hp
  have hview : (fun p => view (E' p)) = fun p => view (D p) := by
    funext p
    by_cases hp : p < n
    · rw [hE' p hp]; exact (h5 p hp).2
    · simp only [E', if_neg hp]
  obtain ⟨tr, S, r1, r2⟩ := Parallel.complete R.callOk Parallel.Run.nil
  refine ⟨fun p => setProcs (E' p) (S.loc p), ⟨S1, box, fun q => arr q (mail n box q), B, told, B, box',
    fun q => arr' q (mail n box' q), D, E', [] ++ tr, S⟩, ⟨h1, fun q _ => ha q _, h2, h3, fun q _ => ha' q _, h4, ?_, ?_, r2,
    fun _ _ => rfl⟩, fun _ => rfl, fun _ => rfl⟩
  · intro p hp
    simp only
    rw [hE' p hp]; exact (h5 p hp).1
  · simp only
    rw [hview]; exact r1

end Verif.Transfer
