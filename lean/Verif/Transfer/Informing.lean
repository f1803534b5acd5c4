import Verif.Transfer.Taking

/-! # Lemmas: the second round of ExchangeMarked -/

namespace Verif.Transfer

open Verif.Topology

variable {V : Type} {n : Nat} {cn : Bool} {G : Whole} {W : Nat → Side V} {pick : Topo → Nat → Nat}

theorem set1_self {A B : Type} [DecidableEq A] (f : A → B) (a : A) : set1 f a (f a) = f := by
  funext x
  by_cases h : x = a
  · subst h; exact set1_same _ _ _
  · exact set1_ne _ _ h

/-- Elements the destination is known to have are not changed by sending them. -/
theorem touch_id {me dest : Nat} {S : Side V} (l : List El)
    (h : ∀ e ∈ l, S.owner e = (me : Int) → (S.procs e).Pairwise (· < ·) ∧ dest ∈ S.procs e ∧ S.status e = .shared) :
    l.foldl (touch me dest) S = S := by
  induction l with
  | nil => rfl
  | cons a l ih =>
    rw [List.foldl_cons]
    have : touch me dest S a = S := by
      unfold touch
      split
      · next ho =>
        obtain ⟨h1, h2, h3⟩ := h a (by simp) ho
        rw [addProc_same h1 h2, ← h3, set1_self, set1_self]
      · rfl
    rw [this]
    exact ih fun e he => h e (by simp [he])

section
variable {S1 B : Nat → Side V} {told : Nat → List (Int × El)} {sendto : Nat → El → List Nat}

/-- The owner of an element had it before the call. -/
theorem Taking.home (H : Spread n cn G W) {q : Nat} (hq : q < n) {R : Side V} {tl : List (Int × El)}
    (h : Taking n cn G W S1 sendto q R tl) {x : El} (hx : R.T.alive x = true) :
    G.owner (name R.num x) < n ∧ Has (W (G.owner (name R.num x))) (name R.num x) := by
  rcases h.new x hx with h0 | ⟨p, hp, -, e, he, -, hpt⟩
  · rw [h.more.kept.name h0]; exact H.home q hq x h0
  · obtain ⟨y, hy, hyn⟩ := part_has (H.piece p hp) ⟨e, he, rfl⟩ hpt
    rw [← hyn]; exact H.home p hp y hy

/-- The owner of an element told about has everything that is gathered for it. -/
theorem inform_has (H : Spread n cn G W) {q o : Nat} (hq : q < n) {R : Side V} {tl : List (Int × El)}
    (h : Taking n cn G W S1 sendto q R tl) {sel : Nat → List El}
    (hl : ∀ t, ∀ e ∈ sel t, (R.T.alive e = true ∧ e.ty = t) ∧ R.owner e = (o : Int)) {byNum : Nat → Bool} (t : Nat) (x : El)
    (hx : x ∈ gather R byNum o sel t) : o < n ∧ Has (W o) (name R.num x) := by
  obtain ⟨⟨s, e, he, hpt⟩, -, -⟩ := gather_part h.piece (fun t e he => (hl t e he).1) t x hx
  obtain ⟨⟨h1, -⟩, h2⟩ := hl s e he
  obtain ⟨k1, k2⟩ := h.home H hq h1
  rw [h.piece.owner e h1] at h2
  have h2' : G.owner (name R.num e) = o := by exact_mod_cast h2
  rw [h2'] at k1 k2
  exact ⟨k1, part_has (H.piece o k1) k2 hpt⟩

theorem inform_ctx (ok : G.Ok) (H : Spread n cn G W) (fresh : Fresh cn pick) {q o : Nat} (hq : q < n) {R : Side V}
    {tl : List (Int × El)} (h : Taking n cn G W S1 sendto q R tl) {sel : Nat → List El}
    (hl : ∀ t, ∀ e ∈ sel t, (R.T.alive e = true ∧ e.ty = t) ∧ R.owner e = (o : Int)) (ho : o < n) {R0 : Side V}
    (hP : Piece cn G R0) (hR : More (W o) R0) :
    Ctx cn G R R0 q o (fun _ => false) (gather R (fun _ => false) o sel) pick := by
  refine ⟨ok, h.piece, hP, fun _ => hR.lists (H.lists ho), ?_, gather_closed _ _ _ _, ⟨?_, ?_⟩, fresh⟩
  · intro t e he; exact (gather_part h.piece (fun t e he => (hl t e he).1) t e he).2
  · intro t e he _
    exact hR.kept.has (inform_has H hq h hl t e he).2
  · intro t _ e _ hk; cases hk

theorem inform_touch (H : Spread n cn G W) {q o : Nat} (hq : q < n) (hne : o ≠ q) {R : Side V} {tl : List (Int × El)}
    (h : Taking n cn G W S1 sendto q R tl) (hmono : ∀ e, ∀ r ∈ (W q).procs e, r ∈ (S1 q).procs e) {sel : Nat → List El}
    (hl : ∀ t, ∀ e ∈ sel t, (R.T.alive e = true ∧ e.ty = t) ∧ R.owner e = (o : Int)) :
    (allOf (gather R (fun _ => false) o sel)).foldl (touch q o) R = R := by
  refine touch_id _ fun e he ho => ?_
  obtain ⟨t, ht, he⟩ := mem_allOf.1 he
  have hea := (gather_part h.piece (fun t e he => (hl t e he).1) t e he).2.1
  obtain ⟨h1, h2⟩ := inform_has H hq h hl t e he
  obtain ⟨k1, k2⟩ := h.own e hea ho
  have hmem : o ∈ R.procs e := by
    rw [k2]
    refine hmono e o ((H.procs q hq e k1 o).2 ⟨h1, ?_⟩)
    rw [← h.more.kept.name k1]; exact h2
  refine ⟨h.ok.sorted e hea ho, hmem, ?_⟩
  rcases h.ok.status e hea ho with h' | h'
  · exact h'.1
  · exact absurd (h'.2 o hmem) hne

theorem packInform_ok (ok : G.Ok) (H : Spread n cn G W) (fresh : Fresh cn pick) {q : Nat} (hq : q < n) {R : Side V}
    {tl : List (Int × El)} (h : Taking n cn G W S1 sendto q R tl) (hmono : ∀ e, ∀ r ∈ (W q).procs e, r ∈ (S1 q).procs e) :
    ∀ boxes : List (Nat × (Nat → List El)), (∀ b ∈ boxes, b.1 < n ∧ b.1 ≠ q ∧
        ∀ t, ∀ e ∈ b.2 t, (R.T.alive e = true ∧ e.ty = t) ∧ R.owner e = (b.1 : Int)) →
      ∃ ms, packAll q (fun _ => false) false boxes R = some (R, ms) ∧
        (∀ m ∈ ms, ∃ sel, (m.1, sel) ∈ boxes ∧
          pack q m.1 (fun _ => false) false (gather R (fun _ => false) m.1 sel) R = some (R, m.2)) ∧
        ∀ b ∈ boxes, ∃ M, (b.1, M) ∈ ms := by
  intro boxes
  induction boxes with
  | nil => intro _; exact ⟨[], rfl, by simp, by simp⟩
  | cons b boxes ih =>
    obtain ⟨o, sel⟩ := b
    intro hb
    obtain ⟨ho, hoq, hl⟩ := hb (o, sel) (by simp)
    have c := inform_ctx ok H fresh hq h hl ho (H.piece o ho) (Like.rfl' _).more
    obtain ⟨M, hpk, -⟩ := pack_ok c false
    rw [inform_touch H hq hoq h hmono hl] at hpk
    obtain ⟨ms, k1, k2, k3⟩ := ih fun b hb' => hb b (by simp [hb'])
    refine ⟨(o, M) :: ms, by simp only [packAll, hpk, k1], ?_, ?_⟩
    · intro m hm
      rcases List.mem_cons.1 hm with rfl | hm
      · exact ⟨sel, by simp, hpk⟩
      · obtain ⟨s, a, b⟩ := k2 m hm; exact ⟨s, by simp [a], b⟩
    · intro b hb'
      rcases List.mem_cons.1 hb' with rfl | hb'
      · exact ⟨M, by simp⟩
      · obtain ⟨M', a⟩ := k3 b hb'; exact ⟨M', by simp [a]⟩

/-- The lists of elements told to `o`. -/
def toldSel (tl : List (Int × El)) (o : Nat) : Nat → List El :=
  fun t => (tl.filter fun x => x.1 == (o : Int) && x.2.ty == t).map Prod.snd

theorem mem_toldSel {tl : List (Int × El)} {o t : Nat} {x : El} :
    x ∈ toldSel tl o t ↔ ((o : Int), x) ∈ tl ∧ x.ty = t := by
  unfold toldSel
  simp only [List.mem_map, List.mem_filter, Bool.and_eq_true, beq_iff_eq]
  constructor
  · rintro ⟨⟨a, b⟩, ⟨h1, h2, h3⟩, rfl⟩
    simp only at h2 h3
    subst h2
    exact ⟨h1, h3⟩
  · rintro ⟨h1, h2⟩; exact ⟨(↑o, x), ⟨h1, rfl, h2⟩, rfl⟩

theorem mem_informBox {tl : List (Int × El)} {o : Nat} {sel : Nat → List El} :
    (o, sel) ∈ informBox n tl ↔ o < n ∧ (∃ x, ((o : Int), x) ∈ tl) ∧ sel = toldSel tl o := by
  unfold informBox
  simp only [List.mem_map, List.mem_filter, List.mem_range, List.any_eq_true, beq_iff_eq, Prod.mk.injEq]
  constructor
  · rintro ⟨a, ⟨h1, ⟨b, x⟩, h2, h3⟩, rfl, rfl⟩
    simp only at h3
    subst h3
    exact ⟨h1, ⟨x, h2⟩, rfl⟩
  · rintro ⟨h1, ⟨x, h2⟩, rfl⟩; exact ⟨o, ⟨h1, (↑o, x), h2, rfl⟩, rfl, rfl⟩

theorem told_live {q : Nat} {R : Side V} {tl : List (Int × El)} (h : Taking n cn G W S1 sendto q R tl) (o t : Nat) (e : El)
    (he : e ∈ toldSel tl o t) : (R.T.alive e = true ∧ e.ty = t) ∧ R.owner e = (o : Int) := by
  obtain ⟨h1, h2⟩ := mem_toldSel.1 he
  obtain ⟨h3, h4, -⟩ := h.toldOk _ h1
  exact ⟨⟨h3, h2⟩, h4⟩

/-- The first part of InformElementsOwners on processor `q`. -/
theorem sendInform_ok (ok : G.Ok) (H : Spread n cn G W) (fresh : Fresh cn pick) {q : Nat} (hq : q < n) {R : Side V}
    {tl : List (Int × El)} (h : Taking n cn G W S1 sendto q R tl) (hmono : ∀ e, ∀ r ∈ (W q).procs e, r ∈ (S1 q).procs e) :
    ∃ ms, sendInform n q tl R = some (R, ms) ∧
      (∀ m ∈ ms, m.1 < n ∧ m.1 ≠ q ∧
        pack q m.1 (fun _ => false) false (gather R (fun _ => false) m.1 (toldSel tl m.1)) R = some (R, m.2)) ∧
      ∀ o x, ((o : Nat) : Int) ≠ (q : Int) → ((o : Int), x) ∈ tl → ∃ M, (o, M) ∈ ms := by
  have hrange : ∀ y ∈ tl, ∃ o : Nat, y.1 = (o : Int) ∧ o < n := by
    intro y hy
    obtain ⟨h1, h2, -⟩ := h.toldOk y hy
    rw [h.piece.owner _ h1] at h2
    exact ⟨_, h2.symm, (h.home H hq h1).1⟩
  have hbox : ∀ b ∈ informBox n tl, b.1 < n ∧ b.1 ≠ q ∧
        ∀ t, ∀ e ∈ b.2 t, (R.T.alive e = true ∧ e.ty = t) ∧ R.owner e = (b.1 : Int) := by
    rintro ⟨o, sel⟩ hb
    obtain ⟨h1, ⟨x, h2⟩, rfl⟩ := mem_informBox.1 hb
    refine ⟨h1, ?_, told_live h o⟩
    have := (h.toldOk _ h2).2.2
    simp only at this
    intro h; exact this (by exact_mod_cast h)
  obtain ⟨ms, k1, k2, k3⟩ := packInform_ok ok H fresh hq h hmono (informBox n tl) hbox
  refine ⟨ms, ?_, ?_, ?_⟩
  · unfold sendInform
    rw [if_pos, k1]
    simp only [List.all_eq_true, decide_eq_true_eq]
    intro y hy
    obtain ⟨o, h1, h2⟩ := hrange y hy
    omega
  · intro m hm
    obtain ⟨sel, a, b⟩ := k2 m hm
    obtain ⟨c1, c2, -⟩ := hbox _ a
    obtain ⟨-, -, rfl⟩ := mem_informBox.1 a
    exact ⟨c1, c2, b⟩
  · intro o x _ hx
    obtain ⟨o', h1, h2⟩ := hrange _ hx
    have : o = o' := Int.ofNat_inj.1 h1
    subst this
    exact k3 _ (mem_informBox.2 ⟨h2, ⟨x, hx⟩, rfl⟩)

/-- The loop over the elements named in a message. -/
theorem informEach_ok (me src : Nat) (l : List El) (R : Side V) (h : ∀ x ∈ l, R.owner x ≠ -1) :
    ∃ R2, informEach me src l R = some R2 ∧ Like R R2 ∧
      (∀ x, x ∉ l → R2.procs x = R.procs x ∧ R2.status x = R.status x) ∧
      (∀ x ∈ l, R2.status x = (if R.owner x = (me : Int) then .shared else .ghost) ∧
        ∀ r, r ∈ R2.procs x ↔ r = src ∨ r ∈ R.procs x) ∧
      ∀ x, (R.procs x).Pairwise (· < ·) → (R2.procs x).Pairwise (· < ·) := by
  induction l generalizing R with
  | nil => exact ⟨R, rfl, Like.rfl' _, fun _ _ => ⟨rfl, rfl⟩, by simp, fun _ h => h⟩
  | cons a l ih =>
    let R1 : Side V := { R with
      procs := set1 R.procs a (addProc src (R.procs a))
      status := set1 R.status a (if R.owner a = (me : Int) then .shared else .ghost) }
    obtain ⟨R2, k1, k2, k3, k4, k5⟩ := ih R1 fun x hx => h x (by simp [hx])
    refine ⟨R2, ?_, ⟨k2.T, k2.num, k2.owner, k2.val, k2.sh, k2.gh⟩, ?_, ?_, ?_⟩
    · simp only [informEach, informOne, if_neg (h a (by simp))]; exact k1
    · intro x hx
      rw [List.mem_cons, not_or] at hx
      obtain ⟨a1, a2⟩ := k3 x hx.2
      exact ⟨a1.trans (set1_ne _ _ hx.1), a2.trans (set1_ne _ _ hx.1)⟩
    · intro x hx
      by_cases hl : x ∈ l
      · obtain ⟨a1, a2⟩ := k4 x hl
        refine ⟨a1, fun r => ?_⟩
        rw [a2]
        by_cases hxa : x = a
        · subst hxa
          simp only [R1, set1_same, mem_addProc]
          exact ⟨fun h => by rcases h with h | h | h <;> simp [h], fun h => by rcases h with h | h <;> simp [h]⟩
        · simp only [R1, set1_ne _ _ hxa]
      · have hxa : x = a := by rcases List.mem_cons.1 hx with h | h; exacts [h, absurd h hl]
        subst hxa
        obtain ⟨a1, a2⟩ := k3 x hl
        refine ⟨a2.trans (set1_same _ _ _), fun r => ?_⟩
        rw [a1]
        simp only [R1, set1_same, mem_addProc]
    · intro x hx
      refine k5 x ?_
      by_cases hxa : x = a
      · subst hxa; simp only [R1, set1_same]; exact addProc_sorted _ _ hx
      · simp only [R1, set1_ne _ _ hxa]; exact hx

/-- Processor `o` during the second round; `B` are the processors after the first round. -/
structure Informed (n : Nat) (B : Nat → Side V) (o : Nat) (R : Side V) : Prop where
  like : Like (B o) R
  ok : OwnOk n o R
  mono : ∀ e, ∀ r ∈ (B o).procs e, r ∈ R.procs e
  sound : ∀ e, (B o).T.alive e = true → (B o).owner e = (o : Int) → ∀ r ∈ R.procs e, r ∈ (B o).procs e ∨
    r < n ∧ Has (B r) (name (B o).num e)

/-- One message of the second round. -/
theorem inform_step (ok : G.Ok) (H : Spread n cn G W) (fresh : Fresh cn pick) (dup : Bool) {q o : Nat} (hq : q < n)
    (ho : o < n) (hne : o ≠ q) (hT : ∀ p, p < n → Taking n cn G W S1 sendto p (B p) (told p)) {M : Msg V}
    (hM : pack q o (fun _ => false) false (gather (B q) (fun _ => false) o (toldSel (told q) o)) (B q) = some (B q, M))
    {R : Side V} (hI : Informed n B o R) :
    ∃ out R2, unpack o q dup pick M R = some (R, out) ∧ informEach o q (received out) R = some R2 ∧ Informed n B o R2 ∧
      (∀ e, ∀ r ∈ R.procs e, r ∈ R2.procs e) ∧
      ∀ x, ((o : Int), x) ∈ told q → ∀ e, (B o).T.alive e = true → name (B o).num e = name (B q).num x → q ∈ R2.procs e := by
  have hq' := hT q hq
  have ho' := hT o ho
  have hl := told_live hq' o
  have hP : Piece cn G R := hI.like.piece ho'.piece
  have hmore : More (W o) R :=
    ⟨ho'.more.kept.trans hI.like.kept, hI.like.sh.trans ho'.more.sh, hI.like.gh.trans ho'.more.gh⟩
  have c := inform_ctx ok H fresh hq hq' hl ho hP hmore
  have hin : ∀ t e, e ∈ gather (B q) (fun _ => false) o (toldSel (told q) o) t → (B q).T.alive e = true :=
    fun t e he => (gather_part hq'.piece (fun t e he => (hl t e he).1) t e he).2.1
  obtain ⟨M', out, k1, k2, k3⟩ := inform_ok c dup fun t _ e he => hmore.kept.has (inform_has H hq hq' hl t e he).2
  rw [hM] at k1
  have hMM : M = M' := by
    simp only [Option.some.injEq, Prod.mk.injEq] at k1
    exact k1.2
  subst hMM
  have halive : ∀ x ∈ received out, R.T.alive x = true := by
    intro x hx
    obtain ⟨t, ht, hx⟩ := mem_received.1 hx
    obtain ⟨y, hy, rfl⟩ := List.mem_map.1 hx
    exact (k3 t ht).2 y hy
  obtain ⟨R2, j1, j2, j3, j4, j5⟩ := informEach_ok o q (received out) R fun x hx => by
    rw [hP.owner x (halive x hx)]; omega
  have hmono : ∀ e, ∀ r ∈ R.procs e, r ∈ R2.procs e := by
    intro e r hr
    by_cases he : e ∈ received out
    · exact ((j4 e he).2 r).2 (Or.inr hr)
    · rw [(j3 e he).1]; exact hr
  have hnamed : ∀ x ∈ received out, Has (B q) (name R.num x) := by
    intro x hx
    obtain ⟨t, ht, hx⟩ := mem_received.1 hx
    have := List.mem_map_of_mem (f := name R.num) hx
    rw [(k3 t ht).1] at this
    obtain ⟨e, he, hen⟩ := List.mem_map.1 this
    exact ⟨e, hin t e he, hen⟩
  refine ⟨out, R2, k2, j1, ⟨hI.like.trans j2, ?_, fun e r hr => hmono e r (hI.mono e r hr), ?_⟩, hmono, ?_⟩
  · refine ⟨fun e he ho => ?_, fun e he ho => ?_, fun e he ho => ?_, fun e he ho => ?_⟩ <;> rw [j2.T] at he <;>
      rw [j2.owner] at ho
    · exact j5 e (hI.ok.sorted e he ho)
    · intro r hr
      by_cases hm : e ∈ received out
      · rcases ((j4 e hm).2 r).1 hr with rfl | hr
        · exact hq
        · exact hI.ok.range e he ho r hr
      · rw [(j3 e hm).1] at hr; exact hI.ok.range e he ho r hr
    · by_cases hm : e ∈ received out
      · obtain ⟨a1, a2⟩ := j4 e hm
        rw [if_pos ho] at a1
        exact Or.inl ⟨a1, q, (a2 q).2 (Or.inl rfl), Ne.symm hne⟩
      · rw [(j3 e hm).1, (j3 e hm).2]; exact hI.ok.status e he ho
    · by_cases hm : e ∈ received out
      · have := (j4 e hm).1
        rw [if_neg ho] at this
        exact this
      · rw [(j3 e hm).2]; exact hI.ok.ghost e he ho
  · intro e he hoe r hr
    by_cases hm : e ∈ received out
    · rcases ((j4 e hm).2 r).1 hr with rfl | hr
      · right
        refine ⟨hq, ?_⟩
        have := hnamed e hm
        rw [hI.like.num] at this
        exact this
      · exact hI.sound e he hoe r hr
    · rw [(j3 e hm).1] at hr; exact hI.sound e he hoe r hr
  · intro x hx e he hn
    obtain ⟨hxa, -, -⟩ := hq'.toldOk _ hx
    have hxs : x ∈ toldSel (told q) o x.ty := mem_toldSel.2 ⟨hx, rfl⟩
    have hxg := gather_sub (B q) (fun _ => false) o _ _ hxs
    have hx4 : x.ty < 4 := Nat.lt_of_le_of_lt (tyLe hq'.piece.reach hxa) (by omega)
    have := List.mem_map_of_mem (f := name (B q).num) hxg
    rw [← (k3 x.ty hx4).1] at this
    obtain ⟨y, hy, hyn⟩ := List.mem_map.1 this
    have hyr := mem_received.2 ⟨x.ty, hx4, hy⟩
    have : y = e := hP.fits.inj y e (halive y hyr) (by rw [hI.like.T]; exact he) (by
      rw [hyn, ← hn, hI.like.num])
    subst this
    exact ((j4 y hyr).2 q).2 (Or.inl rfl)

/-- All messages of the second round, in any order. -/
theorem inform_all (ok : G.Ok) (H : Spread n cn G W) (fresh : Fresh cn pick) (dup : Bool) {o : Nat}
    (ho : o < n) (hT : ∀ p, p < n → Taking n cn G W S1 sendto p (B p) (told p)) :
    ∀ ms : List (Nat × Msg V), (∀ m ∈ ms, m.1 < n ∧ o ≠ m.1 ∧
        pack m.1 o (fun _ => false) false (gather (B m.1) (fun _ => false) o (toldSel (told m.1) o)) (B m.1) =
          some (B m.1, m.2)) →
      ∀ R, Informed n B o R → ∃ R', takeInform o dup pick ms R = some R' ∧ Informed n B o R' ∧
        (∀ e, ∀ r ∈ R.procs e, r ∈ R'.procs e) ∧
        ∀ m ∈ ms, ∀ x, ((o : Int), x) ∈ told m.1 → ∀ e, (B o).T.alive e = true →
          name (B o).num e = name (B m.1).num x → m.1 ∈ R'.procs e := by
  intro ms
  induction ms with
  | nil => intro _ R h; exact ⟨R, rfl, h, fun _ _ h => h, by simp⟩
  | cons m ms ih =>
    obtain ⟨q, M⟩ := m
    intro hms R hI
    obtain ⟨hq, hne, hM⟩ := hms (q, M) (by simp)
    obtain ⟨out, R2, k1, k2, k3, k4, k5⟩ := inform_step ok H fresh dup hq ho hne hT hM hI
    obtain ⟨R', l1, l2, l3, l4⟩ := ih (fun m hm => hms m (by simp [hm])) R2 k3
    refine ⟨R', by simp only [takeInform, k1, k2]; exact l1, l2, fun e r hr => l3 e r (k4 e r hr), ?_⟩
    intro m hm x hx e he hn
    rcases List.mem_cons.1 hm with rfl | hm
    · exact l3 e q (k5 x hx e he hn)
    · exact l4 m hm x hx e he hn

end

end Verif.Transfer
