import Verif.Migrate.Drop
import Verif.Parallel.RemoveLemmas
import Verif.Layers.Spec

/-! # Lemmas: sending and receiving of the elements that move -/

namespace Verif.Migrate

open Verif.Topology Verif.Transfer Verif.Layers

variable {V : Type} {n : Nat} {cn : Bool} {G : Whole} {W : Nat → Side (Pay V)} {O : El → Nat} {N : El → List Nat}
  {pick : Topo → Nat → Nat} {flip : Topo → El → Bool}

/-- The new owners and processors can be those of a mesh: they are known to all copies, and a processor that gets an element
gets its boundary. -/
structure Aim (n : Nat) (cn : Bool) (G : Whole) (W : Nat → Side (Pay V)) (O : El → Nat) (N : El → List Nat) : Prop where
  tags : ∀ p, p < n → ∀ e, (W p).T.alive e = true → ((W p).val e).owner = O (name (W p).num e) ∧
    ((W p).val e).procs = N (name (W p).num e)
  sorted : ∀ g, InMesh n W g → (N g).Pairwise (· < ·)
  range : ∀ g, InMesh n W g → ∀ r ∈ N g, r < n
  home : ∀ g, InMesh n W g → O g ∈ N g
  down : ∀ g h, InMesh n W g → Part cn G g h → ∀ r ∈ N g, r ∈ N h

/-! ## Marks -/

theorem chosen_congr {S : Side V} {a b : El → List Nat} (h : ∀ e, S.T.alive e = true → a e = b e) (q t : Nat) :
    chosen S a q t = chosen S b q t := by
  unfold chosen
  have : ∀ e ∈ elemsOf S.T t, ((a e).filter fun k => k == q).map (fun _ => e) = ((b e).filter fun k => k == q).map fun _ => e := by
    intro e he
    rw [h e (List.mem_filter.1 he).2]
  generalize elemsOf S.T t = l at this
  induction l with
  | nil => rfl
  | cons x l ih => rw [List.flatMap_cons, List.flatMap_cons, this x (by simp), ih fun e he => this e (by simp [he])]

theorem sendMarked_congr {S : Side V} {a b : El → List Nat} (h : ∀ e, S.T.alive e = true → a e = b e) (me : Nat)
    (byNum : Nat → Bool) : sendMarked n me byNum a S = sendMarked n me byNum b S := by
  have h1 : sendtoOk n S a = sendtoOk n S b := by
    unfold sendtoOk
    rw [Bool.eq_iff_iff]
    simp only [List.all_eq_true]
    constructor
    · intro k t ht e he; rw [← h e (List.mem_filter.1 he).2]; exact k t ht e he
    · intro k t ht e he; rw [h e (List.mem_filter.1 he).2]; exact k t ht e he
  have h2 : outbox n me S a = outbox n me S b := by
    unfold outbox
    have : chosen S a = chosen S b := by funext q t; exact chosen_congr h q t
    rw [this]
  unfold sendMarked
  rw [h1, h2]

/-- The marks on existing elements. -/
def marks (W : Nat → Side (Pay V)) (p : Nat) (e : El) : List Nat :=
  if (W p).T.alive e = true then sendNew p (W p) e else []

theorem mem_setDiff {l m : List Nat} (hl : l.Pairwise (· < ·)) (hm : m.Pairwise (· < ·)) (x : Nat) :
    x ∈ Parallel.setDiff (fun a b => decide (a < b)) l m ↔ x ∈ l ∧ x ∉ m := by
  have := Parallel.setDiff_eq (fun a : Nat => (a : Int)) l m
    (List.pairwise_map.2 (hl.imp fun h => by omega)) (List.pairwise_map.2 (hm.imp fun h => by omega))
  rw [show (fun a b : Nat => decide (a < b)) = fun a b : Nat => decide ((a : Int) < (b : Int)) by
    funext a b; exact decide_eq_decide.2 (by omega), this, List.mem_filter]
  simp only [Bool.not_eq_true', List.any_eq_false, decide_eq_true_eq]
  refine and_congr_right fun _ => ⟨fun h hx => h x hx rfl, fun h y hy he => h ?_⟩
  rwa [show x = y by omega]

theorem nodup_setDiff {l m : List Nat} (hl : l.Pairwise (· < ·)) (hm : m.Pairwise (· < ·)) :
    (Parallel.setDiff (fun a b => decide (a < b)) l m).Nodup := by
  have := Parallel.setDiff_eq (fun a : Nat => (a : Int)) l m
    (List.pairwise_map.2 (hl.imp fun h => by omega)) (List.pairwise_map.2 (hm.imp fun h => by omega))
  rw [show (fun a b : Nat => decide (a < b)) = fun a b : Nat => decide ((a : Int) < (b : Int)) by
    funext a b; exact decide_eq_decide.2 (by omega), this]
  exact List.Nodup.filter _ (List.nodup_iff_pairwise_ne.2 (hl.imp fun h => by omega))

theorem mem_marks (H : Spread n cn G W) (A : Aim n cn G W O N) {p : Nat} (hp : p < n) {e : El} {r : Nat} :
    r ∈ marks W p e ↔ (W p).T.alive e = true ∧ (W p).owner e = (p : Int) ∧ r ∈ N (name (W p).num e) ∧
      ¬ Has (W r) (name (W p).num e) := by
  unfold marks
  split
  · next ha =>
    have hin : InMesh n W (name (W p).num e) := ⟨p, hp, e, ha, rfl⟩
    unfold sendNew
    split
    · next ho =>
      rw [(A.tags p hp e ha).2, mem_setDiff (A.sorted _ hin) (H.sorted p hp e ha), H.procs p hp e ha]
      constructor
      · rintro ⟨h1, h2⟩; exact ⟨ha, ho, h1, fun h => h2 ⟨A.range _ hin _ h1, h⟩⟩
      · rintro ⟨-, -, h1, h2⟩; exact ⟨h1, fun h => h2 h.2⟩
    · next ho => simp [ho]
  · next ha => simp [ha]

theorem marked (H : Spread n cn G W) (A : Aim n cn G W O N) {p : Nat} (hp : p < n) : Marked n (W p) (marks W p) where
  range e he k hk := A.range _ ⟨p, hp, e, he, rfl⟩ k ((mem_marks H A hp).1 hk).2.2.1
  once e := by
    unfold marks
    split
    · next ha =>
      unfold sendNew
      split
      · rw [(A.tags p hp e ha).2]
        exact nodup_setDiff (A.sorted _ ⟨p, hp, e, ha, rfl⟩) (H.sorted p hp e ha)
      · exact List.nodup_nil
    · exact List.nodup_nil

/-! ## Deletion -/

theorem left_ok (H : Spread n cn G W) (A : Aim n cn G W O N) {q : Nat} (hq : q < n) {S : Side (Pay V)} (hS : Like (W q) S) :
    ∃ T', drop flip q S = some { S with T := T' } ∧ Piece cn G { S with T := T' } ∧
      ∀ x, T'.alive x = true ↔ (W q).T.alive x = true ∧ q ∈ N (name (W q).num x) := by
  have P := H.piece q hq
  have hin : ∀ e, (W q).T.alive e = true → InMesh n W (name (W q).num e) := fun e he => ⟨q, hq, e, he, rfl⟩
  obtain ⟨T', h1, h2, h3⟩ := drop_ok (flip := flip) (me := q) (hS.piece P) (by
      rw [hS.T, hS.val]
      intro e he
      rw [(A.tags q hq e he).2]
      exact ⟨A.sorted _ (hin e he), List.ne_nil_of_mem (A.home _ (hin e he))⟩)
    (by
      rw [hS.T, hS.val]
      intro e x he h0 hx
      rw [(A.tags q hq e he).2, (A.tags q hq x (lowAlive P.reach hx)).2]
      exact A.down _ _ (hin e he) (.low .self h0 ((P.fits.low e he h0).mem_iff.1 (List.mem_map_of_mem hx))) q)
    (by
      rw [hS.T, hS.val]
      intro e x he hty hc hx
      rw [(A.tags q hq e he).2, (A.tags q hq x (highAlive P.reach hx)).2]
      exact A.down _ _ (hin e he) (.nodes .self hty hc
        ((P.fits.nodes e he hty (P.cnEq.trans hc)).mem_iff.1 (List.mem_map_of_mem hx))) q)
  refine ⟨T', h1, h2, fun x => ?_⟩
  rw [h3, hS.T, hS.val]
  constructor
  · rintro ⟨ha, hm⟩; rw [(A.tags q hq x ha).2] at hm; exact ⟨ha, hm⟩
  · rintro ⟨ha, hm⟩; rw [(A.tags q hq x ha).2]; exact ⟨ha, hm⟩

/-! ## Receiving -/

/-- Processor `q` while it receives. -/
structure Moving (n : Nat) (cn : Bool) (G : Whole) (W : Nat → Side (Pay V)) (N : El → List Nat) (q : Nat) (R : Side (Pay V)) :
    Prop where
  piece : Piece cn G R
  stay : ∀ g, Has (W q) g → q ∈ N g → Has R g
  vals : ∀ x, R.T.alive x = true → ∃ p, p < n ∧ ∃ e, (W p).T.alive e = true ∧ name (W p).num e = name R.num x ∧
    (W p).val e = R.val x
  goal : ∀ x, R.T.alive x = true → q ∈ N (name R.num x)

theorem moving_start (H : Spread n cn G W) (A : Aim n cn G W O N) {q : Nat} (hq : q < n) {S : Side (Pay V)}
    (hS : Like (W q) S) : ∃ R, drop flip q S = some R ∧ Moving n cn G W N q R := by
  obtain ⟨T', h1, h2, h3⟩ := left_ok (flip := flip) H A hq hS
  refine ⟨_, h1, h2, ?_, ?_, ?_⟩
  · rintro g ⟨e, he, rfl⟩ hm
    exact ⟨e, (h3 e).2 ⟨he, hm⟩, by show name S.num e = _; rw [hS.num]⟩
  · intro x hx
    refine ⟨q, hq, x, ((h3 x).1 hx).1, ?_, ?_⟩
    · show _ = name S.num x; rw [hS.num]
    · show _ = S.val x; rw [hS.val]
  · intro x hx
    show q ∈ N (name S.num x); rw [hS.num]
    exact ((h3 x).1 hx).2

theorem moving_step (ok : G.Ok) (H : Spread n cn G W) (A : Aim n cn G W O N) (fresh : Fresh cn pick) (dup : Bool)
    {S1 : Nat → Side (Pay V)} {p q : Nat} (hp : p < n) {M : Msg (Pay V)}
    (hM : Mail (W p) p q (fun _ => false) (chosen (W p) (marks W p) q) M (S1 p)) {R : Side (Pay V)}
    (h : Moving n cn G W N q R) :
    ∃ R' out, unpack q p dup pick M R = some (R', out) ∧ Moving n cn G W N q R' ∧ (∀ g, Has R g → Has R' g) ∧
      ∀ g, Among (W p) (gather (W p) (fun _ => false) q (chosen (W p) (marks W p) q)) g → Has R' g := by
  obtain ⟨S, S', hlike, -, hpk, -, -⟩ := hM
  have PW := H.piece p hp
  have hl : ∀ t, ∀ e ∈ chosen (W p) (marks W p) q t, (W p).T.alive e = true ∧ e.ty = t := fun t e he => by
    have := (mem_chosen PW.reach (marks W p) q t e).1 he; exact ⟨this.1, this.2.1⟩
  have hnd := gather_nodup (W p) (fun _ => false) q (chosen (W p) (marks W p) q) (nodup_chosen (W p) (marked H A hp).once q)
  have hpart : ∀ t, ∀ e ∈ gather (W p) (fun _ => false) q (chosen (W p) (marks W p) q) t, (W p).T.alive e = true ∧ e.ty = t ∧
      q ∈ N (name (W p).num e) := by
    intro t e he
    obtain ⟨⟨s, e', he', hpt⟩, ha, hty⟩ := gather_part PW hl t e he
    have h1 := (mem_chosen PW.reach (marks W p) q s e').1 he'
    exact ⟨ha, hty, A.down _ _ ⟨p, hp, e', h1.1, rfl⟩ hpt q ((mem_marks H A hp).1 h1.2.2).2.2.1⟩
  have hcl := gather_closed (W p) (fun _ => false) q (chosen (W p) (marks W p) q)
  have hkn : ∀ S : Side (Pay V), ∀ e, S.known (fun _ => false) q e = false := fun S e => by simp [Side.known]
  generalize gather (W p) (fun _ => false) q (chosen (W p) (marks W p) q) = sel at *
  have c : Ctx cn G S R p q (fun _ => false) sel pick := by
    refine ⟨ok, hlike.piece PW, h.piece, fun ⟨t, ht⟩ => Bool.noConfusion ht, ?_, ⟨?_, ?_⟩, ⟨?_, ?_⟩, fresh⟩
    · intro t e he; rw [hlike.T]; exact ⟨(hpart t e he).1, (hpart t e he).2.1⟩
    · intro t h0 h4 e he _; rw [hlike.T]; exact hcl.low t h0 h4 e he (hkn _ _)
    · intro hc e he _; rw [hlike.T] at hc ⊢; exact hcl.nodes hc e he (hkn _ _)
    · intro t e he ho
      obtain ⟨ha, -, hm⟩ := hpart t e he
      rw [hlike.owner, PW.owner e ha] at ho
      have := (H.home p hp e ha).2
      rw [hlike.num]
      rw [show G.owner (name (W p).num e) = q from by exact_mod_cast ho] at this
      exact h.stay _ this hm
    · intro t h0 e he hk; rw [hkn] at hk; cases hk
  obtain ⟨S'', M'', R', out, k1, k2, -, hr⟩ := transfer_ok c dup fun t _ => (hnd t).imp fun h1 h2 => absurd h2 h1
  rw [hpk] at k1
  simp only [Option.some.injEq, Prod.mk.injEq] at k1
  obtain ⟨rfl, rfl⟩ := k1
  have hkeep : ∀ g, Has R g → Has R' g := by
    rintro g ⟨e, he, rfl⟩
    exact ⟨e, (hr.old e he).1, by simp only [name, (hr.old e he).2.1]⟩
  refine ⟨R', out, k2, ⟨hr.piece, fun g hg hm => hkeep g (h.stay g hg hm), ?_, ?_⟩, hkeep, ?_⟩
  · intro x hx
    by_cases hs : ∃ t, t < 4 ∧ ∃ e ∈ sel t, name S.num e = name R'.num x ∧ S.owner e ≠ (q : Int)
    · obtain ⟨t, ht, e, he, hn, ho⟩ := hs
      refine ⟨p, hp, e, (hpart t e he).1, by rw [← hn, hlike.num], ?_⟩
      rw [(hr.data x hx t ht e he hn.symm ho).1, hlike.val]
    · cases hx0 : R.T.alive x with
      | true =>
        have hnx : name R'.num x = name R.num x := by simp only [name, (hr.old x hx0).2.1]
        obtain ⟨p', hp', e', a1, a2, a3⟩ := h.vals x hx0
        refine ⟨p', hp', e', a1, a2.trans hnx.symm, a3.trans ?_⟩
        refine (hr.keep x hx0 ?_).1.symm
        by_cases hoq : R.owner x = (q : Int)
        · exact Or.inl hoq
        · right
          rintro ⟨t, ht, e, he, hn⟩
          refine hs ⟨t, ht, e, he, hn.trans hnx.symm, ?_⟩
          rw [hlike.owner, PW.owner e (hpart t e he).1]
          rw [h.piece.owner x hx0] at hoq
          rw [← hn, hlike.num] at hoq
          exact hoq
      | false =>
        obtain ⟨-, t, ht, e, he, hn⟩ := hr.new x hx hx0
        exfalso
        by_cases hoq : S.owner e = (q : Int)
        · obtain ⟨u, hu, hun⟩ := c.known.home t e he hoq
          have : u = x := by
            refine hr.piece.fits.inj u x (hr.old u hu).1 hx ?_
            rw [← hn, ← hun]
            simp only [name, (hr.old u hu).2.1]
          rw [this, hx0] at hu; cases hu
        · exact hs ⟨t, ht, e, he, hn, hoq⟩
  · intro x hx
    cases hx0 : R.T.alive x with
    | true =>
      have hnx : name R'.num x = name R.num x := by simp only [name, (hr.old x hx0).2.1]
      rw [hnx]; exact h.goal x hx0
    | false =>
      obtain ⟨-, t, ht, e, he, hn⟩ := hr.new x hx hx0
      rw [← hn, hlike.num]; exact (hpart t e he).2.2
  · rintro g ⟨t, ht, e, he, rfl⟩
    have h1 : name (W p).num e ∈ (sel t).map (name S.num) := by rw [← hlike.num]; exact List.mem_map_of_mem he
    rw [← hr.same t ht] at h1
    obtain ⟨x, hx, hxn⟩ := List.mem_map.1 h1
    exact ⟨x, hr.live t ht x hx, hxn⟩

theorem moving_all (ok : G.Ok) (H : Spread n cn G W) (A : Aim n cn G W O N) (fresh : Fresh cn pick) (dup : Bool)
    {S1 : Nat → Side (Pay V)} {q : Nat} :
    ∀ (ms : List (Nat × Msg (Pay V))), (∀ m ∈ ms, m.1 < n ∧
        Mail (W m.1) m.1 q (fun _ => false) (chosen (W m.1) (marks W m.1) q) m.2 (S1 m.1)) →
      ∀ R, Moving n cn G W N q R → ∃ R', takeMoved q dup pick ms R = some R' ∧ Moving n cn G W N q R' ∧
        (∀ g, Has R g → Has R' g) ∧
        ∀ m ∈ ms, ∀ g, Among (W m.1) (gather (W m.1) (fun _ => false) q (chosen (W m.1) (marks W m.1) q)) g → Has R' g
  | [], _, R, h => ⟨R, rfl, h, fun _ h => h, by simp⟩
  | (p, M) :: ms, hms, R, h => by
    obtain ⟨hp, hM⟩ := hms (p, M) (by simp)
    obtain ⟨R1, out, a1, a2, a3, a4⟩ := moving_step ok H A fresh dup hp hM h
    obtain ⟨R', b1, b2, b3, b4⟩ := moving_all ok H A fresh dup ms (fun m hm => hms m (by simp [hm])) R1 a2
    refine ⟨R', by simp only [takeMoved, a1]; exact b1, b2, fun g hg => b3 g (a3 g hg), ?_⟩
    intro m hm g hg
    rcases List.mem_cons.1 hm with rfl | hm
    · exact b3 g (a4 g hg)
    · exact b4 m hm g hg

/-- Processor `q` after it has received everything. -/
theorem moved_one (ok : G.Ok) (H : Spread n cn G W) (A : Aim n cn G W O N) (fresh : Fresh cn pick) (dup : Bool)
    {S1 : Nat → Side (Pay V)} {box order : Nat → List (Nat × Msg (Pay V))}
    (F : First n W (fun _ => false) (marks W) S1 box) {q : Nat} (hq : q < n) (ho : (order q).Perm (mail n box q)) :
    ∃ L R, drop flip q (S1 q) = some L ∧ takeMoved q dup pick (order q) L = some R ∧ Moving n cn G W N q R ∧
      ∀ g, Has R g ↔ InMesh n W g ∧ q ∈ N g := by
  obtain ⟨L, l1, l2⟩ := moving_start (flip := flip) H A hq (F.pk q hq).like
  obtain ⟨R, r1, r2, r3, r4⟩ := moving_all ok H A fresh dup (order q) (fun m hmm => by
      obtain ⟨a, b⟩ := mem_mail.1 (ho.mem_iff.1 hmm)
      exact ⟨a, (F.mail m.1 a _ b).2.2⟩) L l2
  refine ⟨L, R, l1, r1, r2, fun g => ⟨?_, ?_⟩⟩
  · rintro ⟨x, hx, rfl⟩
    obtain ⟨p, hp, e, he, hn, -⟩ := r2.vals x hx
    exact ⟨⟨p, hp, e, he, hn⟩, r2.goal x hx⟩
  · rintro ⟨⟨p0, hp0, e0, he0, rfl⟩, hm⟩
    by_cases hh : Has (W q) (name (W p0).num e0)
    · exact r3 _ (l2.stay _ hh hm)
    · obtain ⟨hp, e, he, hn⟩ := H.home p0 hp0 e0 he0
      generalize hpo : G.owner (name (W p0).num e0) = p at *
      have hown : (W p).owner e = (p : Int) := by rw [(H.piece p hp).owner e he, hn, hpo]
      have hmk : q ∈ marks W p e := (mem_marks H A hp).2 ⟨he, hown, by rw [hn]; exact hm, by rw [hn]; exact hh⟩
      have hne : q ≠ p := by rintro rfl; exact hh ⟨e, he, hn⟩
      have PW := H.piece p hp
      have hec : e ∈ chosen (W p) (marks W p) q e.ty := (mem_chosen PW.reach _ _ _ _).2 ⟨he, rfl, hmk⟩
      have h4 := tyLe PW.reach he
      obtain ⟨M, hM⟩ := F.all p hp q hq hne ⟨e.ty, by omega, List.ne_nil_of_mem hec⟩
      rw [← hn]
      exact r4 (p, M) (ho.mem_iff.2 (mem_mail.2 ⟨hp, hM⟩)) _ ⟨e.ty, by omega, e, gather_sub _ _ _ _ _ hec, rfl⟩

/-! ## The end of the call -/

theorem assign_ready (ok : G.Ok) (H : Spread n cn G W) (A : Aim n cn G W O N) {R : Nat → Side (Pay V)}
    (hR : ∀ q, q < n → Moving n cn G W N q (R q)) (hH : ∀ q, q < n → ∀ g, Has (R q) g ↔ InMesh n W g ∧ q ∈ N g) :
    Ready n cn { G with owner := O } (fun p => assign p (R p)) ∧
    ∀ p, p < n → ∀ e, (R p).T.alive e = true → (assign p (R p)).procs e = N (name (R p).num e) := by
  have htag : ∀ p, p < n → ∀ e, (R p).T.alive e = true → InMesh n W (name (R p).num e) ∧
      ((R p).val e).owner = O (name (R p).num e) ∧ ((R p).val e).procs = N (name (R p).num e) := by
    intro p hp e he
    obtain ⟨p', hp', e', a1, a2, a3⟩ := (hR p hp).vals e he
    rw [← a3, ← a2]
    exact ⟨⟨p', hp', e', a1, rfl⟩, A.tags p' hp' e' a1⟩
  have hcond : ∀ p, p < n → ∀ e, (R p).T.alive e = true → ((R p).T.alive e && !((R p).val e).procs.isEmpty) = true := by
    intro p hp e he
    obtain ⟨h1, h2, h3⟩ := htag p hp e he
    have := List.ne_nil_of_mem (A.home _ h1)
    rw [he, h3]
    cases hN : N (name (R p).num e) with
    | nil => exact absurd hN this
    | cons a l => rfl
  have howner : ∀ p, p < n → ∀ e, (R p).T.alive e = true → (assign p (R p)).owner e = (O (name (R p).num e) : Int) := by
    intro p hp e he
    show (if _ then _ else _) = _
    rw [hcond p hp e he, if_pos rfl, (htag p hp e he).2.1]
  have hprocs : ∀ p, p < n → ∀ e, (R p).T.alive e = true → (assign p (R p)).procs e = N (name (R p).num e) := by
    intro p hp e he
    show (if _ then _ else _) = _
    rw [hcond p hp e he, if_pos rfl, (htag p hp e he).2.2]
  have hstatus : ∀ p, p < n → ∀ e, (R p).T.alive e = true → (assign p (R p)).status e =
      if O (name (R p).num e) = p then if (N (name (R p).num e)).length = 1 then .owned else .shared else .ghost := by
    intro p hp e he
    show (if _ then _ else _) = _
    rw [hcond p hp e he, if_pos rfl, (htag p hp e he).2.2, (htag p hp e he).2.1]
  have hlist : ∀ p, p < n → ∀ e, (R p).T.alive e = true → ∀ r, r ∈ N (name (R p).num e) ↔ r < n ∧ Has (R r) (name (R p).num e) := by
    intro p hp e he r
    have hin := (htag p hp e he).1
    constructor
    · intro hr
      have := A.range _ hin r hr
      exact ⟨this, (hH r this _).2 ⟨hin, hr⟩⟩
    · rintro ⟨hr, hh⟩; exact ((hH r hr _).1 hh).2
  refine ⟨⟨?_, ?_, ?_, ?_⟩, hprocs⟩
  · intro p hp
    have P := (hR p hp).piece
    exact ⟨P.reach, P.plain, ⟨P.fits.inj, P.fits.low, P.fits.full, P.fits.nodes⟩, fun e he => howner p hp e he⟩
  · intro p hp
    refine ⟨?_, ?_, ?_, ?_⟩
    · intro e he _; show ((assign p (R p)).procs e).Pairwise _; rw [hprocs p hp e he]; exact A.sorted _ (htag p hp e he).1
    · intro e he _ r hr
      rw [hprocs p hp e he] at hr; exact A.range _ (htag p hp e he).1 r hr
    · intro e he ho
      have ho' : O (name (R p).num e) = p := by
        rw [howner p hp e he] at ho; exact_mod_cast ho
      show ((assign p (R p)).status e = _ ∧ ∃ q ∈ (assign p (R p)).procs e, _) ∨ (assign p (R p)).status e = _ ∧ _
      rw [hstatus p hp e he, hprocs p hp e he, if_pos ho']
      have hs := A.sorted _ (htag p hp e he).1
      have hm : p ∈ N (name (R p).num e) := by have := A.home _ (htag p hp e he).1; rwa [ho'] at this
      cases hN : N (name (R p).num e) with
      | nil => rw [hN] at hm; cases hm
      | cons a l =>
        rw [hN] at hm hs
        cases l with
        | nil =>
          right
          refine ⟨rfl, fun q hq => ?_⟩
          rw [List.mem_singleton] at hq hm
          exact hq.trans hm.symm
        | cons b l =>
          left
          refine ⟨rfl, ?_⟩
          have hab : a < b := (List.pairwise_cons.1 hs).1 b (by simp)
          by_cases hap : a = p
          · exact ⟨b, by simp, by omega⟩
          · exact ⟨a, by simp, hap⟩
    · intro e he ho
      have ho' : ¬ O (name (R p).num e) = p := by
        rw [howner p hp e he] at ho; exact_mod_cast ho
      show (assign p (R p)).status e = _
      rw [hstatus p hp e he, if_neg ho']
  · intro p hp e he _ r
    show r ∈ (assign p (R p)).procs e ↔ _
    rw [hprocs p hp e he]; exact hlist p hp e he r
  · intro p hp e he
    have hin := (htag p hp e he).1
    have := A.range _ hin _ (A.home _ hin)
    exact ⟨this, (hH _ this _).2 ⟨hin, A.home _ hin⟩⟩

/-- What is known after the call. -/
structure Moved (n : Nat) (cn : Bool) (G : Whole) (W W' : Nat → Side (Pay V)) (O : El → Nat) (N : El → List Nat) : Prop where
  spread : Spread n cn { G with owner := O } W'
  has : ∀ q, q < n → ∀ g, Has (W' q) g ↔ InMesh n W g ∧ q ∈ N g
  vals : ∀ q, q < n → ∀ x, (W' q).T.alive x = true → ∃ p, p < n ∧ ∃ e, (W p).T.alive e = true ∧
    name (W p).num e = name (W' q).num x ∧ (W p).val e = (W' q).val x

theorem stored_ok (ok : G.Ok) (H : Spread n cn G W) (A : Aim n cn G W O N) {R : Nat → Side (Pay V)}
    (hR : ∀ q, q < n → Moving n cn G W N q (R q)) (hH : ∀ q, q < n → ∀ g, Has (R q) g ↔ InMesh n W g ∧ q ∈ N g)
    {E : Nat → Side (Pay V)} (hE0 : ∀ p, p < n → recompute n p (assign p (R p)) = some (E p)) : Moved n cn G W E O N := by
  obtain ⟨hr, hpr⟩ := assign_ready ok H A hR hH
  have hE : ∀ p, p < n → recompute n p (assign p (R p)) = some (E p) ∧ (E p).T = (R p).T ∧ (E p).num = (R p).num ∧
      (E p).owner = (assign p (R p)).owner ∧ (E p).val = (R p).val ∧ (E p).status = (assign p (R p)).status ∧
      (E p).procs = (assign p (R p)).procs ∧
      (∀ q t, ((E p).sh q t).Pairwise (fun a b => (R p).num a < (R p).num b) ∧ ∀ x, x ∈ (E p).sh q t ↔
        (R p).T.alive x = true ∧ x.ty = t ∧ (assign p (R p)).owner x = (p : Int) ∧ q ≠ p ∧ q ∈ (assign p (R p)).procs x) ∧
      ∀ o t, ((E p).gh o t).Pairwise (fun a b => (R p).num a < (R p).num b) ∧ ∀ x, x ∈ (E p).gh o t ↔
        (R p).T.alive x = true ∧ x.ty = t ∧ (assign p (R p)).owner x = o ∧ o ≠ (p : Int) := by
    intro p hp
    obtain ⟨E', h1, h2⟩ := hr.recompute hp
    have : E' = E p := by simpa using h1.symm.trans (hE0 p hp)
    subst this
    exact ⟨h1, h2⟩
  refine ⟨⟨?_, ?_, ?_, ?_, ?_, ?_, ?_, ?_⟩, ?_, ?_⟩
  · intro p hp
    obtain ⟨-, a1, a2, a3, a4, a5, a6, a7, a8⟩ := hE p hp
    have P := hr.piece p hp
    exact ⟨by rw [a1]; exact P.reach, by rw [a1]; exact P.plain, by rw [a1, a2]; exact P.fits, by
      rw [a1, a2, a3]; exact P.owner⟩
  · intro p hp e he
    obtain ⟨-, a1, a2, a3, a4, a5, a6, a7, a8⟩ := hE p hp
    rw [a1] at he
    rw [a6, hpr p hp e he]
    exact A.sorted _ ((hH p hp _).1 ⟨e, he, rfl⟩).1
  · intro p hp e he q
    obtain ⟨-, a1, a2, a3, a4, a5, a6, a7, a8⟩ := hE p hp
    rw [a1] at he
    rw [a6, hpr p hp e he, a2]
    have hin := ((hH p hp _).1 ⟨e, he, rfl⟩).1
    constructor
    · intro hq
      have hqn := A.range _ hin q hq
      refine ⟨hqn, ?_⟩
      unfold Has
      rw [(hE q hqn).2.1, (hE q hqn).2.2.1]
      exact (hH q hqn _).2 ⟨hin, hq⟩
    · rintro ⟨hqn, hh⟩
      unfold Has at hh
      rw [(hE q hqn).2.1, (hE q hqn).2.2.1] at hh
      exact ((hH q hqn _).1 hh).2
  · intro p hp e he
    obtain ⟨-, a1, a2, a3, a4, a5, a6, a7, a8⟩ := hE p hp
    rw [a1] at he
    rw [a2]
    have hh : O (name (R p).num e) < n ∧ Has (R (O (name (R p).num e))) (name (R p).num e) := hr.home p hp e he
    show O (name (R p).num e) < n ∧ Has (E (O (name (R p).num e))) (name (R p).num e)
    obtain ⟨hn, hh⟩ := hh
    refine ⟨hn, ?_⟩
    unfold Has
    rw [(hE _ hn).2.1, (hE _ hn).2.2.1]
    exact hh
  · intro p hp e he ho
    obtain ⟨-, a1, a2, a3, a4, a5, a6, a7, a8⟩ := hE p hp
    rw [a1] at he; rw [a3] at ho; rw [a5]
    exact (hr.ok p hp).ghost e he ho
  · intro p hp e he ho
    obtain ⟨-, a1, a2, a3, a4, a5, a6, a7, a8⟩ := hE p hp
    rw [a1] at he; rw [a3] at ho; rw [a5, a6]
    exact (hr.ok p hp).status e he ho
  · intro p hp q t
    obtain ⟨-, a1, a2, a3, a4, a5, a6, a7, a8⟩ := hE p hp
    rw [a1, a2, a3, a6]; exact a7 q t
  · intro p hp o t
    obtain ⟨-, a1, a2, a3, a4, a5, a6, a7, a8⟩ := hE p hp
    rw [a1, a2, a3]; exact a8 o t
  · intro q hq g
    unfold Has
    rw [(hE q hq).2.1, (hE q hq).2.2.1]
    exact hH q hq g
  · intro q hq x hx
    obtain ⟨-, a1, a2, a3, a4, a5, a6, a7, a8⟩ := hE q hq
    rw [a1] at hx
    rw [a2, a4]
    exact (hR q hq).vals x hx

/-- The exchange can be carried out, for every order of arrival. -/
theorem move_exists (ok : G.Ok) (H : Spread n cn G W) (A : Aim n cn G W O N) (fresh : Fresh cn pick) (dup : Bool)
    (flip : Topo → El → Bool) (arr : Nat → List (Nat × Msg (Pay V)) → List (Nat × Msg (Pay V))) (ha : ∀ q l, (arr q l).Perm l) :
    ∃ W' X, MoveMarked n dup pick flip (fun p => sendNew p (W p)) W W' X ∧ ∀ q, X.order q = arr q (mail n X.box q) := by
  obtain ⟨S1, box, f1, F⟩ := first_exists (byNum := fun _ => false) ok H fresh (fun p hp => marked H A hp)
  have : ∀ q, ∃ L R, q < n → drop flip q (S1 q) = some L ∧ takeMoved q dup pick (arr q (mail n box q)) L = some R ∧
      Moving n cn G W N q R ∧ ∀ g, Has R g ↔ InMesh n W g ∧ q ∈ N g := by
    intro q
    by_cases hq : q < n
    · obtain ⟨L, R, h⟩ := moved_one (flip := flip) (order := fun q => arr q (mail n box q)) ok H A fresh dup F hq (ha q _)
      exact ⟨L, R, fun _ => h⟩
    · exact ⟨W q, W q, fun h => absurd h hq⟩
  choose L R h using this
  have : ∀ p, ∃ E : Side (Pay V), p < n → recompute n p (assign p (R p)) = some E := by
    intro p
    by_cases hp : p < n
    · obtain ⟨E, h, -⟩ := (assign_ready ok H A (fun q hq => (h q hq).2.2.1) (fun q hq => (h q hq).2.2.2)).1.recompute hp
      exact ⟨E, fun _ => h⟩
    · exact ⟨R p, fun h => absurd h hp⟩
  choose E e1 using this
  refine ⟨E, ⟨S1, box, L, fun q => arr q (mail n box q), R⟩, ⟨?_, fun q hq => (h q hq).1, fun q _ => ha q _,
    fun q hq => (h q hq).2.1, e1⟩, fun _ => rfl⟩
  intro p hp
  rw [← f1 p hp]
  refine sendMarked_congr (fun e he => ?_) _ _
  unfold marks; rw [if_pos he]

/-- What the exchange does. -/
theorem move_of (ok : G.Ok) (H : Spread n cn G W) (A : Aim n cn G W O N) (fresh : Fresh cn pick) {dup : Bool}
    {W' : Nat → Side (Pay V)} {X : Trace V} (h : MoveMarked n dup pick flip (fun p => sendNew p (W p)) W W' X) :
    Moved n cn G W W' O N := by
  have hsend : ∀ p, p < n → sendMarked n p (fun _ => false) (marks W p) (W p) = some (X.sent p, X.box p) := by
    intro p hp
    rw [← h.send p hp]
    refine sendMarked_congr (fun e he => ?_) _ _
    unfold marks; rw [if_pos he]
  have F := first_of ok H fresh (fun p hp => marked H A hp) hsend
  have h1 : ∀ q, q < n → Moving n cn G W N q (X.got q) ∧ ∀ g, Has (X.got q) g ↔ InMesh n W g ∧ q ∈ N g := by
    intro q hq
    obtain ⟨L, R, a1, a2, a3, a4⟩ := moved_one (flip := flip) ok H A fresh dup F hq (h.arrive q hq)
    have e1 : L = X.left q := by simpa using a1.symm.trans (h.drop q hq)
    subst e1
    have e2 : R = X.got q := by simpa using a2.symm.trans (h.take q hq)
    subst e2
    exact ⟨a3, a4⟩
  exact stored_ok ok H A (fun q hq => (h1 q hq).1) (fun q hq => (h1 q hq).2) h.store

end Verif.Migrate
