import Verif.Transfer.Sending

/-! # Lemmas: receiving the messages of the first round -/

namespace Verif.Transfer

open Verif.Topology

variable {V : Type} {n : Nat} {cn : Bool} {G : Whole} {W : Nat → Side V} {byNum : Nat → Bool} {pick : Topo → Nat → Nat}

theorem foundProc_iff {q : Nat} {l : List Nat} (h : l.Pairwise (· < ·)) : foundProc q l = true ↔ q ∈ l := by
  unfold foundProc
  induction l with
  | nil => simp
  | cons a l ih =>
    rw [List.pairwise_cons] at h
    by_cases ha : a < q
    · rw [List.dropWhile_cons, if_pos (by simpa using ha), ih h.2, List.mem_cons]
      exact ⟨Or.inr, fun h' => by rcases h' with rfl | h'; exacts [absurd ha (Nat.lt_irrefl _), h']⟩
    · rw [List.dropWhile_cons, if_neg (by simpa using ha)]
      simp only [List.head?_cons, beq_iff_eq, Option.some.injEq, List.mem_cons]
      constructor
      · intro h'; exact Or.inl h'.symm
      · rintro (h' | h')
        · exact h'.symm
        · have := h.1 q h'; omega

/-- The loop over the elements received. -/
theorem arrive_fold (me : Nat) (l : List El) (R : Side V) (told : List (Int × El)) :
    let st := l.foldl (arriveOne me) (R, told)
    Like R st.1 ∧ st.1.status = R.status ∧ (∀ x, R.owner x = (me : Int) → st.1.procs x = R.procs x) ∧
      (∀ y ∈ st.2, y ∈ told ∨ (y.2 ∈ l ∧ y.1 = R.owner y.2 ∧ y.1 ≠ (me : Int))) ∧ (∀ y ∈ told, y ∈ st.2) ∧
      ∀ x ∈ l, R.owner x ≠ (me : Int) → foundProc me (R.procs x) = true ∨ (R.owner x, x) ∈ st.2 := by
  induction l generalizing R told with
  | nil => exact ⟨Like.rfl' _, rfl, fun _ _ => rfl, fun _ h => Or.inl h, fun _ h => h, by simp⟩
  | cons a l ih =>
    simp only [List.foldl_cons]
    by_cases h1 : R.owner a = (me : Int)
    · rw [show arriveOne me (R, told) a = (R, told) by simp only [arriveOne, h1, if_true]]
      obtain ⟨b1, b2, b3, b4, b5, b6⟩ := ih R told
      refine ⟨b1, b2, b3, fun y hy => ?_, b5, fun x hx ho => ?_⟩
      · rcases b4 y hy with h | h
        · exact Or.inl h
        · exact Or.inr ⟨by simp [h.1], h.2⟩
      · rcases List.mem_cons.1 hx with rfl | hx
        · exact absurd h1 ho
        · exact b6 x hx ho
    · cases h2 : foundProc me (R.procs a) with
      | true =>
        rw [show arriveOne me (R, told) a = (R, told) by simp only [arriveOne, h1, if_false, h2, if_true]]
        obtain ⟨b1, b2, b3, b4, b5, b6⟩ := ih R told
        refine ⟨b1, b2, b3, fun y hy => ?_, b5, fun x hx ho => ?_⟩
        · rcases b4 y hy with h | h
          · exact Or.inl h
          · exact Or.inr ⟨by simp [h.1], h.2⟩
        · rcases List.mem_cons.1 hx with rfl | hx
          · exact Or.inl h2
          · exact b6 x hx ho
      | false =>
        rw [show arriveOne me (R, told) a = ({ R with procs := set1 R.procs a (addProc me (R.procs a)) },
            told ++ [(R.owner a, a)]) by simp only [arriveOne, h1, if_false, h2, Bool.false_eq_true]]
        obtain ⟨b1, b2, b3, b4, b5, b6⟩ :=
          ih { R with procs := set1 R.procs a (addProc me (R.procs a)) } (told ++ [(R.owner a, a)])
        refine ⟨⟨b1.T, b1.num, b1.owner, b1.val, b1.sh, b1.gh⟩, b2, fun x hx => ?_, fun y hy => ?_,
          fun y hy => b5 y (by simp [hy]), fun x hx ho => ?_⟩
        · rw [b3 x hx]
          exact set1_ne _ _ (by rintro rfl; exact h1 hx)
        · rcases b4 y hy with h | h
          · rw [List.mem_append, List.mem_singleton] at h
            rcases h with h | rfl
            · exact Or.inl h
            · exact Or.inr ⟨by simp, rfl, h1⟩
          · exact Or.inr ⟨by simp [h.1], h.2⟩
        · by_cases hxa : x = a
          · subst hxa; exact Or.inr (b5 _ (by simp))
          · rcases List.mem_cons.1 hx with h | hx
            · exact absurd h hxa
            · have := b6 x hx ho
              simp only [set1_ne _ _ hxa] at this
              exact this

/-- Processor `q` during the first round; `S1` are the processors after they have packed their messages. -/
structure Taking (n : Nat) (cn : Bool) (G : Whole) (W S1 : Nat → Side V) (sendto : Nat → El → List Nat) (q : Nat) (R : Side V)
    (told : List (Int × El)) : Prop where
  piece : Piece cn G R
  more : More (W q) R
  ok : OwnOk n q R
  own : ∀ x, R.T.alive x = true → R.owner x = (q : Int) → (W q).T.alive x = true ∧ R.procs x = (S1 q).procs x
  new : ∀ x, R.T.alive x = true → (W q).T.alive x = true ∨ Wanted n cn G W sendto q (name R.num x)
  toldOk : ∀ y ∈ told, R.T.alive y.2 = true ∧ R.owner y.2 = y.1 ∧ y.1 ≠ (q : Int)
  tell : ∀ x, R.T.alive x = true → (W q).T.alive x = false → (R.owner x, x) ∈ told ∨
    ∃ e, (W (G.owner (name R.num x))).T.alive e = true ∧
      name (W (G.owner (name R.num x))).num e = name R.num x ∧ q ∈ (S1 (G.owner (name R.num x))).procs e
  vals : ∀ f, SameValues n W f → ∀ x, R.T.alive x = true → R.val x = f (name R.num x)

/-- The elements found or created have been told about. -/
theorem mem_received {out : Nat → List (El × Bool)} {x : El} :
    x ∈ received out ↔ ∃ t, t < 4 ∧ x ∈ (out t).map Prod.fst := by
  unfold received
  simp only [List.map_append, List.mem_append]
  constructor
  · rintro (h | h | h | h)
    exacts [⟨0, by omega, h⟩, ⟨1, by omega, h⟩, ⟨2, by omega, h⟩, ⟨3, by omega, h⟩]
  · rintro ⟨t, ht, h⟩
    rcases (by omega : t = 0 ∨ t = 1 ∨ t = 2 ∨ t = 3) with rfl | rfl | rfl | rfl <;> simp [h]

/-- One message of the first round. -/
theorem take_step (ok : G.Ok) (H : Spread n cn G W) (fresh : Fresh cn pick) (dup : Bool) {sendto : Nat → El → List Nat}
    {S1 : Nat → Side V} {p q : Nat} (hp : p < n) (hq : q < n) (hne : p ≠ q)
    (hm : ∀ e, (sendto p e).Nodup) {M : Msg V} (hM : Mail (W p) p q byNum (chosen (W p) (sendto p) q) M (S1 p))
    {R : Side V} {told : List (Int × El)} (h : Taking n cn G W S1 sendto q R told) :
    ∃ R' out, unpack q p dup pick M R = some (R', out) ∧
      Taking n cn G W S1 sendto q ((received out).foldl (arriveOne q) (R', told)).1
        ((received out).foldl (arriveOne q) (R', told)).2 ∧
      Kept R ((received out).foldl (arriveOne q) (R', told)).1 ∧
      ∀ g, Among (W p) (gather (W p) byNum q (chosen (W p) (sendto p) q)) g →
        Has ((received out).foldl (arriveOne q) (R', told)).1 g := by
  obtain ⟨S, S', hlike, hknown, hpk, hrest, hmono⟩ := hM
  have PW := H.piece p hp
  have hl : ∀ t, ∀ e ∈ chosen (W p) (sendto p) q t, (W p).T.alive e = true ∧ e.ty = t := fun t e he => by
    have := (mem_chosen PW.reach (sendto p) q t e).1 he; exact ⟨this.1, this.2.1⟩
  have c := ctx_of (byNum := byNum) ok H fresh hp hq hne hlike (fun e _ => hknown e) h.piece h.more hl
  have hnd := gather_nodup (W p) byNum q (chosen (W p) (sendto p) q) (nodup_chosen (W p) hm q)
  generalize hsel : gather (W p) byNum q (chosen (W p) (sendto p) q) = sel at *
  have hw : ∀ t, t < 4 → (sel t).Pairwise fun a b => a = b → Has R (name S.num a) := fun t _ =>
    (hnd t).imp fun h1 h2 => absurd h2 h1
  obtain ⟨S'', M'', R', out, k1, k2, hg, hr⟩ := transfer_ok c dup hw
  rw [hpk] at k1
  simp only [Option.some.injEq, Prod.mk.injEq] at k1
  obtain ⟨rfl, rfl⟩ := k1
  obtain ⟨a1, a2, a3, a4, a5, a6⟩ := arrive_fold q (received out) R' told
  generalize hst : (received out).foldl (arriveOne q) (R', told) = st at *
  obtain ⟨R2, told2⟩ := st
  simp only at a1 a2 a3 a4 a5 a6 ⊢
  have hkept : Kept R R' := ⟨fun x hx => by
    obtain ⟨b1, b2, b3, -⟩ := hr.old x hx; exact ⟨b1, b2, b3⟩, hr.conn⟩
  have hkept2 : Kept R R2 := hkept.trans a1.kept
  have hnm : R2.num = R'.num := a1.num
  have hT2 : R2.T = R'.T := a1.T
  have hO2 : R2.owner = R'.owner := a1.owner
  have hpart : ∀ t, t < 4 → ∀ e ∈ sel t, (W p).T.alive e = true ∧
      ∃ e', (W p).T.alive e' = true ∧ q ∈ sendto p e' ∧ Part cn G (name (W p).num e') (name (W p).num e) := by
    intro t _ e he
    rw [← hsel] at he
    obtain ⟨⟨s, e', he', hpt⟩, ha, -⟩ := gather_part PW hl t e he
    have := (mem_chosen PW.reach (sendto p) q s e').1 he'
    exact ⟨ha, e', this.1, this.2.2, hpt⟩
  have hnewOwn : ∀ x, R'.T.alive x = true → R.T.alive x = false → R'.owner x ≠ (q : Int) := by
    intro x hx h0 ho
    obtain ⟨-, t, ht, e, he, hn⟩ := hr.new x hx h0
    have := c.known.home t e he (by
      rw [c.sender.owner e (c.live t e he).1, hn, ← hr.piece.owner x hx, ho])
    rw [hn] at this
    obtain ⟨w, hw1, hw2⟩ := this
    have hww : w = x := hr.piece.fits.inj w x (hkept.old w hw1).1 hx ((hkept.name hw1).trans hw2)
    rw [hww, h0] at hw1
    cases hw1
  have hdec : ∀ x, R.T.alive x = true ∨ R.T.alive x = false := fun x => by cases R.T.alive x <;> simp
  have hok' : OwnOk n q R' := by
    have key : ∀ x, R'.T.alive x = true → R'.owner x = (q : Int) → R.T.alive x = true ∧ R.owner x = (q : Int) ∧
        R'.procs x = R.procs x ∧ R'.status x = R.status x := by
      intro x hx ho
      rcases hdec x with h0 | h0
      · obtain ⟨-, -, b3, b4⟩ := hr.old x h0
        have ho' := b3.symm.trans ho
        exact ⟨h0, ho', (hr.keep x h0 (Or.inl ho')).2, b4⟩
      · exact absurd ho (hnewOwn x hx h0)
    refine ⟨fun x hx ho => ?_, fun x hx ho => ?_, fun x hx ho => ?_, fun x hx ho => ?_⟩
    · obtain ⟨k1, k2, k3, k4⟩ := key x hx ho; rw [k3]; exact h.ok.sorted x k1 k2
    · obtain ⟨k1, k2, k3, k4⟩ := key x hx ho; rw [k3]; exact h.ok.range x k1 k2
    · obtain ⟨k1, k2, k3, k4⟩ := key x hx ho; rw [k3, k4]; exact h.ok.status x k1 k2
    · rcases hdec x with h0 | h0
      · obtain ⟨-, -, b3, b4⟩ := hr.old x h0
        rw [b4]; exact h.ok.ghost x h0 (by rw [← b3]; exact ho)
      · exact (hr.new x hx h0).1
  refine ⟨R', out, k2, ?_⟩
  rw [hst]
  refine ⟨?_, hkept2, ?_⟩
  · constructor
    · exact a1.piece hr.piece
    · exact ⟨h.more.kept.trans hkept2, a1.sh.trans (hr.lists.1.trans h.more.sh), a1.gh.trans (hr.lists.2.trans h.more.gh)⟩
    · refine ⟨fun x hx ho => ?_, fun x hx ho => ?_, fun x hx ho => ?_, fun x hx ho => ?_⟩ <;> rw [hT2] at hx <;> rw [hO2] at ho
      · rw [a3 x ho]; exact hok'.sorted x hx ho
      · rw [a3 x ho]; exact hok'.range x hx ho
      · rw [a3 x ho, a2]; exact hok'.status x hx ho
      · rw [a2]; exact hok'.ghost x hx ho
    · intro x hx ho
      rw [hT2] at hx; rw [hO2] at ho
      rw [a3 x ho]
      rcases hdec x with h0 | h0
      · have ho' := (hr.old x h0).2.2.1.symm.trans ho
        rw [(hr.keep x h0 (Or.inl ho')).2]
        exact h.own x h0 ho'
      · exact absurd ho (hnewOwn x hx h0)
    · intro x hx
      rw [hT2] at hx
      rw [hnm]
      rcases hdec x with h0 | h0
      · rw [hkept.name h0]; exact h.new x h0
      · obtain ⟨-, t, ht, e, he, hn⟩ := hr.new x hx h0
        obtain ⟨-, e', b1, b2, b3⟩ := hpart t ht e he
        rw [← hn, hlike.num]
        exact Or.inr ⟨p, hp, hne, e', b1, b2, b3⟩
    · intro y hy
      rw [hT2, hO2]
      rcases a4 y hy with hy | ⟨b1, b2, b3⟩
      · obtain ⟨c1, c2, c3⟩ := h.toldOk y hy
        exact ⟨(hkept.old _ c1).1, (hkept.old _ c1).2.2.trans c2, c3⟩
      · obtain ⟨t, ht, hx⟩ := mem_received.1 b1
        exact ⟨hr.live t ht _ hx, b2.symm, b3⟩
    · intro x hx h0q
      rw [hT2] at hx
      rw [hnm, hO2]
      rcases hdec x with h0 | h0
      · rcases h.tell x h0 h0q with b | b
        · rw [(hr.old x h0).2.2.1]; exact Or.inl (a5 _ b)
        · rw [hkept.name h0]; exact Or.inr b
      · obtain ⟨-, t, ht, e, he, hn⟩ := hr.new x hx h0
        have hxo := hnewOwn x hx h0
        have hea := (hpart t ht e he).1
        have hee : name (W p).num e = name R'.num x := by rw [← hlike.num]; exact hn
        have hse : S.owner e = R'.owner x := by
          rw [c.sender.owner e (c.live t e he).1, hn, hr.piece.owner x hx]
        have hpr := (hr.data x hx t ht e he hn.symm (by rw [hse]; exact hxo)).2
        by_cases hz : S.owner e = (p : Int)
        · right
          have hzp : G.owner (name R'.num x) = p := by
            have := hr.piece.owner x hx
            rw [← hse, hz] at this
            exact_mod_cast this.symm
          rw [hzp]
          exact ⟨e, hea, hee, hmono e q (((hg.own t ht e he hz).2 q).2 (Or.inl rfl))⟩
        · left
          have hz' : (W p).owner e ≠ (p : Int) := by rw [← hlike.owner]; exact hz
          rw [(hg.rest e fun h => absurd h hz).1, hrest e hea hz'] at hpr
          have hxin : x ∈ received out := by
            have : name S.num e ∈ ((out t).map Prod.fst).map (name R'.num) := by
              rw [hr.same t ht]; exact List.mem_map_of_mem he
            obtain ⟨y, hy, hyn⟩ := List.mem_map.1 this
            have : y = x := hr.piece.fits.inj y x (hr.live t ht y hy) hx (hyn.trans hn)
            rw [← this]
            exact mem_received.2 ⟨t, ht, hy⟩
          rcases a6 x hxin hxo with b | b
          · rw [hpr, foundProc_iff (H.sorted p hp e hea), H.procs p hp e hea] at b
            obtain ⟨w, hw1, hw2⟩ := b.2
            have hw3 := h.more.kept.old w hw1
            have : w = x := hr.piece.fits.inj w x (hkept.old w hw3.1).1 hx (by
              rw [hkept.name hw3.1, h.more.kept.name hw1, hw2, hee])
            rw [this, h0q] at hw1
            cases hw1
          · exact b
    · intro f hf x hx
      rw [hT2] at hx
      rw [a1.val, hnm]
      by_cases ham : R'.owner x ≠ (q : Int) ∧ Among S sel (name R'.num x)
      · obtain ⟨ho, t, ht, e, he, hn⟩ := ham
        have hse : S.owner e = R'.owner x := by
          rw [c.sender.owner e (c.live t e he).1, hn, hr.piece.owner x hx]
        rw [(hr.data x hx t ht e he hn.symm (by rw [hse]; exact ho)).1, hlike.val, ← hn, hlike.num]
        exact hf p hp e (hpart t ht e he).1
      · rcases hdec x with h0 | h0
        · rw [hkept.name h0, (hr.keep x h0 ?_).1]
          · exact h.vals f hf x h0
          · by_cases ho : R.owner x = (q : Int)
            · exact Or.inl ho
            · right
              intro hA
              exact ham ⟨by rw [(hr.old x h0).2.2.1]; exact ho, by rw [hkept.name h0]; exact hA⟩
        · exact absurd ⟨hnewOwn x hx h0, (hr.new x hx h0).2⟩ ham
  · rintro g ⟨t, ht, e, he, hn⟩
    have : name S.num e ∈ ((out t).map Prod.fst).map (name R'.num) := by
      rw [hr.same t ht]; exact List.mem_map_of_mem he
    obtain ⟨y, hy, hyn⟩ := List.mem_map.1 this
    refine ⟨y, ?_, ?_⟩
    · rw [hT2]; exact hr.live t ht y hy
    · rw [hnm, hyn, hlike.num]; exact hn

/-- All messages of the first round, in any order. -/
theorem take_all (ok : G.Ok) (H : Spread n cn G W) (fresh : Fresh cn pick) (dup : Bool) {sendto : Nat → El → List Nat}
    {S1 : Nat → Side V} {q : Nat} (hq : q < n) (hm : ∀ p, p < n → ∀ e, (sendto p e).Nodup) :
    ∀ (ms : List (Nat × Msg V)), (∀ m ∈ ms, m.1 < n ∧ m.1 ≠ q ∧
        Mail (W m.1) m.1 q byNum (chosen (W m.1) (sendto m.1) q) m.2 (S1 m.1)) →
      ∀ R told, Taking n cn G W S1 sendto q R told →
      ∃ R' told', takeMarked q dup pick ms (R, told) = some (R', told') ∧ Taking n cn G W S1 sendto q R' told' ∧ Kept R R' ∧
        ∀ m ∈ ms, ∀ g, Among (W m.1) (gather (W m.1) byNum q (chosen (W m.1) (sendto m.1) q)) g → Has R' g := by
  intro ms
  induction ms with
  | nil => intro _ R told h; exact ⟨R, told, rfl, h, Kept.rfl' R, by simp⟩
  | cons m ms ih =>
    obtain ⟨p, M⟩ := m
    intro hms R told h
    obtain ⟨hp, hne, hM⟩ := hms (p, M) (by simp)
    obtain ⟨R1, out, k1, k2, k3, k4⟩ := take_step ok H fresh dup hp hq hne (hm p hp) hM h
    obtain ⟨R', told', l1, l2, l3, l4⟩ := ih (fun m hm => hms m (by simp [hm])) _ _ k2
    refine ⟨R', told', ?_, l2, k3.trans l3, ?_⟩
    · simp only [takeMarked, k1]; exact l1
    · intro m hm' g hg
      rcases List.mem_cons.1 hm' with rfl | hm'
      · exact l3.has (k4 g hg)
      · exact l4 m hm' g hg

end Verif.Transfer
