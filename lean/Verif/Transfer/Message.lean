import Verif.Transfer.Lemmas

/-! # Lemmas: a message is packed and unpacked -/

namespace Verif.Transfer

open Verif.Topology

variable {V : Type} {cn : Bool} {G : Whole} {S R0 : Side V} {src dest : Nat} {byNum : Nat → Bool} {sel : Nat → List El}
  {pick : Topo → Nat → Nat}

theorem forall₂_imp_mem {A B : Type} {P Q : A → B → Prop} {l : List A} {m : List B} (h : List.Forall₂ P l m)
    (hi : ∀ a b, a ∈ l → P a b → Q a b) : List.Forall₂ Q l m := by
  induction h with
  | nil => exact .nil
  | @cons a b l m hp _ ih => exact .cons (hi a b (by simp) hp) (ih fun a b ha => hi a b (by simp [ha]))

theorem codes_map {P : El → Item → Prop} {l : List El} {its : List Item} (h : List.Forall₂ P l its) :
    List.Forall₂ (fun e (p : Item × List Int) => P e p.1 ∧ p.2 = []) l (its.map fun i => (i, [])) := by
  induction h with
  | nil => exact .nil
  | cons hp _ ih => exact .cons ⟨hp, rfl⟩ ih

/-- What is packed can be read. -/
theorem pack_ok (c : Ctx cn G S R0 src dest byNum sel pick) (tags : Bool) :
    ∃ M : Msg V, pack src dest byNum tags sel S = some ((allOf sel).foldl (touch src dest) S, M) ∧
      M.nodes = (sel 0).map S.num ∧ (∀ t, M.marked t = (marks dest S (sel t)).length) ∧
      M.data = (if tags then some fun t => (marks dest S (sel t)).map ((allOf sel).foldl (touch src dest) S).tags
        else none) ∧
      ∀ t, 0 < t → t < 4 → ∃ its, items M cn t = some its ∧ List.Forall₂ (CodesT S byNum dest sel cn t) (sel t) its := by
  have hcn : S.T.cn = cn := (reach_inv c.sender.reach).2
  have hty : ∀ t, ∀ e ∈ sel t, e.ty = t := fun t e he => (c.live t e he).2
  have hpos : ∀ t, 0 < t → t < 4 → ∀ e ∈ sel t, S.known byNum dest e = false → ∀ x ∈ S.T.low e,
      ∃ j, positions sel x = some j ∧ (sel (t - 1))[j]? = some x :=
    fun t h0 h4 e he hk x hx => positions_ok hty (by omega) (c.closed.low t h0 h4 e he hk x hx)
  obtain ⟨c1, i1, p1, d1, f1⟩ := packConn_ok (sel 1) (hpos 1 (by omega) (by omega))
  obtain ⟨c2, i2, p2, d2, f2⟩ := packConn_ok (sel 2) (hpos 2 (by omega) (by omega))
  obtain ⟨c3, i3, p3, d3, f3⟩ := packConn_ok (sel 3) (hpos 3 (by omega) (by omega))
  have hh : ∃ h r, (if S.T.cn then packHigh S byNum dest (positions sel) (sel 0) (sel 3) else some ([], [])) = some h ∧
      (if cn = true then decodeHigh i3 h.1 h.2 else some (i3.map fun i => (i, []))) = some r ∧
      List.Forall₂ (CodesT S byNum dest sel cn 3) (sel 3) r := by
    cases hc : cn with
    | true =>
      rw [hc] at hcn
      obtain ⟨h, r, q1, q2, q3⟩ := packHigh_ok (pos := positions sel) (nodes := sel 0) (sel 3)
        (fun e he hk x hx => positions_ok hty (by omega) (c.closed.nodes hcn e he hk x hx)) i3 f3
      refine ⟨h, r, by rw [hcn]; simpa using q1, by simpa using q2, forall₂_imp_mem q3 ?_⟩
      intro e p _ hp
      exact ⟨hp.1, fun hk => ⟨fun _ => hp.2 hk, fun h => absurd ⟨rfl, rfl⟩ h⟩⟩
    | false =>
      rw [hc] at hcn
      refine ⟨([], []), i3.map fun i => (i, []), by rw [hcn]; rfl, by simp, forall₂_imp_mem (codes_map f3) ?_⟩
      intro e p _ hp
      exact ⟨hp.1, fun _ => ⟨fun h => (by cases h.2), fun _ => hp.2⟩⟩
  obtain ⟨h, r, hp, hd, hf⟩ := hh
  have p1 : packConn S byNum dest (positions sel) (sel 0) (sel 1) = some c1 := p1
  have p2 : packConn S byNum dest (positions sel) (sel 1) (sel 2) = some c2 := p2
  have p3 : packConn S byNum dest (positions sel) (sel 2) (sel 3) = some c3 := p3
  have hall : sel 0 ++ sel 1 ++ sel 2 ++ sel 3 = allOf sel := by unfold allOf; simp only [List.append_assoc]
  refine ⟨⟨(sel 0).map S.num, fun t => if t = 1 then c1.1 else if t = 2 then c2.1 else c3.1,
      fun t => if t = 1 then c1.2 else if t = 2 then c2.2 else c3.2, h.1, h.2,
      fun t => (marks dest S (sel t)).length,
      if tags then some fun t => (marks dest S (sel t)).map ((allOf sel).foldl (touch src dest) S).tags
      else none⟩, ?_, ?_⟩
  · unfold pack
    simp only [p1, p2, p3, hp, hall]
  · refine ⟨rfl, fun _ => rfl, rfl, fun t h0 h4 => ?_⟩
    rcases (by omega : t = 1 ∨ t = 2 ∨ t = 3) with rfl | rfl | rfl
    · refine ⟨i1.map fun i => (i, []), ?_, forall₂_imp_mem (codes_map f1) ?_⟩
      · simp [items, d1]
      · intro e p _ hp; exact ⟨hp.1, fun _ => ⟨fun h => (by cases h.1), fun _ => hp.2⟩⟩
    · refine ⟨i2.map fun i => (i, []), ?_, forall₂_imp_mem (codes_map f2) ?_⟩
      · simp [items, d2]
      · intro e p _ hp; exact ⟨hp.1, fun _ => ⟨fun h => (by cases h.1), fun _ => hp.2⟩⟩
    · refine ⟨r, ?_, hf⟩
      simp only [items, Nat.reduceEqDiff, if_false, d3, true_and]
      exact hd

theorem rel_mark {R : Side V} {nm : El → Nat} {l : List El} {out : List (El × Bool)}
    (h : List.Forall₂ (Rel S dest R nm) l out) :
    List.Forall₂ (fun e p => p.2 = (S.owner e != (dest : Int))) l out := forall₂_imp_mem h fun _ _ _ h => h.2.2

/-- One type above nodes. -/
theorem level_ok (c : Ctx cn G S R0 src dest byNum sel pick) (dup : Bool) {t : Nat} (h0 : 0 < t) (h3 : t < 4)
    {M : Msg V} (hm : M.marked t = (marks dest S (sel t)).length) {its : List (Item × List Int)}
    (hi : items M cn t = some its) (hf : List.Forall₂ (CodesT S byNum dest sel cn t) (sel t) its)
    (hw : (sel t).Pairwise fun a b => a = b → Has R0 (name S.num a))
    {done : List El} {R : Side V} {nm : El → Nat} (hM : Mid cn G S R0 done R nm)
    (hd : ∀ x ∈ done, ∃ s, s < t ∧ x ∈ sel s) {prev nodes : List El} (hp : Par S (sel (t - 1)) prev R nm)
    (hn : Par S (sel 0) nodes R nm) :
    ∃ R' out nm', level dest src dup pick M t prev nodes R = some (R', out) ∧ Mid cn G S R0 (sel t ++ done) R' nm' ∧
      Ext R nm R' nm' ∧ List.Forall₂ (Rel S dest R' nm') (sel t) out := by
  have hdis : ∀ e ∈ sel t, e ∉ done := by
    intro e he hed
    obtain ⟨s, hs, hes⟩ := hd e hed
    have := (c.live t e he).2
    have := (c.live s e hes).2
    omega
  have hf' : List.Forall₂ (fun e p => e ∈ sel t ∧ CodesT S byNum dest sel cn t e p) (sel t) its :=
    forall₂_imp_mem hf fun e p he h => ⟨he, h⟩
  obtain ⟨R', out, nm', h1, h2, h4, h5⟩ := run_ok (f := upStep dest src dup pick t prev nodes) (dest := dest)
    (D := fun _ => True) (fun _ _ _ => trivial)
    (P := fun R nm => Par S (sel (t - 1)) prev R nm ∧ Par S (sel 0) nodes R nm)
    (fun R nm R1 nm1 h he => ⟨h.1.ext he, h.2.ext he⟩)
    (fun done R nm e a hM hP hc _ _ => up_ok c dup h0 h3 done R nm e a hM hP hc)
    (sel t) its hf' done R nm hM ⟨hp, hn⟩ hw (fun e he hed => absurd hed (hdis e he)) (fun _ _ => trivial)
  refine ⟨R', out, nm', ?_, h2, h4, h5⟩
  unfold level
  rw [(reach_inv hM.reach).2, hi]
  simp only [h1, checked]
  rw [marked_length (rel_mark h5), hm, if_pos rfl]

/-- The receiver's elements after all types have been processed. -/
theorem unpack_mid (c : Ctx cn G S R0 src dest byNum sel pick) (dup : Bool)
    (hw : ∀ t, t < 4 → (sel t).Pairwise fun a b => a = b → Has R0 (name S.num a)) {M : Msg V}
    (hnodes : M.nodes = (sel 0).map S.num) (hm : ∀ t, M.marked t = (marks dest S (sel t)).length)
    (hits : ∀ t, 0 < t → t < 4 → ∃ its, items M cn t = some its ∧
      List.Forall₂ (CodesT S byNum dest sel cn t) (sel t) its) :
    ∃ R3 nm out, Mid cn G S R0 (allOf sel) R3 nm ∧
      (∀ t, t < 4 → List.Forall₂ (Rel S dest R3 nm) (sel t) (out t)) ∧
      (M.data = none → unpack dest src dup pick M R0 = some (R3, out)) ∧
      ∀ d R4, M.data = some d → putAll out d R3 = some R4 → unpack dest src dup pick M R0 = some (R4, out) := by
  have f0 : List.Forall₂ (fun e g => e ∈ sel 0 ∧ g = S.num e) (sel 0) M.nodes := by
    rw [hnodes]
    have : ∀ l : List El, (∀ e ∈ l, e ∈ sel 0) →
        List.Forall₂ (fun e g => e ∈ sel 0 ∧ g = S.num e) l (l.map S.num) := by
      intro l
      induction l with
      | nil => intro _; exact .nil
      | cons x l ih => intro h; exact .cons ⟨h x (by simp), rfl⟩ (ih fun e he => h e (by simp [he]))
    exact this _ fun _ h => h
  obtain ⟨Ra, l0, na, a1, a2, -, a4⟩ := run_ok (f := nodeStep dest pick (oldNodes R0)) (dest := dest)
    (D := fun x => ∃ t, x ∈ sel t) (fun e a h => ⟨0, h.1⟩) (P := fun _ _ => True) (fun _ _ _ _ _ _ => trivial)
    (fun done R nm e a hM _ hc hd hdd => node_ok c done R nm e a hM hc hd hdd)
    (sel 0) M.nodes f0 [] R0 R0.num c.start trivial (hw 0 (by omega)) (by simp) (by simp)
  have pa := par_of_rel a4
  obtain ⟨i1, i1', i1''⟩ := hits 1 (by omega) (by omega)
  obtain ⟨i2, i2', i2''⟩ := hits 2 (by omega) (by omega)
  obtain ⟨i3, i3', i3''⟩ := hits 3 (by omega) (by omega)
  obtain ⟨Rb, l1, nb, b1, b2, b3, b4⟩ := level_ok c dup (t := 1) (by omega) (by omega) (hm 1) i1' i1''
    (hw 1 (by omega)) a2 (by intro x hx; exact ⟨0, by omega, by simpa using hx⟩) pa pa
  obtain ⟨Rc, l2, nc, c1, c2, c3, c4⟩ := level_ok c dup (t := 2) (by omega) (by omega) (hm 2) i2' i2''
    (hw 2 (by omega)) b2 (by
      intro x hx
      simp only [List.mem_append, List.append_nil] at hx
      rcases hx with h | h
      exacts [⟨1, by omega, h⟩, ⟨0, by omega, h⟩]) (par_of_rel b4) (pa.ext b3)
  obtain ⟨Rd, l3, nd, d1, d2, d3, d4⟩ := level_ok c dup (t := 3) (by omega) (by omega) (hm 3) i3' i3''
    (hw 3 (by omega)) c2 (by
      intro x hx
      simp only [List.mem_append, List.append_nil] at hx
      rcases hx with h | h | h
      exacts [⟨2, by omega, h⟩, ⟨1, by omega, h⟩, ⟨0, by omega, h⟩]) (par_of_rel c4) ((pa.ext b3).ext c3)
  refine ⟨Rd, nd, outs l0 l1 l2 l3, d2.mono ?_, ?_, ?_, ?_⟩
  · intro e he
    rw [mem_allOf]
    simp only [List.mem_append, List.append_nil] at he
    rcases he with h | h | h | h
    exacts [⟨3, by omega, h⟩, ⟨2, by omega, h⟩, ⟨1, by omega, h⟩, ⟨0, by omega, h⟩]
  · intro t ht
    have e1 := b3.trans (c3.trans d3)
    have e2 := c3.trans d3
    rcases (by omega : t = 0 ∨ t = 1 ∨ t = 2 ∨ t = 3) with rfl | rfl | rfl | rfl
    · exact forall₂_imp_mem a4 fun _ _ _ h => h.ext e1
    · exact forall₂_imp_mem b4 fun _ _ _ h => h.ext e2
    · exact forall₂_imp_mem c4 fun _ _ _ h => h.ext d3
    · exact d4
  · intro hda
    unfold unpack
    rw [a1]
    simp only [checked, marked_length (rel_mark a4), hm 0, if_true, b1, c1, d1, hda]
  · intro d R4 hda hput
    unfold unpack
    rw [a1]
    simp only [checked, marked_length (rel_mark a4), hm 0, if_true, b1, c1, d1, hda, hput]

/-- The sender. -/
theorem given_ok (src dest : Nat) (sel : Nat → List El) (S : Side V) :
    Given S ((allOf sel).foldl (touch src dest) S) src dest sel := by
  obtain ⟨t1, t2, t3, t4, t5, t6, t7, t8⟩ := touch_fold src dest (allOf sel) S
  refine ⟨⟨t1, t2, t3, t4, t5, t6⟩, ?_, ?_, fun e h => touch_sorted _ _ _ _ _ h⟩
  · intro t ht e he ho; exact t8 e (mem_allOf.2 ⟨t, ht, he⟩) ho
  · intro e he
    refine t7 e ?_
    rintro ⟨h1, h2⟩
    obtain ⟨t, ht, h'⟩ := mem_allOf.1 h1
    exact he h2 t ht h'

/-- A message without tags about elements the receiver has: the elements are found, nothing changes. -/
theorem inform_ok (c : Ctx cn G S R0 src dest byNum sel pick) (dup : Bool)
    (hh : ∀ t, t < 4 → ∀ e ∈ sel t, Has R0 (name S.num e)) :
    ∃ M out, pack src dest byNum false sel S = some ((allOf sel).foldl (touch src dest) S, M) ∧
      unpack dest src dup pick M R0 = some (R0, out) ∧
      ∀ t, t < 4 → ((out t).map Prod.fst).map (name R0.num) = (sel t).map (name S.num) ∧
        ∀ p ∈ out t, R0.T.alive p.1 = true := by
  obtain ⟨M, hp, hn, hm, hda, hits⟩ := pack_ok c false
  have hw : ∀ t, t < 4 → (sel t).Pairwise fun a b => a = b → Has R0 (name S.num a) := by
    intro t ht
    exact (List.pairwise_iff_forall_sublist).2 fun {a b} h _ => hh t ht a (h.subset (by simp))
  obtain ⟨R3, nm, out, hM, hrel, hu, -⟩ := unpack_mid c dup hw hn hm hits
  obtain ⟨rfl, rfl⟩ := hM.idle fun x hx => by
    cases h0 : R0.T.alive x with
    | true => rfl
    | false =>
      obtain ⟨-, -, e, he, hxe⟩ := hM.new x hx h0
      obtain ⟨t, ht, het⟩ := mem_allOf.1 he
      obtain ⟨w, hw, hwn⟩ := hh t ht e het
      have : w = x := hM.fits.inj w x (hM.old w hw).1 hx (by rw [hM.oldName hw, hwn, hxe])
      rw [this, h0] at hw
      cases hw
  refine ⟨M, out, hp, hu hda, fun t ht => ?_⟩
  have := par_of_rel (hrel t ht)
  exact ⟨this.1, fun p hp => this.2 _ (List.mem_map_of_mem hp)⟩

/-- A message is packed, and unpacked by the receiver. -/
theorem transfer_ok (c : Ctx cn G S R0 src dest byNum sel pick) (dup : Bool)
    (hw : ∀ t, t < 4 → (sel t).Pairwise fun a b => a = b → Has R0 (name S.num a)) :
    ∃ S' M R' out, pack src dest byNum true sel S = some (S', M) ∧ unpack dest src dup pick M R0 = some (R', out) ∧
      Given S S' src dest sel ∧ Received cn G S S' R0 R' dest sel (fun t => (out t).map Prod.fst) := by
  obtain ⟨M, hp, hn, hm, hda0, hits⟩ := pack_ok c true
  obtain ⟨R3, nm, out, hM, hrel, -, hu⟩ := unpack_mid c dup hw hn hm hits
  have hgiven := given_ok src dest sel S
  obtain ⟨t1, t2, t3, t4, t5, t6, t7, t8⟩ := touch_fold src dest (allOf sel) S
  generalize hS' : (allOf sel).foldl (touch src dest) S = S' at *
  let l := allOf sel
  let o := out 0 ++ (out 1 ++ (out 2 ++ out 3))
  have hall : List.Forall₂ (Rel S dest R3 nm) l o :=
    forall₂_append (hrel 0 (by omega)) (forall₂_append (hrel 1 (by omega))
      (forall₂_append (hrel 2 (by omega)) (hrel 3 (by omega))))
  have hlive : ∀ e ∈ l, S.T.alive e = true := by
    intro e he
    obtain ⟨t, _, h⟩ := mem_allOf.1 he
    exact (c.live t e h).1
  have huniq : ∀ e e', e ∈ l → e' ∈ l → name S.num e = name S.num e' → e = e' :=
    fun e e' h h' hn => c.sender.fits.inj e e' (hlive e h) (hlive e' h') hn
  have hzip : ∀ e p, (e, p) ∈ l.zip o → e ∈ l ∧ Rel S dest R3 nm e p := fun e p h =>
    ⟨(List.of_mem_zip h).1, forall₂_zip hall h⟩
  obtain ⟨R4, q1, q2, q3, q4, q5, q6, q7⟩ := putTags_ok S dest S'.tags (rel_mark hall) (by
    intro e p e' p' h h' hpp
    obtain ⟨g1, g2⟩ := hzip e p h
    obtain ⟨g3, g4⟩ := hzip e' p' h'
    rw [huniq e e' g1 g3 (by rw [← g2.2.1, ← g4.2.1, hpp])]) R3
  let da : Nat → List (Rec V) := fun t => (marks dest S (sel t)).map S'.tags
  have hdata : da 0 ++ (da 1 ++ (da 2 ++ da 3)) = (marks dest S l).map S'.tags := by
    simp only [da, l, allOf, marks, List.filter_append, List.map_append]
  have hput : putAll out da R3 = some R4 := by
    rw [putAll_eq, hdata]
    · exact q1
    · intro t ht
      rw [marked_length (rel_mark (hrel t ht)), List.length_map]
  have hu := hu da R4 hda0 hput
  -- elements of the receiver and their names
  have hpair : ∀ x e, R3.T.alive x = true → e ∈ l → name nm x = name S.num e → ∃ b, (e, (x, b)) ∈ l.zip o := by
    intro x e hx he hxe
    obtain ⟨p, h1, h2⟩ := forall₂_mem_left hall he
    have : p.1 = x := hM.fits.inj _ _ h2.1 hx (h2.2.1.trans hxe.symm)
    exact ⟨p.2, by rw [← this]; exact h1⟩
  have hnew : ∀ x, R3.T.alive x = true → R0.T.alive x = false → ∃ e ∈ l, name nm x = name S.num e ∧
      S.owner e ≠ (dest : Int) := by
    intro x hx h0
    obtain ⟨h1, -, e, he, hne⟩ := hM.new x hx h0
    refine ⟨e, he, hne, ?_⟩
    obtain ⟨t, _, het⟩ := mem_allOf.1 he
    have := hM.mark c het hx hne
    rw [h1] at this
    intro ho
    rw [ho] at this
    simp at this
  have htag : ∀ x e, R3.T.alive x = true → e ∈ l → name nm x = name S.num e → S.owner e ≠ (dest : Int) →
      R4.tags x = S'.tags e := by
    intro x e hx he hxe ho
    obtain ⟨b, hb⟩ := hpair x e hx he hxe
    exact q6 e (x, b) hb ho
  have hkeep : ∀ x, (∀ e ∈ l, name nm x = name S.num e → S.owner e = (dest : Int)) → R4.tags x = R3.tags x := by
    intro x h
    refine q7 x fun e p hz hpx => ?_
    obtain ⟨g1, g2⟩ := hzip e p hz
    exact h e g1 (by rw [← hpx]; exact g2.2.1)
  have hnum : ∀ x, R3.T.alive x = true → R4.num x = nm x ∧ R4.owner x = (G.owner (name nm x) : Int) := by
    intro x hx
    by_cases hex : ∃ e ∈ l, name nm x = name S.num e ∧ S.owner e ≠ (dest : Int)
    · obtain ⟨e, he, hxe, ho⟩ := hex
      have h := htag x e hx he hxe ho
      have h1 := congrArg Rec.num h
      have h2 := congrArg Rec.owner h
      simp only [Side.tags] at h1 h2
      rw [h1, h2, t2, t3, c.sender.owner e (hlive e he), hxe]
      refine ⟨?_, rfl⟩
      have := congrArg El.id hxe
      exact this.symm
    · have h := hkeep x fun e he hxe => by
        by_contra ho
        exact hex ⟨e, he, hxe, ho⟩
      have h0 : R0.T.alive x = true := by
        cases h0 : R0.T.alive x with
        | true => rfl
        | false => exact absurd (hnew x hx h0) (by rintro ⟨e, he, h1, h2⟩; exact hex ⟨e, he, h1, h2⟩)
      have h1 := congrArg Rec.num h
      have h2 := congrArg Rec.owner h
      simp only [Side.tags] at h1 h2
      rw [h1, h2, hM.num, (hM.old x h0).2.2.1, c.receiver.owner x h0, hM.oldName h0]
      exact ⟨(hM.old x h0).2.1.symm, rfl⟩
  have hname : ∀ x, R3.T.alive x = true → name R4.num x = name nm x := fun x hx => by
    simp only [name, (hnum x hx).1]
  have hamong : ∀ g, Among S sel g ↔ ∃ e ∈ l, name S.num e = g := by
    intro g
    constructor
    · rintro ⟨t, ht, e, he, h⟩; exact ⟨e, mem_allOf.2 ⟨t, ht, he⟩, h⟩
    · rintro ⟨e, he, h⟩
      obtain ⟨t, ht, h'⟩ := mem_allOf.1 he
      exact ⟨t, ht, e, h', h⟩
  refine ⟨S', M, R4, out, hp, hu, hgiven, ?_⟩
  · constructor
    · constructor
      · rw [q2]; exact hM.reach
      · rw [q2]; exact hM.plain
      · rw [q2]; exact hM.fits.congr hM.reach fun x hx => (hnum x hx).1
      · intro e he
        rw [q2] at he
        rw [(hnum e he).2, hname e he]
    · intro t ht
      have := par_of_rel (hrel t ht)
      rw [← this.1]
      exact map_name_congr fun x hx => (hnum x (this.2 x hx)).1
    · intro t ht x hx
      rw [q2]; exact (par_of_rel (hrel t ht)).2 x hx
    · intro x hx
      obtain ⟨h1, h2, h3, h4⟩ := hM.old x hx
      refine ⟨by rw [q2]; exact h1, (hnum x h1).1.trans h2, ?_, by rw [q3]; exact h4⟩
      rw [(hnum x h1).2, c.receiver.owner x hx, hM.oldName hx]
    · intro x hx
      rw [q2]
      exact ⟨hM.oldLow x hx, hM.oldHigh x hx⟩
    · intro x hx h0
      rw [q2] at hx
      obtain ⟨e, he, hxe, -⟩ := hnew x hx h0
      refine ⟨by rw [q3]; exact (hM.new x hx h0).2.1, ?_⟩
      rw [hname x hx, hamong]
      exact ⟨e, he, hxe.symm⟩
    · intro x hx t ht e he hxe ho
      rw [q2] at hx
      rw [hname x hx] at hxe
      have h := htag x e hx (mem_allOf.2 ⟨t, ht, he⟩) hxe ho
      have h1 := congrArg Rec.val h
      have h2 := congrArg Rec.procs h
      simp only [Side.tags] at h1 h2
      exact ⟨by rw [h1, t4], h2⟩
    · intro x hx hk
      have h := hkeep x fun e he hxe => by
        rw [hM.oldName hx] at hxe
        rcases hk with h | h
        · rw [c.receiver.owner x hx, hxe] at h
          rw [c.sender.owner e (hlive e he)]; exact h
        · exact absurd ((hamong _).2 ⟨e, he, hxe.symm⟩) h
      have h1 := congrArg Rec.val h
      have h2 := congrArg Rec.procs h
      simp only [Side.tags] at h1 h2
      rw [h1, h2, hM.val, hM.procs]
      exact ⟨rfl, rfl⟩
    · rw [q4, q5]; exact ⟨hM.sh, hM.gh⟩

end Verif.Transfer
