import Verif.Transfer.Informing
import Verif.Parallel.Final

/-! # Lemmas: the last part of ExchangeMarked -/

namespace Verif.Transfer

open Verif.Topology

variable {V : Type} {n : Nat} {cn : Bool} {G : Whole}

/-- The processors after the second round: the owners know who has their elements. -/
structure Ready (n : Nat) (cn : Bool) (G : Whole) (D : Nat → Side V) : Prop where
  piece : ∀ p, p < n → Piece cn G (D p)
  ok : ∀ p, p < n → OwnOk n p (D p)
  procs : ∀ p, p < n → ∀ e, (D p).T.alive e = true → (D p).owner e = (p : Int) → ∀ r, r ∈ (D p).procs e ↔
    r < n ∧ Has (D r) (name (D p).num e)
  home : ∀ p, p < n → ∀ e, (D p).T.alive e = true →
    G.owner (name (D p).num e) < n ∧ Has (D (G.owner (name (D p).num e))) (name (D p).num e)

theorem insertNum_perm (num : El → Nat) (e : El) (l : List El) : (insertNum num e l).Perm (e :: l) := by
  induction l with
  | nil => exact List.Perm.refl _
  | cons x l ih =>
    simp only [insertNum]
    split
    · exact List.Perm.refl _
    · exact (ih.cons x).trans (List.Perm.swap _ _ _)

theorem sortNum_perm (num : El → Nat) (l : List El) : (sortNum num l).Perm l := by
  induction l with
  | nil => exact List.Perm.refl _
  | cons x l ih => exact (insertNum_perm num x _).trans (ih.cons x)

theorem sortNum_strict {num : El → Nat} {l : List El} (h : l.Nodup)
    (hi : ∀ a ∈ l, ∀ b ∈ l, num a = num b → a = b) : (sortNum num l).Pairwise fun a b => num a < num b := by
  have h1 := sortNum_sorted num l
  have h2 : (sortNum num l).Nodup := (sortNum_perm num l).nodup_iff.2 h
  refine (h1.and h2).imp_of_mem ?_
  intro a b ha hb hab
  refine Nat.lt_of_le_of_ne hab.1 fun hn => hab.2 ?_
  exact hi a ((sortNum_mem _ _ _).1 ha) b ((sortNum_mem _ _ _).1 hb) hn

theorem same_ty {S : Side V} (P : Piece cn G S) {a b : El} (ha : S.T.alive a = true) (hb : S.T.alive b = true)
    (ht : a.ty = b.ty) (hn : S.num a = S.num b) : a = b :=
  P.fits.inj a b ha hb (by simp only [name, ht, hn])

section
variable {D : Nat → Side V}

theorem Ready.shared (R : Ready n cn G D) {p : Nat} (hp : p < n) {e : El} (he : (D p).T.alive e = true)
    (hs : (D p).status e = .shared) : (D p).owner e = (p : Int) := by
  by_cases ho : (D p).owner e = (p : Int)
  · exact ho
  · rw [(R.ok p hp).ghost e he ho] at hs; cases hs

theorem Ready.isGhost (R : Ready n cn G D) {p : Nat} (hp : p < n) {e : El} (he : (D p).T.alive e = true) :
    (D p).status e = .ghost ↔ (D p).owner e ≠ (p : Int) := by
  constructor
  · intro hs ho
    rcases (R.ok p hp).status e he ho with h | h <;> rw [h.1] at hs <;> cases hs
  · exact (R.ok p hp).ghost e he

theorem Ready.hasOther (R : Ready n cn G D) {p : Nat} (hp : p < n) {e : El} (he : (D p).T.alive e = true)
    (ho : (D p).owner e = (p : Int)) {q : Nat} (hq : q ∈ (D p).procs e) (hne : q ≠ p) : (D p).status e = .shared := by
  rcases (R.ok p hp).status e he ho with h | h
  · exact h.1
  · exact absurd (h.2 q hq) hne

theorem Ready.storageOk (R : Ready n cn G D) {p : Nat} (hp : p < n) : storageOk n (D p) = true := by
  unfold Transfer.storageOk
  simp only [List.all_eq_true]
  intro t _ e he
  have hea := ((mem_elemsOf (R.piece p hp).reach t e).1 he).1
  cases hs : (D p).status e with
  | any => rfl
  | owned => rfl
  | shared =>
    simp only [List.all_eq_true, decide_eq_true_eq]
    exact (R.ok p hp).range e hea (R.shared hp hea hs)
  | ghost =>
    simp only [decide_eq_true_eq]
    have := (R.home p hp e hea).1
    rw [(R.piece p hp).owner e hea]
    omega

/-- The stored lists after RecomputeParallelStorage. -/
theorem Ready.recompute (R : Ready n cn G D) {p : Nat} (hp : p < n) :
    ∃ E : Side V, recompute n p (D p) = some E ∧ E.T = (D p).T ∧ E.num = (D p).num ∧ E.owner = (D p).owner ∧
      E.val = (D p).val ∧ E.status = (D p).status ∧ E.procs = (D p).procs ∧
      (∀ q t, (E.sh q t).Pairwise (fun a b => (D p).num a < (D p).num b) ∧ ∀ x, x ∈ E.sh q t ↔
        (D p).T.alive x = true ∧ x.ty = t ∧ (D p).owner x = (p : Int) ∧ q ≠ p ∧ q ∈ (D p).procs x) ∧
      ∀ o t, (E.gh o t).Pairwise (fun a b => (D p).num a < (D p).num b) ∧ ∀ x, x ∈ E.gh o t ↔
        (D p).T.alive x = true ∧ x.ty = t ∧ (D p).owner x = o ∧ o ≠ (p : Int) := by
  have P := R.piece p hp
  unfold Transfer.recompute
  rw [R.storageOk hp, if_pos rfl]
  refine ⟨_, rfl, rfl, rfl, rfl, rfl, rfl, rfl, ?_, ?_⟩
  · intro q t
    simp only
    have hmem : ∀ x, x ∈ (elemsOf (D p).T t).flatMap (fun e => if (D p).status e = .shared then
        (((D p).procs e).filter fun v => v == q && v != p).map fun _ => e else []) ↔
        (D p).T.alive x = true ∧ x.ty = t ∧ (D p).owner x = (p : Int) ∧ q ≠ p ∧ q ∈ (D p).procs x := by
      intro x
      rw [List.mem_flatMap]
      constructor
      · rintro ⟨e, he, hx⟩
        obtain ⟨he1, he2⟩ := (mem_elemsOf P.reach t e).1 he
        split at hx
        · next hs =>
          simp only [List.mem_map, List.mem_filter, Bool.and_eq_true, beq_iff_eq, bne_iff_ne] at hx
          obtain ⟨v, ⟨h1, rfl, h2⟩, rfl⟩ := hx
          exact ⟨he1, he2, R.shared hp he1 hs, h2, h1⟩
        · cases hx
      · rintro ⟨h1, h2, h3, h4, h5⟩
        refine ⟨x, (mem_elemsOf P.reach t x).2 ⟨h1, h2⟩, ?_⟩
        rw [if_pos (R.hasOther hp h1 h3 h5 h4)]
        exact List.mem_map.2 ⟨q, List.mem_filter.2 ⟨h5, by simp [h4]⟩, rfl⟩
    refine ⟨sortNum_strict ?_ ?_, fun x => by rw [sortNum_mem, hmem]⟩
    · rw [List.nodup_iff_pairwise_ne, List.pairwise_flatMap]
      constructor
      · intro e he
        have hea := ((mem_elemsOf P.reach t e).1 he).1
        split
        · next hs =>
          have hnd : ((D p).procs e).Nodup :=
            ((R.ok p hp).sorted e hea (R.shared hp hea hs)).imp fun h => Nat.ne_of_lt h
          obtain ⟨b, hb⟩ := filter_single (k := q) hnd
          rw [show ((D p).procs e).filter (fun v => v == q && v != p) =
              (((D p).procs e).filter (fun v => v == q)).filter (fun v => v != p) by
                rw [List.filter_filter]
                exact List.filter_congr fun x _ => Bool.and_comm _ _, hb]
          cases b
          · simp
          · simp only [if_true, List.filter_cons]
            split <;> simp
        · exact .nil
      · refine List.Pairwise.imp ?_ (nodup_elemsOf (D p).T t)
        intro a b hab x hx y hy
        have key : ∀ (c z : El), z ∈ (if (D p).status c = .shared then
          (((D p).procs c).filter fun v => v == q && v != p).map fun _ => c else []) → z = c := by
          intro c z hz
          split at hz
          · simp only [List.mem_map] at hz
            obtain ⟨_, _, rfl⟩ := hz
            rfl
          · cases hz
        rw [key a x hx, key b y hy]
        exact hab
    · intro a ha b hb hn
      obtain ⟨a1, a2, -⟩ := (hmem a).1 ha
      obtain ⟨b1, b2, -⟩ := (hmem b).1 hb
      exact same_ty P a1 b1 (a2.trans b2.symm) hn
  · intro o t
    simp only
    have hmem : ∀ x, x ∈ (elemsOf (D p).T t).filter (fun e => (D p).status e == .ghost && (D p).owner e == o) ↔
        (D p).T.alive x = true ∧ x.ty = t ∧ (D p).owner x = o ∧ o ≠ (p : Int) := by
      intro x
      simp only [List.mem_filter, mem_elemsOf P.reach, Bool.and_eq_true, beq_iff_eq]
      constructor
      · rintro ⟨⟨h1, h2⟩, h3, h4⟩
        exact ⟨h1, h2, h4, by rw [← h4]; exact (R.isGhost hp h1).1 h3⟩
      · rintro ⟨h1, h2, h3, h4⟩
        exact ⟨⟨h1, h2⟩, (R.isGhost hp h1).2 (by rw [h3]; exact h4), h3⟩
    refine ⟨sortNum_strict ((nodup_elemsOf _ _).filter _) ?_, fun x => by rw [sortNum_mem, hmem]⟩
    intro a ha b hb hn
    obtain ⟨a1, a2, -⟩ := (hmem a).1 ha
    obtain ⟨b1, b2, -⟩ := (hmem b).1 hb
    exact same_ty P a1 b1 (a2.trans b2.symm) hn

/-! ## ExchangeData of the lists of processors -/

/-- The local number in the model of meshes. -/
def ofP (e : Parallel.El) : El := ⟨e.ty, e.id⟩

theorem ofP_toP (e : El) : ofP (toP e) = e := rfl
theorem toP_ofP (e : Parallel.El) : toP (ofP e) = e := rfl

theorem mem_view {S : Side V} (r : Reach cn S.T) (e : Parallel.El) : e ∈ (view S).elems ↔ S.T.alive (ofP e) = true := by
  unfold view
  simp only [List.mem_flatMap, List.mem_range, List.mem_map, mem_elemsOf r]
  constructor
  · rintro ⟨t, _, a, ⟨h, -⟩, rfl⟩; exact h
  · intro h
    refine ⟨e.ty, ?_, ofP e, ⟨h, rfl⟩, rfl⟩
    have := tyLe r h
    have h2 : (ofP e).ty = e.ty := rfl
    omega

theorem view_nodup (S : Side V) : (view S).elems.Nodup := by
  unfold view
  simp only
  rw [List.nodup_iff_pairwise_ne, List.pairwise_flatMap]
  refine ⟨fun t _ => ?_, ?_⟩
  · rw [List.pairwise_map]
    refine (nodup_elemsOf S.T t).imp fun h h' => h ?_
    have := congrArg ofP h'
    exact this
  · refine List.nodup_range.imp ?_
    intro t s hts x hx y hy hxy
    obtain ⟨a, ha, rfl⟩ := List.mem_map.1 hx
    obtain ⟨b, hb, rfl⟩ := List.mem_map.1 hy
    have h1 : a = b := congrArg ofP hxy
    subst h1
    have key : ∀ u, a ∈ elemsOf S.T u → a.ty = u := by
      intro u hu
      unfold elemsOf at hu
      rw [List.mem_filter, List.mem_map] at hu
      obtain ⟨⟨i, -, rfl⟩, -⟩ := hu
      rfl
    exact hts ((key t ha).symm.trans (key s hb))

/-- A ghost has its owner's copy. -/
theorem Ready.pair (R : Ready n cn G D) {p : Nat} (hp : p < n) {e : El} (he : (D p).T.alive e = true)
    (ho : (D p).owner e ≠ (p : Int)) :
    ∃ o e', o < n ∧ (D p).owner e = (o : Int) ∧ (D o).T.alive e' = true ∧ name (D o).num e' = name (D p).num e ∧
      (D o).owner e' = (o : Int) ∧ Parallel.GhostOf (fun p => view (D p)) p (toP e) o (toP e') := by
  obtain ⟨h1, e', h2, h3⟩ := R.home p hp e he
  have hoe := (R.piece p hp).owner e he
  have hne : G.owner (name (D p).num e) ≠ p := by intro h; rw [h] at hoe; exact ho hoe
  have hoe' : (D (G.owner (name (D p).num e))).owner e' = (G.owner (name (D p).num e) : Int) := by
    rw [(R.piece _ h1).owner e' h2, h3]
  have hmem := (R.procs _ h1 e' h2 hoe' p).2 ⟨hp, e, he, h3.symm⟩
  refine ⟨_, e', h1, hoe, h2, h3, hoe', (mem_view (R.piece p hp).reach _).2 he, (mem_view (R.piece _ h1).reach _).2 h2,
    (R.isGhost hp he).2 ho, ?_, R.hasOther h1 h2 hoe' hmem (Ne.symm hne), hmem, hne, ?_⟩
  · show ((D p).owner e).toNat = _
    rw [hoe]; rfl
  · simp only [name, El.mk.injEq] at h3
    refine ⟨h3.1.symm, ?_⟩
    show (((D p).num e : Nat) : Int) = ((D _).num e' : Nat)
    rw [← h3.2]
    simp only [name]

theorem Ready.distributed (R : Ready n cn G D) : Parallel.Distributed n fun p => view (D p) where
  nodup p _ := view_nodup (D p)
  types p hp e he := by
    have := tyLe (R.piece p hp).reach ((mem_view (R.piece p hp).reach e).1 he)
    have h2 : (ofP e).ty = e.ty := rfl
    omega
  unique p hp e e' he he' ht hk := by
    have P := R.piece p hp
    have h : ofP e = ofP e' := same_ty P ((mem_view P.reach e).1 he) ((mem_view P.reach e').1 he') ht (by
      have : (((D p).num (ofP e) : Nat) : Int) = ((D p).num (ofP e') : Nat) := hk
      exact_mod_cast this)
    exact congrArg toP h
  procs p hp e he hs := by
    have he := (mem_view (R.piece p hp).reach e).1 he
    exact ((R.ok p hp).sorted (ofP e) he (R.shared hp he hs)).imp fun h => Nat.ne_of_lt h
  owner p hp e he hs := by
    have he := (mem_view (R.piece p hp).reach e).1 he
    obtain ⟨o, e', h1, h2, -, -, -, h3⟩ := R.pair hp he ((R.isGhost hp he).1 hs)
    have : (view (D p)).owner e = o := h3.owner
    rw [this]
    exact ⟨h1, toP e', h3⟩
  ghosts q hq e' he hs p hpm hne := by
    have he := (mem_view (R.piece q hq).reach e').1 he
    have ho := R.shared hq he hs
    obtain ⟨hp, e, h1, h2⟩ := (R.procs q hq _ he ho p).1 hpm
    have hoe : (D p).owner e = (q : Int) := by
      rw [(R.piece p hp).owner e h1, h2, ← (R.piece q hq).owner _ he, ho]
    have hog : (D p).owner e ≠ (p : Int) := by rw [hoe]; intro h; exact hne (by exact_mod_cast h.symm)
    obtain ⟨o, x, k1, k2, k3, k4, -, k5⟩ := R.pair hp h1 hog
    have hoq : o = q := by rw [hoe] at k2; exact_mod_cast k2.symm
    subst hoq
    have hx : x = ofP e' := (R.piece o hq).fits.inj _ _ k3 he (k4.trans h2)
    subst hx
    exact ⟨hp, toP e, k5⟩
  select _ _ _ _ _ _ _ := rfl

theorem sized_view : Parallel.Sized n [(0, procsTag)] fun p => view (D p) := by
  intro t ht p _ e _ _
  rw [List.mem_singleton] at ht
  subst ht
  exact ⟨fun _ _ _ h => (by cases h), fun _ => (by simp [view])⟩

theorem Ready.callOk (R : Ready n cn G D) : Parallel.CallOk (procsCall n) fun p => view (D p) :=
  Parallel.exchange_ok R.distributed sized_view (by simp)

/-- After the call the copies have the owner's list. -/
theorem Ready.final (R : Ready n cn G D) {tr : List Parallel.Event} {S : Parallel.Sys Nat}
    (hr : Parallel.Run (procsCall n) (fun p => view (D p)) tr S) (hd : Parallel.Done (procsCall n) S) {p : Nat} (hp : p < n) :
    (∀ e, (D p).T.alive e = true → (D p).owner e = (p : Int) → (setProcs (D p) (S.loc p)).procs e = (D p).procs e) ∧
    ∀ e o e', (D p).T.alive e = true → (D p).owner e ≠ (p : Int) → (D p).owner e = ((o : Nat) : Int) →
      (D o).T.alive e' = true → name (D o).num e' = name (D p).num e →
      (setProcs (D p) (S.loc p)).procs e = (D o).procs e' := by
  obtain ⟨d, h1, h2, h3, -⟩ := Parallel.exchange_final R.distributed sized_view (by simp) hr hd hp
  have hd' : ∀ e, (setProcs (D p) (S.loc p)).procs e = (d 0 (toP e)).getD [] := by
    intro e; simp only [setProcs, h1]
  constructor
  · intro e he ho
    rw [hd', h3 (0, procsTag) (by simp) (toP e)]
    · rfl
    · intro q e' hg
      exact absurd ho ((R.isGhost hp he).1 hg.ghost)
  · intro e o e' he hne ho he' hn
    obtain ⟨o2, x, k1, k2, k3, k4, k6, k5⟩ := R.pair hp he hne
    have hoo : o2 = o := by rw [ho] at k2; exact_mod_cast k2.symm
    subst hoo
    have hx : x = e' := (R.piece o2 k1).fits.inj _ _ k3 he' (k4.trans hn.symm)
    subst hx
    have hpm := (R.procs o2 k1 x k3 k6 p).2 ⟨hp, e, he, hn.symm⟩
    rw [hd']
    cases hl : (D o2).procs x with
    | nil => rw [hl] at hpm; cases hpm
    | cons a l =>
      rw [h2 (0, procsTag) (by simp) (toP e) o2 (toP x) a l k5 rfl rfl rfl (by
        show some ((D o2).procs x) = _
        rw [hl])]
      rfl

end

end Verif.Transfer
