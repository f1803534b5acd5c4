import Verif.Transfer.Gather
import Verif.Transfer.Exchange
import Verif.Transfer.Spread

/-! # Lemmas: the first round of ExchangeMarked -/

namespace Verif.Transfer

open Verif.Topology

variable {V : Type}

theorem mem_elemsOf {cn : Bool} {T : Topo} (r : Reach cn T) (t : Nat) (x : El) :
    x ∈ elemsOf T t ↔ T.alive x = true ∧ x.ty = t := by
  unfold elemsOf
  rw [List.mem_filter, List.mem_map]
  constructor
  · rintro ⟨⟨i, _, rfl⟩, h⟩; exact ⟨h, rfl⟩
  · rintro ⟨h, h0⟩
    refine ⟨⟨x.id, ?_, ?_⟩, h⟩
    · rw [List.mem_range]
      have := (reach_inv r).1.lastLt x h
      rwa [h0] at this
    · cases x; simp only at h0; subst h0; rfl

theorem nodup_elemsOf (T : Topo) (t : Nat) : (elemsOf T t).Nodup := by
  unfold elemsOf
  refine List.Nodup.filter _ ?_
  rw [List.nodup_iff_pairwise_ne, List.pairwise_map]
  exact List.nodup_range.imp fun h h' => h (congrArg El.id h')

theorem mem_chosen {cn : Bool} {S : Side V} (r : Reach cn S.T) (sendto : El → List Nat) (q t : Nat) (x : El) :
    x ∈ chosen S sendto q t ↔ S.T.alive x = true ∧ x.ty = t ∧ q ∈ sendto x := by
  unfold chosen
  simp only [List.mem_flatMap, mem_elemsOf r, List.mem_map, List.mem_filter, beq_iff_eq]
  constructor
  · rintro ⟨e, ⟨h1, h2⟩, k, ⟨h3, rfl⟩, rfl⟩; exact ⟨h1, h2, h3⟩
  · rintro ⟨h1, h2, h3⟩; exact ⟨x, ⟨h1, h2⟩, q, ⟨h3, rfl⟩, rfl⟩

theorem filter_single {k : Nat} {l : List Nat} (h : l.Nodup) : ∃ b : Bool, l.filter (fun x => x == k) = if b then [k] else [] := by
  induction l with
  | nil => exact ⟨false, rfl⟩
  | cons a l ih =>
    rw [List.nodup_cons] at h
    by_cases ha : a = k
    · subst ha
      refine ⟨true, ?_⟩
      have : l.filter (fun x => x == a) = [] := by
        rw [List.filter_eq_nil_iff]
        intro x hx hxa
        simp only [beq_iff_eq] at hxa
        subst hxa
        exact h.1 hx
      simp [this]
    · obtain ⟨b, hb⟩ := ih h.2
      exact ⟨b, by rw [List.filter_cons, if_neg (by simpa using ha), hb]⟩

theorem nodup_flatSingle {A : Type} {l : List A} (h : l.Nodup) (f : A → List A)
    (hf : ∀ a, f a = [] ∨ f a = [a]) : (l.flatMap f).Nodup := by
  induction l with
  | nil => exact List.nodup_nil
  | cons a l ih =>
    rw [List.nodup_cons] at h
    rw [List.flatMap_cons]
    rcases hf a with ha | ha
    · rw [ha]; exact ih h.2
    · rw [ha, List.singleton_append, List.nodup_cons]
      refine ⟨?_, ih h.2⟩
      rw [List.mem_flatMap]
      rintro ⟨b, hb, hab⟩
      rcases hf b with h' | h' <;> rw [h'] at hab
      · cases hab
      · rw [List.mem_singleton] at hab
        subst hab; exact h.1 hb

theorem nodup_chosen (S : Side V) {sendto : El → List Nat} (h : ∀ e, (sendto e).Nodup) (q t : Nat) :
    (chosen S sendto q t).Nodup := by
  refine nodup_flatSingle (nodup_elemsOf _ _) _ fun e => ?_
  obtain ⟨b, hb⟩ := filter_single (k := q) (h e)
  rw [hb]
  cases b <;> simp

/-! ## Parts -/

section
variable {cn : Bool} {G : Whole} {S : Side V}

theorem Piece.cnEq (P : Piece cn G S) : S.T.cn = cn := (reach_inv P.reach).2

/-- A local element stands for every element of the boundary. -/
theorem piece_low (P : Piece cn G S) {e : El} (he : S.T.alive e = true) (h0 : 0 < e.ty) {k : El}
    (hk : k ∈ G.low (name S.num e)) : ∃ x ∈ S.T.low e, name S.num x = k := by
  have := (P.fits.low e he h0).mem_iff.2 hk
  obtain ⟨x, hx, h⟩ := List.mem_map.1 this
  exact ⟨x, hx, h⟩

theorem piece_nodes (P : Piece cn G S) {e : El} (he : S.T.alive e = true) (h3 : e.ty = 3) (hc : cn = true) {k : El}
    (hk : k ∈ G.nodes (name S.num e)) : ∃ x ∈ S.T.high e, name S.num x = k := by
  have := (P.fits.nodes e he h3 (P.cnEq.trans hc)).mem_iff.2 hk
  obtain ⟨x, hx, h⟩ := List.mem_map.1 this
  exact ⟨x, hx, h⟩

theorem part_has (P : Piece cn G S) {g h : El} (hg : Has S g) (hp : Part cn G g h) : Has S h := by
  induction hp with
  | self => exact hg
  | low _ h0 hk ih =>
    obtain ⟨e, he, rfl⟩ := ih
    obtain ⟨x, hx, h⟩ := piece_low P he h0 hk
    exact ⟨x, lowAlive P.reach hx, h⟩
  | nodes _ h3 hc hk ih =>
    obtain ⟨e, he, rfl⟩ := ih
    obtain ⟨x, hx, h⟩ := piece_nodes P he h3 hc hk
    exact ⟨x, highAlive P.reach hx, h⟩

/-- What is gathered belongs to something selected. -/
theorem gather_part (P : Piece cn G S) {byNum : Nat → Bool} {q : Nat} {sel : Nat → List El}
    (hl : ∀ t, ∀ e ∈ sel t, S.T.alive e = true ∧ e.ty = t) (s : Nat) :
    ∀ x ∈ gather S byNum q sel s, (∃ t, ∃ e ∈ sel t, Part cn G (name S.num e) (name S.num x)) ∧
      S.T.alive x = true ∧ x.ty = s := by
  have := gather_ind S byNum q sel P.reach hl
    (P := fun x => S.T.alive x = true ∧ ∃ t, ∃ e ∈ sel t, Part cn G (name S.num e) (name S.num x))
    (fun e x h h0 _ hx => ⟨lowAlive P.reach hx, by
      obtain ⟨ha, t, e', he', hp⟩ := h
      exact ⟨t, e', he', .low hp h0 ((P.fits.low e ha h0).mem_iff.1 (List.mem_map_of_mem hx))⟩⟩)
    (fun e x h h3 hc _ hx => ⟨highAlive P.reach hx, by
      obtain ⟨ha, t, e', he', hp⟩ := h
      exact ⟨t, e', he', .nodes hp h3 (P.cnEq.symm.trans hc) ((P.fits.nodes e ha h3 hc).mem_iff.1 (List.mem_map_of_mem hx))⟩⟩)
    (fun s x hx => ⟨(hl s x hx).1, s, x, hx, .self⟩) s
  intro x hx
  obtain ⟨h1, h2⟩ := this x hx
  exact ⟨h1.2, h2⟩

/-- What belongs to something selected is gathered, or `K` has it, if `K` has what is sent by number and all parts of
what it has. -/
theorem part_gather (P : Piece cn G S) {byNum : Nat → Bool} {q : Nat} {sel : Nat → List El}
    (hl : ∀ t, ∀ e ∈ sel t, S.T.alive e = true ∧ e.ty = t) {K : El → Prop}
    (hk : ∀ e, S.T.alive e = true → S.known byNum q e = true → K (name S.num e))
    (hK : ∀ g h, K g → Part cn G g h → K h) {t : Nat} {e : El} (he : e ∈ sel t) {h : El}
    (hp : Part cn G (name S.num e) h) :
    K h ∨ ∃ s, s < 4 ∧ ∃ x ∈ gather S byNum q sel s, name S.num x = h := by
  have hin : ∀ s, ∀ x ∈ gather S byNum q sel s, S.T.alive x = true ∧ x.ty = s :=
    fun s x hx => (gather_part P hl s x hx).2
  have hcl := gather_closed S byNum q sel
  induction hp with
  | self =>
    refine Or.inr ⟨t, ?_, e, gather_sub _ _ _ _ _ he, rfl⟩
    have := tyLe P.reach (hl t e he).1
    rw [(hl t e he).2] at this
    omega
  | @low h k _ h0 hk' ih =>
    rcases ih with ih | ⟨s, hs, x, hx, rfl⟩
    · exact Or.inl (hK _ _ ih (.low .self h0 hk'))
    · obtain ⟨ha, rfl⟩ := hin s x hx
      cases hkn : S.known byNum q x with
      | true => exact Or.inl (hK _ _ (hk x ha hkn) (.low .self h0 hk'))
      | false =>
        obtain ⟨y, hy, hyn⟩ := piece_low P ha h0 hk'
        exact Or.inr ⟨x.ty - 1, by omega, y, hcl.low x.ty h0 hs x hx hkn y hy, hyn⟩
  | @nodes h k _ h3 hc hk' ih =>
    rcases ih with ih | ⟨s, hs, x, hx, rfl⟩
    · exact Or.inl (hK _ _ ih (.nodes .self h3 hc hk'))
    · obtain ⟨ha, rfl⟩ := hin s x hx
      have h3' : x.ty = 3 := h3
      cases hkn : S.known byNum q x with
      | true => exact Or.inl (hK _ _ (hk x ha hkn) (.nodes .self h3 hc hk'))
      | false =>
        obtain ⟨y, hy, hyn⟩ := piece_nodes P ha h3' hc hk'
        rw [h3'] at hx
        exact Or.inr ⟨0, by omega, y, hcl.nodes (P.cnEq.trans hc) x hx hkn y hy, hyn⟩

end

/-- A processor while it packs: only lists of processors and statuses of own elements differ from `A`. -/
structure Like (A S : Side V) : Prop where
  T : S.T = A.T
  num : S.num = A.num
  owner : S.owner = A.owner
  val : S.val = A.val
  sh : S.sh = A.sh
  gh : S.gh = A.gh

theorem Like.rfl' (A : Side V) : Like A A := ⟨rfl, rfl, rfl, rfl, rfl, rfl⟩

theorem Like.trans {A B C : Side V} (h : Like A B) (h' : Like B C) : Like A C :=
  ⟨h'.T.trans h.T, h'.num.trans h.num, h'.owner.trans h.owner, h'.val.trans h.val, h'.sh.trans h.sh, h'.gh.trans h.gh⟩

theorem Like.piece {A S : Side V} {cn : Bool} {G : Whole} (h : Like A S) (P : Piece cn G A) : Piece cn G S :=
  ⟨by rw [h.T]; exact P.reach, by rw [h.T]; exact P.plain, by rw [h.T, h.num]; exact P.fits,
    by rw [h.T, h.num, h.owner]; exact P.owner⟩

/-- Lists of processors and statuses of own elements are right. -/
structure OwnOk (n p : Nat) (S : Side V) : Prop where
  sorted : ∀ e, S.T.alive e = true → S.owner e = (p : Int) → (S.procs e).Pairwise (· < ·)
  range : ∀ e, S.T.alive e = true → S.owner e = (p : Int) → ∀ r ∈ S.procs e, r < n
  status : ∀ e, S.T.alive e = true → S.owner e = (p : Int) →
    S.status e = .shared ∧ (∃ q ∈ S.procs e, q ≠ p) ∨ S.status e = .owned ∧ ∀ q ∈ S.procs e, q = p
  ghost : ∀ e, S.T.alive e = true → S.owner e ≠ (p : Int) → S.status e = .ghost

theorem Spread.ownOk {n : Nat} {cn : Bool} {G : Whole} {W : Nat → Side V} (H : Spread n cn G W) {p : Nat} (hp : p < n) :
    OwnOk n p (W p) :=
  ⟨fun e he _ => H.sorted p hp e he, fun e he _ r hr => ((H.procs p hp e he r).1 hr).1, H.own p hp, H.ghost p hp⟩

theorem Spread.lists {n : Nat} {cn : Bool} {G : Whole} {W : Nat → Side V} (H : Spread n cn G W) {p : Nat} (hp : p < n) :
    Lists (W p) :=
  ⟨fun q t => ⟨(H.sh p hp q t).1, fun x hx => by have := ((H.sh p hp q t).2 x).1 hx; exact ⟨this.1, this.2.1⟩⟩,
    fun q t => ⟨(H.gh p hp q t).1, fun x hx => by have := ((H.gh p hp q t).2 x).1 hx; exact ⟨this.1, this.2.1⟩⟩⟩

/-- A processor that holds what `A` holds, and possibly more. -/
structure More (A R : Side V) : Prop where
  kept : Kept A R
  sh : R.sh = A.sh
  gh : R.gh = A.gh

theorem More.lists {A R : Side V} (h : More A R) (L : Lists A) : Lists R := by
  constructor
  · intro q t
    obtain ⟨h1, h2⟩ := L.sh q t
    rw [h.sh]
    refine ⟨?_, fun x hx => ⟨(h.kept.old x (h2 x hx).1).1, (h2 x hx).2⟩⟩
    exact h1.imp_of_mem fun {a b} ha hb hab => by
      rw [(h.kept.old a (h2 a ha).1).2.1, (h.kept.old b (h2 b hb).1).2.1]; exact hab
  · intro q t
    obtain ⟨h1, h2⟩ := L.gh q t
    rw [h.gh]
    refine ⟨?_, fun x hx => ⟨(h.kept.old x (h2 x hx).1).1, (h2 x hx).2⟩⟩
    exact h1.imp_of_mem fun {a b} ha hb hab => by
      rw [(h.kept.old a (h2 a ha).1).2.1, (h.kept.old b (h2 b hb).1).2.1]; exact hab

theorem Kept.has {A R : Side V} (h : Kept A R) {g : El} (hg : Has A g) : Has R g := by
  obtain ⟨e, he, rfl⟩ := hg
  exact ⟨e, (h.old e he).1, by simp only [name, (h.old e he).2.1]⟩

theorem Kept.name {A R : Side V} (h : Kept A R) {e : El} (he : A.T.alive e = true) : name R.num e = name A.num e := by
  simp only [Transfer.name, (h.old e he).2.1]

theorem Kept.rfl' (A : Side V) : Kept A A := ⟨fun _ h => ⟨h, rfl, rfl⟩, fun _ _ => ⟨fun _ => rfl, fun _ => rfl⟩⟩

theorem Kept.trans {A B C : Side V} (h : Kept A B) (h' : Kept B C) : Kept A C :=
  ⟨fun x hx => by
      obtain ⟨a1, a2, a3⟩ := h.old x hx
      obtain ⟨b1, b2, b3⟩ := h'.old x a1
      exact ⟨b1, b2.trans a2, b3.trans a3⟩,
    fun x hx => by
      obtain ⟨a1, a2⟩ := h.conn x hx
      obtain ⟨b1, b2⟩ := h'.conn x (h.old x hx).1
      exact ⟨fun h => (b1 h).trans (a1 h), fun h => (b2 h).trans (a2 h)⟩⟩

theorem Like.kept {A S : Side V} (h : Like A S) : Kept A S :=
  ⟨fun x hx => ⟨by rw [h.T]; exact hx, by rw [h.num], by rw [h.owner]⟩, fun x _ => by rw [h.T]; exact ⟨fun _ => rfl, fun _ => rfl⟩⟩

theorem Like.more {A S : Side V} (h : Like A S) : More A S := ⟨h.kept, h.sh, h.gh⟩

section
variable {n : Nat} {cn : Bool} {G : Whole} {W : Nat → Side V} {byNum : Nat → Bool} {pick : Topo → Nat → Nat}

/-- A message of the first round can be sent and received. -/
theorem ctx_of (ok : G.Ok) (H : Spread n cn G W) (fresh : Fresh cn pick) {p q : Nat} (hp : p < n) (hq : q < n) (hne : p ≠ q)
    {S R : Side V} (hS : Like (W p) S)
    (hk : ∀ e, (W p).T.alive e = true → S.known byNum q e = (W p).known byNum q e) (hP : Piece cn G R) (hR : More (W q) R)
    {sel : Nat → List El} (hl : ∀ t, ∀ e ∈ sel t, (W p).T.alive e = true ∧ e.ty = t) :
    Ctx cn G S R p q byNum (gather (W p) byNum q sel) pick := by
  have PW := H.piece p hp
  have hin : ∀ t, ∀ e ∈ gather (W p) byNum q sel t, (W p).T.alive e = true ∧ e.ty = t :=
    fun t e he => (gather_part PW hl t e he).2
  have hcl := gather_closed (W p) byNum q sel
  refine ⟨ok, hS.piece PW, hP, fun _ => hR.lists (H.lists hq), ?_, ⟨?_, ?_⟩, ⟨?_, ?_⟩, fresh⟩
  · intro t e he; rw [hS.T]; exact hin t e he
  · intro t h0 h4 e he hkn
    rw [hk e (hin t e he).1] at hkn
    rw [hS.T]
    exact hcl.low t h0 h4 e he hkn
  · intro hc e he hkn
    rw [hk e (hin 3 e he).1] at hkn
    rw [hS.T] at hc ⊢
    exact hcl.nodes hc e he hkn
  · intro t e he ho
    have ha := (hin t e he).1
    rw [hS.owner, PW.owner e ha] at ho
    have := (H.home p hp e ha).2
    rw [hS.num]
    rw [show G.owner (name (W p).num e) = q from by exact_mod_cast ho] at this
    exact hR.kept.has this
  · intro t h0 e he hkn
    obtain ⟨ha, hty⟩ := hin t e he
    rw [hk e ha] at hkn
    unfold Side.known at hkn
    rw [Bool.and_eq_true] at hkn
    have hmem := List.contains_iff_mem.1 hkn.2
    obtain ⟨-, u, hu, hun⟩ := (H.procs p hp e ha q).1 hmem
    have huo : (W q).owner u = (W p).owner e := by
      rw [(H.piece q hq).owner u hu, PW.owner e ha, hun]
    have hut : u.ty = t := (name_ty hun).trans hty
    refine ⟨u, ?_, ?_⟩
    · rw [hS.owner, hR.sh, hR.gh]
      split
      · next ho =>
        refine ((H.sh q hq p t).2 u).2 ⟨hu, hut, huo.trans ho, hne, ?_⟩
        exact (H.procs q hq u hu p).2 ⟨hp, e, ha, hun.symm⟩
      · next ho => exact ((H.gh q hq _ t).2 u).2 ⟨hu, hut, huo, ho⟩
    · rw [hS.num, (hR.kept.old u hu).2.1]
      exact congrArg El.id hun

end

end Verif.Transfer
