import Verif.Transfer.Create

/-! # Lemmas: the receiver finds or creates the elements of a message -/

namespace Verif.Transfer

open Verif.Topology

variable {V : Type}

/-- The situation of a message from `src` to `dest`. -/
structure Ctx (cn : Bool) (G : Whole) (S R0 : Side V) (src dest : Nat) (byNum : Nat → Bool) (sel : Nat → List El)
    (pick : Topo → Nat → Nat) : Prop where
  ok : G.Ok
  sender : Piece cn G S
  receiver : Piece cn G R0
  lists : (∃ t, byNum t = true) → Lists R0
  live : ∀ t, ∀ e ∈ sel t, S.T.alive e = true ∧ e.ty = t
  closed : Closed S byNum dest sel
  known : Known S R0 src dest byNum sel
  fresh : Fresh cn pick

/-- The receiver after some elements `done` have been processed; `nm` says what the elements stand for. -/
structure Mid (cn : Bool) (G : Whole) (S R0 : Side V) (done : List El) (R : Side V) (nm : El → Nat) : Prop where
  reach : Reach cn R.T
  plain : R.T.hide = false
  fits : Fits G R.T nm
  num : R.num = R0.num
  procs : R.procs = R0.procs
  val : R.val = R0.val
  sh : R.sh = R0.sh
  gh : R.gh = R0.gh
  old : ∀ x, R0.T.alive x = true →
    R.T.alive x = true ∧ nm x = R0.num x ∧ R.owner x = R0.owner x ∧ R.status x = R0.status x
  oldLow : ∀ x, R0.T.alive x = true → 0 < x.ty → R.T.low x = R0.T.low x
  oldHigh : ∀ x, R0.T.alive x = true → x.ty = 3 → R.T.high x = R0.T.high x
  new : ∀ x, R.T.alive x = true → R0.T.alive x = false →
    R.owner x = -1 ∧ R.status x = .ghost ∧ ∃ e ∈ done, name nm x = name S.num e
  idle : (∀ x, R.T.alive x = true → R0.T.alive x = true) → R = R0 ∧ nm = R0.num

/-- Elements stay and keep what they stand for. -/
def Ext (R : Side V) (nm : El → Nat) (R1 : Side V) (nm1 : El → Nat) : Prop :=
  ∀ x, R.T.alive x = true → R1.T.alive x = true ∧ nm1 x = nm x

theorem Ext.rfl' (R : Side V) (nm : El → Nat) : Ext R nm R nm := fun _ h => ⟨h, rfl⟩

theorem Ext.trans {R R1 R2 : Side V} {nm nm1 nm2 : El → Nat} (h : Ext R nm R1 nm1) (h' : Ext R1 nm1 R2 nm2) :
    Ext R nm R2 nm2 := fun x hx => ⟨(h' x (h x hx).1).1, (h' x (h x hx).1).2.trans (h x hx).2⟩

/-- The receiver's element stands for the sender's, and is marked for data. -/
def Rel (S : Side V) (dest : Nat) (R : Side V) (nm : El → Nat) (e : El) (p : El × Bool) : Prop :=
  R.T.alive p.1 = true ∧ name nm p.1 = name S.num e ∧ p.2 = (S.owner e != (dest : Int))

theorem Rel.ext {S R R1 : Side V} {dest : Nat} {nm nm1 : El → Nat} {e : El} {p : El × Bool} (h : Rel S dest R nm e p)
    (he : Ext R nm R1 nm1) : Rel S dest R1 nm1 e p :=
  ⟨(he _ h.1).1, by rw [← h.2.1]; simp only [name, (he _ h.1).2], h.2.2⟩

/-- A list of elements that stand for a list of the sender. -/
def Par (S : Side V) (l : List El) (m : List El) (R : Side V) (nm : El → Nat) : Prop :=
  m.map (name nm) = l.map (name S.num) ∧ ∀ x ∈ m, R.T.alive x = true

theorem Par.ext {S R R1 : Side V} {l m : List El} {nm nm1 : El → Nat} (h : Par S l m R nm) (he : Ext R nm R1 nm1) :
    Par S l m R1 nm1 :=
  ⟨by rw [← h.1]; exact map_name_congr fun x hx => (he x (h.2 x hx)).2, fun x hx => (he x (h.2 x hx)).1⟩

theorem par_of_rel {S R : Side V} {dest : Nat} {nm : El → Nat} {l : List El} {out : List (El × Bool)}
    (h : List.Forall₂ (Rel S dest R nm) l out) : Par S l (out.map Prod.fst) R nm := by
  induction h with
  | nil => exact ⟨rfl, by simp⟩
  | @cons e p l out h _ ih =>
    refine ⟨?_, ?_⟩
    · simp only [List.map_cons, h.2.1, ih.1]
    · intro x hx
      rcases List.mem_cons.1 hx with rfl | hx
      · exact h.1
      · exact ih.2 x hx

section
variable {cn : Bool} {G : Whole} {S R0 : Side V} {src dest : Nat} {byNum : Nat → Bool} {sel : Nat → List El}
  {pick : Topo → Nat → Nat}

theorem Mid.mono {done done' : List El} {R : Side V} {nm : El → Nat} (M : Mid cn G S R0 done R nm)
    (h : ∀ e ∈ done, e ∈ done') : Mid cn G S R0 done' R nm :=
  { M with new := fun x hx hn =>
      let ⟨h1, h2, e, he, h3⟩ := M.new x hx hn
      ⟨h1, h2, e, h e he, h3⟩ }

theorem Ctx.start (c : Ctx cn G S R0 src dest byNum sel pick) : Mid cn G S R0 [] R0 R0.num where
  reach := c.receiver.reach
  plain := c.receiver.plain
  fits := c.receiver.fits
  num := rfl
  procs := rfl
  val := rfl
  sh := rfl
  gh := rfl
  old := fun _ h => ⟨h, rfl, rfl, rfl⟩
  oldLow := fun _ _ _ => rfl
  oldHigh := fun _ _ _ => rfl
  new := fun x h h' => by rw [h] at h'; cases h'
  idle := fun _ => ⟨rfl, rfl⟩

/-- An element the receiver had before keeps its name. -/
theorem Mid.oldName {done : List El} {R : Side V} {nm : El → Nat} (M : Mid cn G S R0 done R nm) {x : El}
    (h : R0.T.alive x = true) : name nm x = name R0.num x := by simp only [name, (M.old x h).2.1]

/-- The receiver marks exactly the elements the sender marked. -/
theorem Mid.mark {done : List El} {R : Side V} {nm : El → Nat} (c : Ctx cn G S R0 src dest byNum sel pick)
    (M : Mid cn G S R0 done R nm) {t : Nat} {e u : El} (he : e ∈ sel t) (hu : R.T.alive u = true)
    (hn : name nm u = name S.num e) : (R.owner u != (dest : Int)) = (S.owner e != (dest : Int)) := by
  have hS := c.sender.owner e (c.live t e he).1
  cases h0 : R0.T.alive u with
  | true =>
    rw [(M.old u h0).2.2.1, c.receiver.owner u h0, hS, ← hn, M.oldName h0]
  | false =>
    rw [(M.new u hu h0).1]
    by_cases hd : S.owner e = (dest : Int)
    · obtain ⟨w, hw, hwn⟩ := c.known.home t e he hd
      have : w = u := M.fits.inj w u (M.old w hw).1 hu (by rw [M.oldName hw, hwn, hn])
      rw [this, h0] at hw; cases hw
    · rw [show (S.owner e != (dest : Int)) = true by simpa using hd]
      simp only [bne_iff_ne, ne_eq]; omega

/-- A new element that stands for `e`. -/
theorem Mid.create {done : List El} {R : Side V} {nm : El → Nat} (c : Ctx cn G S R0 src dest byNum sel pick)
    (M : Mid cn G S R0 done R nm) {t : Nat} {e : El} (he : e ∈ sel t) {id : Nat} {T' : Topo} {es ns : List El}
    (hd : R.T.alive ⟨t, id⟩ = false) (hr : Reach cn T') (C : Created R.T T' ⟨t, id⟩ es ns)
    (hel : ∀ x ∈ es, R.T.alive x = true) (hnd : ∀ x ∈ ns, R.T.alive x = true)
    (habs : ∀ x, R.T.alive x = true → name nm x ≠ name S.num e)
    (hlow : 0 < t → (es.map (name nm)).Perm (G.low (name S.num e)) ∧ es ≠ [])
    (hnodes : t = 3 → R.T.cn = true → (ns.map (name nm)).Perm (G.nodes (name S.num e))) :
    Mid cn G S R0 (e :: done) (newEl R T' ⟨t, id⟩) (set1 nm ⟨t, id⟩ (S.num e)) ∧
      Ext R nm (newEl R T' ⟨t, id⟩) (set1 nm ⟨t, id⟩ (S.num e)) ∧
      Rel S dest (newEl R T' ⟨t, id⟩) (set1 nm ⟨t, id⟩ (S.num e)) e (⟨t, id⟩, true) := by
  have hty := (c.live t e he).2
  have hg : (⟨t, S.num e⟩ : El) = name S.num e := by simp only [name, hty]
  have hne : ∀ x, R.T.alive x = true → x ≠ (⟨t, id⟩ : El) := fun x hx h => by rw [h, hd] at hx; cases hx
  have hal : ∀ x, x ≠ (⟨t, id⟩ : El) → T'.alive x = R.T.alive x := fun x hx => by rw [C.alive]; exact set1_ne _ _ hx
  have hself : T'.alive ⟨t, id⟩ = true := by rw [C.alive]; exact set1_same _ _ _
  have hdest : S.owner e ≠ (dest : Int) := by
    intro h
    obtain ⟨w, hw, hwn⟩ := c.known.home t e he h
    exact habs w (M.old w hw).1 (by rw [M.oldName hw, hwn])
  have hext : Ext R nm (newEl R T' ⟨t, id⟩) (set1 nm ⟨t, id⟩ (S.num e)) := fun x hx =>
    ⟨(hal x (hne x hx)).trans hx, set1_ne _ _ (hne x hx)⟩
  have hname : name (set1 nm ⟨t, id⟩ (S.num e)) ⟨t, id⟩ = name S.num e := by
    rw [← hg]; simp only [name, set1_same]
  refine ⟨?_, hext, hself, hname, by simpa using hdest⟩
  constructor
  · exact hr
  · exact C.hide.trans M.plain
  · refine fits_created M.reach M.fits hd C hel hnd ?_ ?_ ?_
    · intro x hx h; exact habs x hx (h.trans hg)
    · intro h; have := hlow h; rw [← hg] at this; exact this
    · intro h hcn; have := hnodes h hcn; rw [← hg] at this; exact this
  · exact M.num
  · exact M.procs
  · exact M.val
  · exact M.sh
  · exact M.gh
  · intro x hx
    obtain ⟨h1, h2, h3, h4⟩ := M.old x hx
    exact ⟨(hext x h1).1, (hext x h1).2.trans h2, (set1_ne _ _ (hne x h1)).trans h3, (set1_ne _ _ (hne x h1)).trans h4⟩
  · intro x hx h0
    exact (C.low x (hne x (M.old x hx).1) h0).trans (M.oldLow x hx h0)
  · intro x hx h3
    exact (C.high x (hne x (M.old x hx).1) h3).trans (M.oldHigh x hx h3)
  · intro x hx h0
    by_cases hxe : x = (⟨t, id⟩ : El)
    · subst hxe
      exact ⟨set1_same _ _ _, set1_same _ _ _, e, by simp, hname⟩
    · have hxa : R.T.alive x = true := (hal x hxe).symm.trans hx
      obtain ⟨h1, h2, e', he', h3⟩ := M.new x hxa h0
      refine ⟨(set1_ne _ _ hxe).trans h1, (set1_ne _ _ hxe).trans h2, e', by simp [he'], ?_⟩
      rw [← h3]; simp only [name, (hext x hxa).2]
  · intro h
    have h0 := (M.old _ (h ⟨t, id⟩ hself)).1
    rw [hd] at h0
    cases h0

/-- The loop over the entries of a type. -/
theorem run_ok {A : Type} {f : Side V → A → Option (Side V × El × Bool)} {C : El → A → Prop}
    {D : El → Prop} (hD : ∀ e a, C e a → D e) {P : Side V → (El → Nat) → Prop} (hP : ∀ R nm R1 nm1, P R nm → Ext R nm R1 nm1 → P R1 nm1)
    (step : ∀ done R nm e a, Mid cn G S R0 done R nm → P R nm → C e a → (e ∈ done → Has R0 (name S.num e)) →
      (∀ x ∈ done, D x) →
      ∃ R1 x b nm1, f R a = some (R1, x, b) ∧ Mid cn G S R0 (e :: done) R1 nm1 ∧ Ext R nm R1 nm1 ∧
        Rel S dest R1 nm1 e (x, b)) :
    ∀ (l : List El) (as : List A), List.Forall₂ C l as → ∀ done R nm, Mid cn G S R0 done R nm → P R nm →
      (l.Pairwise fun a b => a = b → Has R0 (name S.num a)) → (∀ e ∈ l, e ∈ done → Has R0 (name S.num e)) →
      (∀ x ∈ done, D x) → ∃ R' out nm', runSteps f as R = some (R', out) ∧ Mid cn G S R0 (l ++ done) R' nm' ∧ Ext R nm R' nm' ∧
        List.Forall₂ (Rel S dest R' nm') l out := by
  intro l as h
  induction h with
  | nil => intro done R nm M _ _ _ _; exact ⟨R, [], nm, rfl, M, Ext.rfl' R nm, .nil⟩
  | @cons e a l as hc _ ih =>
    intro done R nm M hp hpw hd hdd
    rw [List.pairwise_cons] at hpw
    obtain ⟨R1, x, b, nm1, h1, M1, e1, r1⟩ := step done R nm e a M hp hc (hd e (by simp)) hdd
    obtain ⟨R2, out, nm2, h2, M2, e2, r2⟩ := ih (e :: done) R1 nm1 M1 (hP _ _ _ _ hp e1) hpw.2 (by
      intro y hy hyd
      rcases List.mem_cons.1 hyd with rfl | hyd
      · exact hpw.1 y hy rfl
      · exact hd y (by simp [hy]) hyd) (by
      intro y hy
      rcases List.mem_cons.1 hy with rfl | hy
      · exact hD _ _ hc
      · exact hdd y hy)
    refine ⟨R2, (x, b) :: out, nm2, by simp only [runSteps, h1, h2], M2.mono ?_, e1.trans e2, .cons (r1.ext e2) r2⟩
    intro y hy
    simp only [List.mem_append, List.mem_cons] at hy ⊢
    rcases hy with h | h | h <;> simp [h]

theorem mem_oldNodes {R : Side V} {cn : Bool} (r : Reach cn R.T) (x : El) :
    x ∈ oldNodes R ↔ R.T.alive x = true ∧ x.ty = 0 := by
  unfold oldNodes
  rw [sortNum_mem, List.mem_filter, List.mem_map]
  constructor
  · rintro ⟨⟨i, _, rfl⟩, h⟩; exact ⟨h, rfl⟩
  · rintro ⟨h, h0⟩
    refine ⟨⟨x.id, ?_, ?_⟩, h⟩
    · rw [List.mem_range]
      have := (reach_inv r).1.lastLt x h
      rwa [h0] at this
    · cases x; simp only at h0; subst h0; rfl

/-- A node. -/
theorem node_ok (c : Ctx cn G S R0 src dest byNum sel pick) (done : List El) (R : Side V) (nm : El → Nat) (e : El)
    (g : Nat) (M : Mid cn G S R0 done R nm) (hc : e ∈ sel 0 ∧ g = S.num e)
    (hd : e ∈ done → Has R0 (name S.num e)) (hdt : ∀ x ∈ done, ∃ t, x ∈ sel t) :
    ∃ R1 x b nm1, nodeStep dest pick (oldNodes R0) R g = some (R1, x, b) ∧ Mid cn G S R0 (e :: done) R1 nm1 ∧
      Ext R nm R1 nm1 ∧ Rel S dest R1 nm1 e (x, b) := by
  obtain ⟨he, rfl⟩ := hc
  have hty := (c.live 0 e he).2
  unfold nodeStep
  rw [M.num]
  cases hl : lookup R0.num (oldNodes R0) (S.num e) with
  | some x =>
    obtain ⟨h1, h2⟩ := lookup_some hl
    obtain ⟨h3, h4⟩ := (mem_oldNodes c.receiver.reach x).1 h1
    have hn : name nm x = name S.num e := by
      rw [M.oldName h3]; simp only [name, h2, h4, hty]
    exact ⟨R, x, _, nm, rfl, M.mono (fun y hy => by simp [hy]), Ext.rfl' _ _, (M.old x h3).1, hn,
      M.mark c he (M.old x h3).1 hn⟩
  | none =>
    have hno : ¬ Has R0 (name S.num e) := by
      rintro ⟨x, hx, hxn⟩
      have : x.ty = 0 := (name_ty hxn).trans hty
      refine lookup_none (sortNum_sorted _ _) hl x ((mem_oldNodes c.receiver.reach x).2 ⟨hx, this⟩) ?_
      exact congrArg El.id hxn
    have habs : ∀ x, R.T.alive x = true → name nm x ≠ name S.num e := by
      intro x hx hxn
      cases h0 : R0.T.alive x with
      | true => exact hno ⟨x, h0, by rw [← M.oldName h0, hxn]⟩
      | false =>
        obtain ⟨-, -, e', he', hn'⟩ := M.new x hx h0
        obtain ⟨t, ht⟩ := hdt e' he'
        have : e' = e := c.sender.fits.inj e' e (c.live t e' ht).1 (c.live 0 e he).1 (hn'.symm.trans hxn)
        subst this
        exact hno (hd he')
    have hdead := c.fresh R.T M.reach 0
    obtain ⟨T', h1, h2, h3⟩ := createNode_ok M.reach hdead
    simp only [h1]
    obtain ⟨a, b, d⟩ := M.create c he hdead h2 h3 (by simp) (by simp) habs (by omega) (by omega)
    exact ⟨_, _, _, _, rfl, a, b, d⟩

/-- What the receiver reads for an element of a type above nodes. -/
def CodesT (S : Side V) (byNum : Nat → Bool) (dest : Nat) (sel : Nat → List El) (cn : Bool) (t : Nat) (e : El)
    (p : Item × List Int) : Prop :=
  Codes S byNum dest (sel (t - 1)) e p.1 ∧
    (S.known byNum dest e = false → (t = 3 ∧ cn = true → elsAt (sel 0) p.2 = some (S.T.high e)) ∧
      (¬ (t = 3 ∧ cn = true) → p.2 = []))

/-- An edge, face or cell. -/
theorem up_ok (c : Ctx cn G S R0 src dest byNum sel pick) (dup : Bool) {t : Nat} (h0 : 0 < t) (h3 : t < 4)
    {prev nodes : List El} (done : List El) (R : Side V) (nm : El → Nat) (e : El) (p : Item × List Int)
    (M : Mid cn G S R0 done R nm) (hP : Par S (sel (t - 1)) prev R nm ∧ Par S (sel 0) nodes R nm)
    (hc : e ∈ sel t ∧ CodesT S byNum dest sel cn t e p) :
    ∃ R1 x b nm1, upStep dest src dup pick t prev nodes R p = some (R1, x, b) ∧ Mid cn G S R0 (e :: done) R1 nm1 ∧
      Ext R nm R1 nm1 ∧ Rel S dest R1 nm1 e (x, b) := by
  obtain ⟨he, hcode, hhigh⟩ := hc
  obtain ⟨it, hidx⟩ := p
  have hty := (c.live t e he).2
  have hea := (c.live t e he).1
  have found : ∀ u, R.T.alive u = true → name nm u = name S.num e →
      Mid cn G S R0 (e :: done) R nm ∧ Ext R nm R nm ∧ Rel S dest R nm e (u, R.owner u != (dest : Int)) :=
    fun u hu hn => ⟨M.mono (fun y hy => by simp [hy]), Ext.rfl' _ _, hu, hn, M.mark c he hu hn⟩
  rcases hcode with ⟨hk, hit⟩ | ⟨hk, idx, hit, hels⟩
  · simp only at hit
    subst hit
    obtain ⟨u, hu, hun⟩ := c.known.listed t h0 e he hk
    have hlists : Lists R0 := c.lists ⟨e.ty, (Bool.and_eq_true _ _ ▸ hk).1⟩
    have key : ∃ y, findSharedGhost R dest src t (S.owner e) ((S.num e : Int)).toNat = some y ∧
        R0.T.alive y = true ∧ y.ty = t ∧ R0.num y = S.num e := by
      unfold findSharedGhost
      rw [M.num, M.sh, M.gh, Int.toNat_natCast]
      by_cases hd : S.owner e = (dest : Int)
      · rw [if_pos hd] at hu ⊢
        obtain ⟨s1, s2⟩ := hlists.sh src t
        obtain ⟨y, hy⟩ := lookup_of_mem (s1.imp fun h => Nat.le_of_lt h) hu hun
        have := lookup_some hy
        exact ⟨y, hy, (s2 y this.1).1, (s2 y this.1).2, this.2⟩
      · rw [if_neg hd] at hu ⊢
        obtain ⟨s1, s2⟩ := hlists.gh (S.owner e) t
        obtain ⟨y, hy⟩ := lookup_of_mem (s1.imp fun h => Nat.le_of_lt h) hu hun
        have := lookup_some hy
        exact ⟨y, hy, (s2 y this.1).1, (s2 y this.1).2, this.2⟩
    obtain ⟨y, h1, h2, h4, h5⟩ := key
    have hn : name nm y = name S.num e := by rw [M.oldName h2]; simp only [name, h4, h5, hty]
    refine ⟨R, y, _, nm, ?_, found y (M.old y h2).1 hn⟩
    simp only [upStep, h1]
  · simp only at hit
    subst hit
    obtain ⟨es, e1, e2, e3⟩ := elsAt_par hP.1.1 idx hels
    have hns : ∃ ns, elsAt nodes hidx = some ns ∧ (∀ x ∈ ns, R.T.alive x = true ∧ x.ty = 0) ∧
        (t = 3 → R.T.cn = true → (ns.map (name nm)).Perm (G.nodes (name S.num e))) := by
      have hcn : S.T.cn = cn := (reach_inv c.sender.reach).2
      have hcn' : R.T.cn = cn := (reach_inv M.reach).2
      by_cases hb : t = 3 ∧ cn = true
      · obtain ⟨ns, n1, n2, n3⟩ := elsAt_par hP.2.1 hidx ((hhigh hk).1 hb)
        refine ⟨ns, n1, fun x hx => ⟨hP.2.2 x (n3 x hx), ?_⟩, fun _ _ => ?_⟩
        · have := List.mem_map_of_mem (f := name nm) hx
          rw [n2] at this
          obtain ⟨y, hy, hyn⟩ := List.mem_map.1 this
          rw [← name_ty hyn]
          exact highTy c.sender.reach (hty.trans hb.1) hy
        · rw [n2]; exact c.sender.fits.nodes e hea (hty.trans hb.1) (hcn.trans hb.2)
      · rw [show hidx = [] from (hhigh hk).2 hb]
        exact ⟨[], rfl, by simp, fun h h' => absurd ⟨h, hcn'.symm.trans h'⟩ hb⟩
    obtain ⟨ns, n1, n2, n3⟩ := hns
    have hes : ∀ x ∈ es, R.T.alive x = true ∧ x.ty + 1 = t := by
      intro x hx
      refine ⟨hP.1.2 x (e3 x hx), ?_⟩
      have := List.mem_map_of_mem (f := name nm) hx
      rw [e2] at this
      obtain ⟨y, hy, hyn⟩ := List.mem_map.1 this
      rw [← name_ty hyn, ← hty]
      exact lowTy c.sender.reach (by omega) hy
    have hl : (es.map (name nm)).Perm (G.low (name S.num e)) := by
      rw [e2]; exact c.sender.fits.low e hea (by omega)
    have hne : es ≠ [] := by
      rintro rfl
      exact c.sender.fits.full e hea (by omega) (List.map_eq_nil_iff.1 e2.symm)
    have hgt : (name S.num e).ty = t := hty
    obtain ⟨u, f1, f2, f3⟩ := find_ok (g := name S.num e) M.reach M.plain c.ok M.fits (by omega)
      (fun x hx => by rw [hgt]; exact hes x hx) hne (by omega) hl
    have hup : upStep dest src dup pick t prev nodes R (.conn idx, hidx) = connStep dest dup pick t es ns R := by
      simp only [upStep, e1, n1]
    rw [hup]
    unfold connStep
    rw [f1]
    cases u with
    | some u =>
      obtain ⟨g1, g2⟩ := f2 u rfl
      exact ⟨R, u, _, nm, rfl, found u g1 g2⟩
    | none =>
      have habs := f3 rfl
      have hdead := c.fresh R.T M.reach t
      obtain ⟨T', k1, k2, k3⟩ := create_ok M.reach M.plain dup (nodes := ns)
        ⟨by omega, hes, n2⟩ hne hdead f1
      simp only [k1]
      obtain ⟨a, b, d⟩ := M.create c he hdead k2 k3 (fun x hx => (hes x hx).1) (fun x hx => (n2 x hx).1) habs
        (fun _ => ⟨hl, hne⟩) n3
      exact ⟨_, _, _, _, rfl, a, b, d⟩

end

end Verif.Transfer
