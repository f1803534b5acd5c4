import Verif.Parallel.Run

/-!
# Final values of a collective call
-/

namespace Verif.Parallel

variable {V : Type}

theorem contrib_present (d : El → Option (List V)) (e : El) :
    contrib (fun _ => true) d e = present (d e) := by
  unfold contrib present
  rw [if_pos rfl]
  cases d e with
  | none => rfl
  | some x => cases x <;> rfl

theorem foldOp_snoc (op : Op V) (T : TagInfo) (e : El) (val : Nat → Option (List V)) (q : Nat) :
    ∀ (qs : List Nat) (d : Option (List V)), foldOp op T e val (qs ++ [q]) d =
      match foldOp op T e val qs d with
      | none => none
      | some r => match val q with
        | none => some r
        | some x => op T e r x
  | [], d => by
    simp only [List.nil_append, foldOp]
    cases val q with
    | none => rfl
    | some x => simp only; cases op T e d x <;> rfl
  | a :: qs, d => by
    simp only [List.cons_append, foldOp]
    cases val a with
    | none => exact foldOp_snoc op T e val q qs d
    | some x =>
      simp only
      cases op T e d x with
      | none => rfl
      | some r => exact foldOp_snoc op T e val q qs r

/-- Values that are not there may be left out. -/
theorem foldOp_filter (op : Op V) (T : TagInfo) (e : El) (val : Nat → Option (List V)) (P : Nat → Bool) :
    ∀ (qs : List Nat) (d : Option (List V)), (∀ q, q ∈ qs → P q = false → val q = none) →
      foldOp op T e val (qs.filter P) d = foldOp op T e val qs d
  | [], d, _ => rfl
  | q :: qs, d, h => by
    have ih := fun d => foldOp_filter op T e val P qs d fun x hx => h x (List.mem_cons_of_mem _ hx)
    rw [List.filter_cons]
    cases hp : P q with
    | true =>
      simp only [if_true, foldOp]
      cases val q with
      | none => exact ih d
      | some x =>
        simp only
        cases op T e d x with
        | none => rfl
        | some r => exact ih r
    | false =>
      simp only [Bool.false_eq_true, if_false, foldOp, h q List.mem_cons_self hp]
      exact ih d

theorem foldOp_congr {op : Op V} {T : TagInfo} {e : El} {v w : Nat → Option (List V)} :
    ∀ {qs : List Nat} (d : Option (List V)), (∀ q, q ∈ qs → v q = w q) →
      foldOp op T e v qs d = foldOp op T e w qs d
  | [], _, _ => rfl
  | q :: qs, d, h => by
    simp only [foldOp, h q List.mem_cons_self]
    have ih := fun d => foldOp_congr (op := op) (T := T) (e := e) (v := v) (w := w) (qs := qs) d
      fun x hx => h x (List.mem_cons_of_mem _ hx)
    cases w q with
    | none => exact ih d
    | some x =>
      simp only
      cases op T e d x with
      | none => rfl
      | some r => exact ih r

theorem effects_fold {C : Call V} {G : Nat → Local V} {p : Nat} {qs : List Nat}
    {d : Nat → El → Option (List V)} (h : Effects C G p qs d) :
    (∀ t, t ∈ C.tags → ∀ e,
      foldOp C.op t.2 e (sent C G p t e) qs ((G p).data t.1 e) = some (d t.1 e)) ∧
    ∀ k, (∀ t, t ∈ C.tags → t.1 ≠ k) → d k = (G p).data k := by
  induction h with
  | nil => exact ⟨fun _ _ _ => rfl, fun _ _ => rfl⟩
  | @snoc qs q d d' _ he ih =>
    constructor
    · intro t ht e
      rw [foldOp_snoc, ih.1 t ht e]
      have := he.1 t ht e
      cases hs : sent C G p t e q with
      | none => rw [hs] at this; simp only at this ⊢; rw [this]
      | some x => rw [hs] at this; exact this
    · intro k hk
      rw [he.2 k hk, ih.2 k hk]

/-- In a final state every processor has unpacked exactly the messages it awaited, and the values are
those combined in the order of arrival. -/
theorem final_fold {C : Call V} {G : Nat → Local V} (H : CallOk C G) {tr : List Event} {S : Sys V}
    (hr : Run C G tr S) (hd : Done C S) {p : Nat} (hp : p < C.n) :
    (received tr p).Perm (recvFrom C p (G p)) ∧
    ∃ d, S.loc p = { G p with data := d } ∧
      (∀ t, t ∈ C.tags → ∀ e,
        foldOp C.op t.2 e (sent C G p t e) (received tr p) ((G p).data t.1 e) = some (d t.1 e)) ∧
      ∀ k, (∀ t, t ∈ C.tags → t.1 ≠ k) → d k = (G p).data k := by
  have I := run_inv H hr
  obtain ⟨h1, h2⟩ := hd p hp
  have hw := I.wait p h1
  rw [h2, List.append_nil] at hw
  obtain ⟨d, hd1, hd2, _⟩ := I.loc p hp
  exact ⟨hw, d, hd1, (effects_fold hd2).1, (effects_fold hd2).2⟩

theorem le_sum_of_mem {l : List Nat} {f : Nat → Nat} {i : Nat} (h : i ∈ l) : f i ≤ (l.map f).sum := by
  induction l with
  | nil => cases h
  | cons a l ih =>
    simp only [List.map_cons, List.sum_cons]
    rcases List.mem_cons.1 h with rfl | h
    · omega
    · have := ih h; omega

/-- The partner of a selected copy is awaited. -/
theorem pair_awaited {C : Call V} {G : Nat → Local V} (D : Distributed C.n G) {q p : Nat}
    (hq : q < C.n) (hp : p < C.n) {f e : El} (h : Pair C G q p f e) (hm : C.mask e.ty = true)
    (hs : (G p).sel e = true) : q ∈ recvFrom C p (G p) := by
  have hne := h.same.2.2.2.2
  unfold recvFrom
  simp only [List.mem_filter, List.mem_range, hq, true_and, Bool.and_eq_true, bne_iff_ne]
  refine ⟨hne, ?_⟩
  have hmem : e ∈ (toList C p (G p) q e.ty).filter (G p).sel :=
    List.mem_filter.2 ⟨(mem_toList D hq hp hne).2 ⟨hm, rfl, f, h⟩, hs⟩
  have hty : e.ty ∈ List.range 5 := List.mem_range.2 (D.types p hp e h.same.2.1)
  have := le_sum_of_mem (f := fun i => if C.mask i then ((toList C p (G p) q i).filter (G p).sel).length else 0) hty
  simp only [hm, if_true] at this
  have hpos := List.length_pos_of_mem hmem
  unfold listSize
  omega

theorem sent_none {C : Call V} {G : Nat → Local V} (D : Distributed C.n G) {q p : Nat}
    (hq : q < C.n) (hp : p < C.n) (hne : q ≠ p) {t : Nat × TagInfo} {e : El}
    (h : ∀ f, Pair C G q p f e → (G p).sel e = true → C.mask e.ty = true → t.2.defd e.ty = true →
      ∀ a l, (G q).data t.1 f ≠ some (a :: l)) : sent C G p t e q = none := by
  cases hs : sent C G p t e q with
  | none => rfl
  | some x =>
    obtain ⟨h1, h2, f, hf, hx⟩ := sent_inv D hq hp hne hs
    obtain ⟨h3, h4, h5⟩ := contrib_ne hx
    cases x with
    | nil => exact absurd rfl h3
    | cons a l => exact absurd h4 (h f hf (by rw [← hf.sel D hq hp]; exact h5) h1 h2 a l)

theorem foldOp_none {op : Op V} {T : TagInfo} {e : El} {val : Nat → Option (List V)} :
    ∀ {qs : List Nat} (d : Option (List V)), (∀ q, q ∈ qs → val q = none) →
      foldOp op T e val qs d = some d
  | [], _, _ => rfl
  | q :: qs, d, h => by
    simp only [foldOp, h q List.mem_cons_self]
    exact foldOp_none d fun x hx => h x (List.mem_cons_of_mem _ hx)

/-- Only one value arrives. -/
theorem foldOp_one {op : Op V} {T : TagInfo} {e : El} {val : Nat → Option (List V)} {q : Nat}
    {x : List V} (hv : val q = some x) : ∀ {qs : List Nat} (d : Option (List V)), qs.Nodup → q ∈ qs →
    (∀ q', q' ∈ qs → q' ≠ q → val q' = none) → foldOp op T e val qs d = op T e d x
  | [], _, _, h, _ => by cases h
  | a :: qs, d, hn, hm, h => by
    rw [List.nodup_cons] at hn
    by_cases ha : a = q
    · subst ha
      simp only [foldOp, hv]
      cases op T e d x with
      | none => rfl
      | some r =>
        exact foldOp_none r fun y hy => h y (List.mem_cons_of_mem _ hy) fun e => hn.1 (e ▸ hy)
    · simp only [foldOp, h a List.mem_cons_self ha]
      exact foldOp_one hv d hn.2 ((List.mem_cons.1 hm).resolve_left fun e => ha e.symm)
        fun y hy => h y (List.mem_cons_of_mem _ hy)

theorem defaultUnpack_safe (T : TagInfo) : OpSafe (defaultUnpack (V := V)) T := by
  intro e d x hdef hd hx hl
  have hx0 : x.length ≠ 0 := by simpa using hx
  have hsz : SizedAt T e.ty (some x) :=
    ⟨fun y n h hn => by cases h; exact hl n hn, fun _ => by simp⟩
  refine ⟨some x, ?_, hsz⟩
  unfold defaultUnpack
  rw [if_neg hx0]
  cases d with
  | none =>
    cases hT : T.size with
    | none => rfl
    | some n => simp only [hl n hT, if_true]
  | some y =>
    simp only
    split
    · rename_i hne
      cases hT : T.size with
      | none => rfl
      | some n => exact absurd ((hl n hT).trans (hd.size y n rfl hT).symm) hne
    · rfl

theorem defaultUnpack_eq {T : TagInfo} {e : El} {d : Option (List V)} {x : List V} {r : Option (List V)}
    (hx : x ≠ []) (h : defaultUnpack T e d x = some r) : r = some x := by
  have hx0 : x.length ≠ 0 := by simpa using hx
  unfold defaultUnpack at h
  rw [if_neg hx0] at h
  repeat' split at h
  all_goals (cases h <;> rfl)

theorem exchange_ok {n : Nat} {tags : List (Nat × TagInfo)} {mask : Nat → Bool} {G : Nat → Local V}
    (D : Distributed n G) (hsz : Sized n tags G) (ht : (tags.map (·.1)).Nodup) :
    CallOk (exchangeCall n tags mask) G :=
  ⟨D, hsz, ht, fun t _ => defaultUnpack_safe t.2⟩

/-- Final values after ExchangeData. -/
theorem exchange_final {n : Nat} {tags : List (Nat × TagInfo)} {mask : Nat → Bool} {G : Nat → Local V}
    (D : Distributed n G) (hsz : Sized n tags G) (ht : (tags.map (·.1)).Nodup) {tr : List Event}
    {S : Sys V} (hr : Run (exchangeCall n tags mask) G tr S) (hd : Done (exchangeCall n tags mask) S)
    {p : Nat} (hp : p < n) :
    ∃ d, S.loc p = { G p with data := d } ∧
      (∀ t, t ∈ tags → ∀ e q e' a l, GhostOf G p e q e' → mask e.ty = true → t.2.defd e.ty = true →
        (G p).sel e = true → (G q).data t.1 e' = some (a :: l) → d t.1 e = some (a :: l)) ∧
      (∀ t, t ∈ tags → ∀ e, (∀ q e', GhostOf G p e q e' → mask e.ty = true → t.2.defd e.ty = true →
        (G p).sel e = true → ∀ a l, (G q).data t.1 e' ≠ some (a :: l)) →
          d t.1 e = (G p).data t.1 e) ∧
      ∀ k, (∀ t, t ∈ tags → t.1 ≠ k) → d k = (G p).data k := by
  have H := exchange_ok (mask := mask) D hsz ht
  obtain ⟨h1, d, h2, h3, h4⟩ := final_fold H hr hd hp
  have hmem : ∀ q, q ∈ received tr p → q < n ∧ q ≠ p := fun q hq => mem_recvFrom (h1.mem_iff.1 hq)
  have hnd : (received tr p).Nodup := h1.nodup_iff.2 recvFrom_nodup
  refine ⟨d, h2, ?_, ?_, h4⟩
  · intro t htm e q e' a l hg hm hdef hs hdat
    have hq : q < n := by
      have := (D.owner p hp e hg.mem hg.ghost).1
      rw [hg.owner] at this
      exact this
    have hpair : Pair (exchangeCall n tags mask) G q p e' e := hg
    have hsent : sent (exchangeCall n tags mask) G p t e q = some (a :: l) := by
      rw [sent_pair D hq hp hpair hm hdef]
      have := D.select p q hp hq _ _ hg
      unfold contrib
      rw [if_pos (by rw [← this]; exact hs), hdat]
    have := h3 t htm e
    rw [foldOp_one hsent _ hnd (h1.mem_iff.2 (pair_awaited D hq hp hpair hm hs))] at this
    · exact defaultUnpack_eq (e := e) (by simp) this
    · intro q' hq' hne
      apply sent_none D (hmem q' hq').1 hp (hmem q' hq').2
      intro f hf
      have hf' : GhostOf G p e q' f := hf
      exact absurd (hf'.owner.symm.trans hg.owner) hne
  · intro t htm e hno
    have := h3 t htm e
    rw [foldOp_none] at this
    · injection this with this
      exact this.symm
    · intro q hq
      apply sent_none D (hmem q hq).1 hp (hmem q hq).2
      intro f hf hs hm hdef
      exact hno q f hf hm hdef hs

/-- Final values after ReduceData. -/
theorem reduce_final {n : Nat} {tags : List (Nat × TagInfo)} {mask : Nat → Bool} {op : Op V}
    {G : Nat → Local V} (D : Distributed n G) (hsz : Sized n tags G) (ht : (tags.map (·.1)).Nodup)
    (hop : ∀ t, t ∈ tags → OpSafe op t.2) {tr : List Event} {S : Sys V}
    (hr : Run (reduceCall n tags mask op) G tr S) (hd : Done (reduceCall n tags mask op) S)
    {q : Nat} (hq : q < n) :
    ∃ d, S.loc q = { G q with data := d } ∧
      (∀ t, t ∈ tags → ∀ e', e' ∈ (G q).elems → (G q).status e' = .shared → mask e'.ty = true →
        t.2.defd e'.ty = true → (G q).sel e' = true →
        ∀ val : Nat → Option (List V),
        (∀ p e, GhostOf G p e q e' → val p = present ((G p).data t.1 e)) →
        ∃ order : List Nat, order.Perm (((G q).procs e').filter fun p => p != q) ∧
          foldOp op t.2 e' val order ((G q).data t.1 e') = some (d t.1 e')) ∧
      (∀ t, t ∈ tags → ∀ e', ((G q).status e' ≠ .shared ∨ mask e'.ty = false ∨
        t.2.defd e'.ty = false ∨ (G q).sel e' = false) → d t.1 e' = (G q).data t.1 e') ∧
      ∀ k, (∀ t, t ∈ tags → t.1 ≠ k) → d k = (G q).data k := by
  have H : CallOk (reduceCall n tags mask op) G := ⟨D, hsz, ht, hop⟩
  obtain ⟨h1, d, h2, h3, h4⟩ := final_fold H hr hd hq
  have hmem : ∀ p, p ∈ received tr q → p < n ∧ p ≠ q := fun p hp => mem_recvFrom (h1.mem_iff.1 hp)
  have hnd : (received tr q).Nodup := h1.nodup_iff.2 recvFrom_nodup
  refine ⟨d, h2, ?_, ?_, h4⟩
  · intro t htm e' he hs hm hdef hsel val hval
    have hpair : ∀ p e, GhostOf G p e q e' → Pair (reduceCall n tags mask op) G p q e e' :=
      fun p e h => h
    have hin : ∀ p, p ∈ (G q).procs e' → p ≠ q → p < n ∧ ∃ e, GhostOf G p e q e' :=
      fun p h1 h2 => D.ghosts q hq e' he hs p h1 h2
    have hsv : ∀ p, p ∈ (G q).procs e' → p ≠ q →
        sent (reduceCall n tags mask op) G q t e' p = val p := by
      intro p h1 h2
      obtain ⟨hp, e, hg⟩ := hin p h1 h2
      rw [sent_pair D hp hq (hpair p e hg) hm hdef, hval p e hg, ← contrib_present]
      have := D.select p q hp hq _ _ hg
      unfold contrib
      simp only [this, hsel, if_true]
    refine ⟨(received tr q).filter fun p => decide (p ∈ (G q).procs e'), ?_, ?_⟩
    · rw [List.perm_ext_iff_of_nodup (hnd.sublist List.filter_sublist)
        ((D.procs q hq e' he hs).sublist List.filter_sublist)]
      intro p
      simp only [List.mem_filter, decide_eq_true_eq, bne_iff_ne]
      constructor
      · rintro ⟨h5, h6⟩; exact ⟨h6, (hmem p h5).2⟩
      · rintro ⟨h5, h6⟩
        obtain ⟨hp, e, hg⟩ := hin p h5 h6
        exact ⟨h1.mem_iff.2 (pair_awaited D hp hq (hpair p e hg) hm hsel), h5⟩
    · rw [← h3 t htm e']
      have e1 := foldOp_filter op t.2 e' (sent (reduceCall n tags mask op) G q t e')
        (fun p => decide (p ∈ (G q).procs e')) (received tr q) ((G q).data t.1 e') (by
          intro p hp hn
          apply sent_none D (hmem p hp).1 hq (hmem p hp).2
          intro f hf
          have hf' : GhostOf G p f q e' := hf
          simp [hf'.procs] at hn)
      have e0 : (reduceCall n tags mask op).op = op := rfl
      rw [e0, ← e1]
      apply foldOp_congr
      intro p hp
      simp only [List.mem_filter, decide_eq_true_eq] at hp
      exact (hsv p hp.2 (hmem p hp.1).2).symm
  · intro t htm e' hno
    have := h3 t htm e'
    rw [foldOp_none] at this
    · injection this with this
      exact this.symm
    · intro p hp
      apply sent_none D (hmem p hp).1 hq (hmem p hp).2
      intro f hf hs hm hdef
      have hf' : GhostOf G p f q e' := hf
      have hm' : mask e'.ty = true := hm
      rcases hno with h | h | h | h
      · exact absurd hf'.shared h
      · rw [h] at hm'; cases hm'
      · rw [h] at hdef; cases hdef
      · rw [h] at hs; cases hs

theorem foldOp_perm {op : Op V} (hc : OpComm op) {T : TagInfo} {e : El} {val : Nat → Option (List V)}
    {l m : List Nat} (h : l.Perm m) : ∀ d, foldOp op T e val l d = foldOp op T e val m d := by
  induction h with
  | nil => intro d; rfl
  | cons a _ ih =>
    intro d
    simp only [foldOp]
    cases val a with
    | none => exact ih d
    | some x =>
      simp only
      cases op T e d x with
      | none => rfl
      | some r => exact ih r
  | swap a b l =>
    intro d
    simp only [foldOp]
    cases ha : val a with
    | none => cases hb : val b <;> rfl
    | some x =>
      cases hb : val b with
      | none => rfl
      | some y =>
        simp only
        have := hc T e d x y
        cases h1 : op T e d x with
        | none =>
          cases h2 : op T e d y with
          | none => rfl
          | some r =>
            rw [h1, h2] at this
            simp only at this ⊢
            rw [← this]
        | some s =>
          cases h2 : op T e d y with
          | none =>
            rw [h1, h2] at this
            simp only at this ⊢
            rw [this]
          | some r =>
            rw [h1, h2] at this
            simp only at this ⊢
            rw [this]
  | trans _ _ ih1 ih2 => intro d; rw [ih1, ih2]

end Verif.Parallel
