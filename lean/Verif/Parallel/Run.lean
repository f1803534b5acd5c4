import Verif.Parallel.Align

/-!
# Executions of a collective call, in any order of events
-/

namespace Verif.Parallel

variable {V : Type}

/-- The value that `q` sends to `p` for the copy `e` of `p`. -/
def sent (C : Call V) (G : Nat → Local V) (p : Nat) (t : Nat × TagInfo) (e : El) (q : Nat) :
    Option (List V) :=
  if C.mask e.ty && t.2.defd e.ty then
    match (pairs C G q p e.ty).find? (fun z => z.2 = e) with
    | some z => contrib (G q).sel ((G q).data t.1) z.1
    | none => none
  else none

theorem sent_pair {C : Call V} {G : Nat → Local V} (D : Distributed C.n G) {q p : Nat}
    (hq : q < C.n) (hp : p < C.n) {t : Nat × TagInfo} {f e : El} (h : Pair C G q p f e)
    (hm : C.mask e.ty = true) (hd : t.2.defd e.ty = true) :
    sent C G p t e q = contrib (G q).sel ((G q).data t.1) f := by
  have hne := h.same.2.2.2.2
  unfold sent
  simp only [hm, hd, Bool.and_self, if_true]
  have hmem : (f, e) ∈ pairs C G q p e.ty := (mem_pairs D hq hp hne).2 ⟨hm, rfl, h⟩
  cases hf : (pairs C G q p e.ty).find? (fun z => decide (z.2 = e)) with
  | none =>
    rw [List.find?_eq_none] at hf
    exact absurd (by simp) (hf (f, e) hmem)
  | some z =>
    have h1 := List.mem_of_find?_eq_some hf
    have h2 := List.find?_some hf
    simp only [decide_eq_true_eq] at h2
    obtain ⟨f', e'⟩ := z
    simp only at h2
    subst h2
    have h3 := ((mem_pairs D hq hp hne).1 h1).2.2
    have : f' = f := D.unique q hq f' f h3.same.1 h.same.1
      (h3.same.2.2.1.trans h.same.2.2.1.symm) (h3.same.2.2.2.1.trans h.same.2.2.2.1.symm)
    subst this
    rfl

theorem sent_inv {C : Call V} {G : Nat → Local V} (D : Distributed C.n G) {q p : Nat}
    (hq : q < C.n) (hp : p < C.n) (hne : q ≠ p) {t : Nat × TagInfo} {e : El} {x : List V}
    (h : sent C G p t e q = some x) :
    C.mask e.ty = true ∧ t.2.defd e.ty = true ∧ ∃ f, Pair C G q p f e ∧
      contrib (G q).sel ((G q).data t.1) f = some x := by
  unfold sent at h
  split at h
  · rename_i hc
    rw [Bool.and_eq_true] at hc
    split at h
    · rename_i z hf
      have h1 := List.mem_of_find?_eq_some hf
      have h2 := List.find?_some hf
      simp only [decide_eq_true_eq] at h2
      obtain ⟨f', e'⟩ := z
      simp only at h2
      subst h2
      exact ⟨hc.1, hc.2, f', ((mem_pairs D hq hp hne).1 h1).2.2, h⟩
    · cases h
  · cases h

/-- All values of a tag on a processor have the right size. -/
def DataOk (T : TagInfo) (els : List El) (d : El → Option (List V)) : Prop :=
  ∀ e, e ∈ els → T.defd e.ty = true → SizedAt T e.ty (d e)

theorem mem_packTypes {T : TagInfo} {mask : Nat → Bool} {i : Nat} :
    i ∈ packTypes T mask ↔ i < 6 ∧ mask i = true ∧ T.defd i = true := by
  simp [packTypes]

theorem pairs_all_nodup {C : Call V} {G : Nat → Local V} (D : Distributed C.n G) {q p : Nat}
    (hq : q < C.n) (hp : p < C.n) (hne : q ≠ p) (T : TagInfo) :
    (((packTypes T C.mask).flatMap (pairs C G q p)).map (·.2)).Nodup := by
  rw [List.map_flatMap, List.nodup_iff_pairwise_ne, List.pairwise_flatMap]
  constructor
  · intro i _
    rw [pairs_snd D i hq hp hne]
    exact toList_nodup D q i hp
  · have hn : (packTypes T C.mask).Nodup := List.nodup_range.sublist List.filter_sublist
    refine List.Pairwise.imp ?_ hn
    intro i j hij x hx y hy
    rw [pairs_snd D _ hq hp hne, mem_toList D hq hp hne] at hx hy
    rintro rfl
    exact hij (hx.2.1.symm.trans hy.2.1)

theorem unpackTag_spec {C : Call V} {G : Nat → Local V} (D : Distributed C.n G)
    (hsz : Sized C.n C.tags G) {q p : Nat} (hq : q < C.n) (hp : p < C.n) (hne : q ≠ p)
    {t : Nat × TagInfo} (ht : t ∈ C.tags) (hop : OpSafe C.op t.2) {d : El → Option (List V)}
    (hd : DataOk t.2 (G p).elems d) :
    ∃ d', unpackTag t.2 (G p).sel C.op (toList C p (G p) q)
        (packTag t.2 C.mask (G q).sel ((G q).data t.1) (fromList C q (G q) p)) d = some d' ∧
      ∀ e, match sent C G p t e q with
        | none => d' e = d e
        | some x => C.op t.2 e (d e) x = some (d' e) := by
  rw [unpackTag_pack (zs := pairs C G q p) (fun i => pairs_fst D i hq hp hne)
    (fun i => pairs_snd D i hq hp hne)]
  · obtain ⟨d', h1, h2, h3⟩ := applyAll_spec hop (c := contrib (G q).sel ((G q).data t.1))
      (fun f x h => (contrib_ne h).1) ((packTypes t.2 C.mask).flatMap (pairs C G q p)) d
      (pairs_all_nodup D hq hp hne t.2) (by
        intro z x hz hx
        rw [List.mem_flatMap] at hz
        obtain ⟨i, hi, hz⟩ := hz
        have hz' := (mem_pairs D hq hp hne (f := z.1) (t := z.2)).1 hz
        rw [mem_packTypes] at hi
        have hdef : t.2.defd z.2.ty = true := by rw [hz'.2.1]; exact hi.2.2
        refine ⟨hdef, hd z.2 hz'.2.2.same.2.1 hdef, fun n hn => ?_⟩
        exact (hsz t ht q hq z.1 hz'.2.2.same.1 (by rw [hz'.2.2.same.2.2.1]; exact hdef)).size x n
          (contrib_ne hx).2.1 hn)
    refine ⟨d', h1, fun e => ?_⟩
    cases hs : sent C G p t e q with
    | none =>
      apply h3
      intro f hf
      rw [List.mem_flatMap] at hf
      obtain ⟨i, hi, hz⟩ := hf
      have hz' := (mem_pairs D hq hp hne).1 hz
      rw [mem_packTypes] at hi
      rw [← sent_pair D hq hp hz'.2.2 (t := t) (by rw [hz'.2.1]; exact hi.2.1)
        (by rw [hz'.2.1]; exact hi.2.2)]
      exact hs
    | some x =>
      obtain ⟨hm, hdef, f, hf, hx⟩ := sent_inv D hq hp hne hs
      refine h2 f e x ?_ hx
      rw [List.mem_flatMap]
      refine ⟨e.ty, mem_packTypes.2 ⟨?_, hm, hdef⟩, (mem_pairs D hq hp hne).2 ⟨hm, rfl, hf⟩⟩
      have := D.types p hp e hf.same.2.1
      omega
  · intro i hi
    rw [mem_packTypes] at hi
    constructor
    · intro z hz
      exact ((mem_pairs D hq hp hne (f := z.1) (t := z.2)).1 hz).2.2.sel D hq hp
    · intro z hz
      have hz' := (mem_pairs D hq hp hne (f := z.1) (t := z.2)).1 hz
      have hty : z.1.ty = i := by rw [hz'.2.2.same.2.2.1]; exact hz'.2.1
      have := hsz t ht q hq z.1 hz'.2.2.same.1 (by rw [hty]; exact hi.2.2)
      rw [hty] at this
      exact this

/-- Effect of one message on the values of a tag. -/
def Effect (C : Call V) (G : Nat → Local V) (p q : Nat) (d d' : Nat → El → Option (List V)) : Prop :=
  (∀ t, t ∈ C.tags → ∀ e, match sent C G p t e q with
    | none => d' t.1 e = d t.1 e
    | some x => C.op t.2 e (d t.1 e) x = some (d' t.1 e)) ∧
  ∀ k, (∀ t, t ∈ C.tags → t.1 ≠ k) → d' k = d k

theorem sent_ok {C : Call V} {G : Nat → Local V} (D : Distributed C.n G) (hsz : Sized C.n C.tags G)
    {q p : Nat} (hq : q < C.n) (hp : p < C.n) (hne : q ≠ p) {t : Nat × TagInfo} (ht : t ∈ C.tags)
    {e : El} {x : List V} (h : sent C G p t e q = some x) :
    e ∈ (G p).elems ∧ t.2.defd e.ty = true ∧ x ≠ [] ∧ ∀ n, t.2.size = some n → x.length = n := by
  obtain ⟨_, h2, f, hf, hx⟩ := sent_inv D hq hp hne h
  refine ⟨hf.same.2.1, h2, (contrib_ne hx).1, fun n hn => ?_⟩
  exact (hsz t ht q hq f hf.same.1 (by rw [hf.same.2.2.1]; exact h2)).size x n (contrib_ne hx).2.1 hn

theorem unpackTags_spec {C : Call V} {G : Nat → Local V} (D : Distributed C.n G)
    (hsz : Sized C.n C.tags G) (hop : ∀ t, t ∈ C.tags → OpSafe C.op t.2) {q p : Nat} (hq : q < C.n)
    (hp : p < C.n) (hne : q ≠ p) : ∀ (ts : List (Nat × TagInfo)), (∀ t, t ∈ ts → t ∈ C.tags) →
    (ts.map (·.1)).Nodup → ∀ (d : Nat → El → Option (List V)),
    (∀ t, t ∈ ts → DataOk t.2 (G p).elems (d t.1)) →
    ∃ d', unpackTags (G p).sel C.op (toList C p (G p) q) ts
        (ts.map fun t => packTag t.2 C.mask (G q).sel ((G q).data t.1) (fromList C q (G q) p)) d =
          some d' ∧
      (∀ t, t ∈ ts → ∀ e, match sent C G p t e q with
        | none => d' t.1 e = d t.1 e
        | some x => C.op t.2 e (d t.1 e) x = some (d' t.1 e)) ∧
      ∀ k, (∀ t, t ∈ ts → t.1 ≠ k) → d' k = d k
  | [], _, _, d, _ => ⟨d, rfl, by simp, by simp⟩
  | (k, T) :: ts, hts, hn, d, hd => by
    simp only [List.map_cons, List.nodup_cons] at hn
    have h0 := hts (k, T) List.mem_cons_self
    obtain ⟨r, hr1, hr2⟩ := unpackTag_spec D hsz hq hp hne h0 (hop _ h0) (hd (k, T) List.mem_cons_self)
    have hk : ∀ t, t ∈ ts → t.1 ≠ k := fun t ht e => hn.1 (List.mem_map.2 ⟨t, ht, e⟩)
    obtain ⟨d', h1, h2, h3⟩ := unpackTags_spec D hsz hop hq hp hne ts
      (fun t ht => hts t (List.mem_cons_of_mem _ ht)) hn.2 (setTag d k r)
      (fun t ht => by
        have := hd t (List.mem_cons_of_mem _ ht)
        simpa only [setTag, if_neg (hk t ht)] using this)
    refine ⟨d', ?_, ?_, ?_⟩
    · simp only [List.map_cons, unpackTags]
      rw [hr1]
      exact h1
    · intro t ht e
      rcases List.mem_cons.1 ht with rfl | ht
      · have e1 : d' k = r := by rw [h3 k hk]; simp only [setTag, if_true]
        simp only [e1]
        exact hr2 e
      · have := h2 t ht e
        simpa only [setTag, if_neg (hk t ht)] using this
    · intro k' hk'
      rw [h3 k' fun t ht => hk' t (List.mem_cons_of_mem _ ht)]
      have hkk : k' ≠ k := fun e => hk' (k, T) List.mem_cons_self e.symm
      simp only [setTag, if_neg hkk]

theorem receive_spec {C : Call V} {G : Nat → Local V} (D : Distributed C.n G)
    (hsz : Sized C.n C.tags G) (hop : ∀ t, t ∈ C.tags → OpSafe C.op t.2) (htn : (C.tags.map (·.1)).Nodup)
    {q p : Nat} (hq : q < C.n) (hp : p < C.n) (hne : q ≠ p) {d : Nat → El → Option (List V)}
    (hd : ∀ t, t ∈ C.tags → DataOk t.2 (G p).elems (d t.1)) :
    ∃ d', receive C p { G p with data := d } q (message C q (G q) p) = some { G p with data := d' } ∧
      Effect C G p q d d' := by
  obtain ⟨d', h1, h2, h3⟩ := unpackTags_spec D hsz hop hq hp hne C.tags (fun _ h => h) htn d hd
  refine ⟨d', ?_, h2, h3⟩
  unfold receive
  rw [if_pos (fits_message D hsz hq hp hne (L := { G p with data := d }) ⟨rfl, rfl, rfl, rfl, rfl, rfl⟩)]
  have hto : toList C p { G p with data := d } q = toList C p (G p) q := rfl
  simp only [hto, message]
  rw [h1]

theorem effect_ok {C : Call V} {G : Nat → Local V} (D : Distributed C.n G)
    (hsz : Sized C.n C.tags G) (hop : ∀ t, t ∈ C.tags → OpSafe C.op t.2)
    {q p : Nat} (hq : q < C.n) (hp : p < C.n) (hne : q ≠ p) {d d' : Nat → El → Option (List V)}
    (hd : ∀ t, t ∈ C.tags → DataOk t.2 (G p).elems (d t.1)) (he : Effect C G p q d d') :
    ∀ t, t ∈ C.tags → DataOk t.2 (G p).elems (d' t.1) := by
  intro t ht e hm hdef
  have := he.1 t ht e
  cases hs : sent C G p t e q with
  | none =>
    rw [hs] at this
    simp only at this
    rw [this]
    exact hd t ht e hm hdef
  | some x =>
    rw [hs] at this
    simp only at this
    obtain ⟨_, _, hx, hl⟩ := sent_ok D hsz hq hp hne ht hs
    obtain ⟨r, hr, hr'⟩ := hop t ht e _ x hdef (hd t ht e hm hdef) hx hl
    rw [this] at hr
    cases hr
    exact hr'

/-! ## The invariant -/

/-- The senders whose messages processor `p` has unpacked, in order. -/
def received (tr : List Event) (p : Nat) : List Nat :=
  tr.filterMap fun ev => match ev with
    | .deliver p' q => if p' = p then some q else none
    | .start _ => none

theorem received_snoc_start (tr : List Event) (p p' : Nat) :
    received (tr ++ [.start p']) p = received tr p := by
  simp [received]

theorem received_snoc_deliver (tr : List Event) (p p' q : Nat) :
    received (tr ++ [.deliver p' q]) p = received tr p ++ (if p' = p then [q] else []) := by
  simp only [received, List.filterMap_append, List.filterMap_cons, List.filterMap_nil]
  split <;> simp_all

/-- Effect of messages in a given order. -/
inductive Effects (C : Call V) (G : Nat → Local V) (p : Nat) :
    List Nat → (Nat → El → Option (List V)) → Prop where
  | nil : Effects C G p [] (G p).data
  | snoc {qs q d d'} : Effects C G p qs d → Effect C G p q d d' → Effects C G p (qs ++ [q]) d'

structure RunInv (C : Call V) (G : Nat → Local V) (tr : List Event) (S : Sys V) : Prop where
  loc : ∀ p, p < C.n → ∃ d, S.loc p = { G p with data := d } ∧ Effects C G p (received tr p) d ∧
    ∀ t, t ∈ C.tags → DataOk t.2 (G p).elems (d t.1)
  other : ∀ p, ¬ p < C.n → S.loc p = G p ∧ S.begun p = false
  idle : ∀ p, S.begun p = false → received tr p = [] ∧ S.loc p = G p ∧ ∀ q, S.net p q = none
  wait : ∀ p, S.begun p = true → (received tr p ++ S.wait p).Perm (recvFrom C p (G p))
  net : ∀ q p, p < C.n → S.begun q = true →
    S.net q p = if q ∈ recvFrom C p (G p) ∧ q ∉ received tr p then some (message C q (G q) p) else none
  sender : ∀ p q, q ∈ received tr p → S.begun q = true
  starts : ∀ p, Event.start p ∈ tr ↔ S.begun p = true
  nodup : tr.Nodup

theorem mem_received {tr : List Event} {p q : Nat} : q ∈ received tr p ↔ Event.deliver p q ∈ tr := by
  simp only [received, List.mem_filterMap]
  constructor
  · rintro ⟨ev, h, he⟩
    cases ev with
    | start _ => cases he
    | deliver p' q' =>
      simp only at he
      split at he
      · rename_i h'; subst h'; cases he; exact h
      · cases he
  · intro h
    exact ⟨_, h, by simp⟩

theorem mem_recvFrom {C : Call V} {p q : Nat} {L : Local V} (h : q ∈ recvFrom C p L) :
    q < C.n ∧ q ≠ p := by
  unfold recvFrom at h
  simp only [List.mem_filter, List.mem_range, Bool.and_eq_true, bne_iff_ne] at h
  exact ⟨h.1, h.2.1⟩

theorem recvFrom_nodup {C : Call V} {p : Nat} {L : Local V} : (recvFrom C p L).Nodup :=
  List.nodup_range.sublist List.filter_sublist

theorem init_inv {C : Call V} {G : Nat → Local V} (hsz : Sized C.n C.tags G) :
    RunInv C G [] (initSys G) where
  loc p hp := ⟨(G p).data, rfl, .nil, fun t ht e he hd => hsz t ht p hp e he hd⟩
  other p hp := ⟨rfl, rfl⟩
  idle p _ := ⟨rfl, rfl, fun _ => rfl⟩
  wait p h := by cases h
  net q p _ h := by cases h
  starts p := by simp [initSys]
  sender p q h := by simp [received] at h
  nodup := .nil

/-- Hypotheses on a call. -/
structure CallOk (C : Call V) (G : Nat → Local V) : Prop where
  mesh : Distributed C.n G
  sized : Sized C.n C.tags G
  tags : (C.tags.map (·.1)).Nodup
  op : ∀ t, t ∈ C.tags → OpSafe C.op t.2

theorem step_inv {C : Call V} {G : Nat → Local V} (H : CallOk C G) {tr : List Event} {S : Sys V}
    (I : RunInv C G tr S) (ev : Event) :
    step C S ev ≠ .failed ∧ ∀ S', step C S ev = .ok S' → RunInv C G (tr ++ [ev]) S' := by
  cases ev with
  | start p =>
    simp only [step]
    by_cases hc : p < C.n ∧ S.begun p = false
    · rw [if_pos hc]
      refine ⟨by simp, fun S' h => ?_⟩
      injection h with h
      subst h
      have hidle := I.idle p hc.2
      have hnot : ∀ q, p ∉ received tr q := by
        intro q hr
        have := I.sender q p hr
        rw [hc.2] at this
        cases this
      have hnet : ∀ q, q < C.n →
          (if q ∈ sendTo C p (S.loc p) then some (message C p (S.loc p) q) else none) =
          if p ∈ recvFrom C q (G q) ∧ p ∉ received tr q then some (message C p (G p) q) else none := by
        intro q hq
        rw [hidle.2.1]
        simp only [mem_sendTo H.mesh hc.1 hq, hnot q, not_false_eq_true, and_true]
      constructor
      · intro x hx
        rw [received_snoc_start]
        exact I.loc x hx
      · intro x hx
        have hne : x ≠ p := fun e => hx (e ▸ hc.1)
        simp only [if_neg hne]
        exact I.other x hx
      · intro x hx
        simp only at hx
        by_cases hxp : x = p
        · rw [if_pos hxp] at hx; cases hx
        · rw [if_neg hxp] at hx
          rw [received_snoc_start]
          simp only [if_neg hxp]
          exact I.idle x hx
      · intro x hx
        rw [received_snoc_start]
        by_cases hxp : x = p
        · subst hxp
          simp only [if_true]
          rw [hidle.1, hidle.2.1]
          exact .refl _
        · simp only [if_neg hxp] at hx ⊢
          exact I.wait x hx
      · intro x y hy hx
        rw [received_snoc_start]
        by_cases hxp : x = p
        · subst hxp
          simp only [if_true]
          exact hnet y hy
        · simp only [if_neg hxp] at hx ⊢
          exact I.net x y hy hx
      · intro x y hy
        rw [received_snoc_start] at hy
        have := I.sender x y hy
        simp only [this]
        split <;> rfl
      · intro x
        simp only [List.mem_append, List.mem_singleton, Event.start.injEq, I.starts x]
        by_cases hxp : x = p
        · simp [hxp]
        · simp [hxp]
      · refine List.nodup_append.2 ⟨I.nodup, by simp, ?_⟩
        intro a ha b hb hab
        rw [List.mem_singleton] at hb
        subst hab; subst hb
        have := (I.starts p).1 ha
        rw [hc.2] at this
        cases this
    · rw [if_neg hc]
      exact ⟨by simp, fun S' h => by cases h⟩
  | deliver p q =>
    simp only [step]
    by_cases hc : S.begun p = true ∧ q ∈ S.wait p
    · rw [if_pos hc]
      have hp : p < C.n := by
        by_cases hp : p < C.n
        · exact hp
        · rw [(I.other p hp).2] at hc; cases hc.1
      have hperm := I.wait p hc.1
      have hqr : q ∈ recvFrom C p (G p) := hperm.mem_iff.1 (List.mem_append_right _ hc.2)
      have hnr : q ∉ received tr p := by
        have hn := hperm.nodup_iff.2 recvFrom_nodup
        rw [List.nodup_append] at hn
        exact fun h => hn.2.2 q h q hc.2 rfl
      obtain ⟨hq, hne⟩ := mem_recvFrom hqr
      cases hbq : S.begun q with
      | false =>
        rw [(I.idle q hbq).2.2 p]
        exact ⟨by simp, fun S' h => by cases h⟩
      | true =>
        rw [I.net q p hp hbq, if_pos ⟨hqr, hnr⟩]
        simp only
        obtain ⟨d, hd1, hd2, hd3⟩ := I.loc p hp
        obtain ⟨d', hr, he⟩ := receive_spec H.mesh H.sized H.op H.tags hq hp hne hd3
        rw [hd1, hr]
        simp only
        refine ⟨by simp, fun S' h => ?_⟩
        injection h with h
        subst h
        constructor
        · intro x hx
          rw [received_snoc_deliver]
          by_cases hxp : x = p
          · subst hxp
            simp only [if_true]
            exact ⟨d', rfl, hd2.snoc he, effect_ok H.mesh H.sized H.op hq hp hne hd3 he⟩
          · simp only [if_neg hxp, if_neg (fun e => hxp e.symm : ¬ p = x), List.append_nil]
            exact I.loc x hx
        · intro x hx
          have hxp : x ≠ p := fun e => hx (e ▸ hp)
          simp only [if_neg hxp]
          exact I.other x hx
        · intro x hx
          simp only at hx
          have hxp : x ≠ p := by rintro rfl; rw [hc.1] at hx; cases hx
          have := I.idle x hx
          rw [received_snoc_deliver]
          simp only [if_neg hxp, if_neg (fun e => hxp e.symm : ¬ p = x), List.append_nil]
          refine ⟨this.1, this.2.1, fun y => ?_⟩
          split
          · rfl
          · exact this.2.2 y
        · intro x hx
          rw [received_snoc_deliver]
          by_cases hxp : x = p
          · subst hxp
            simp only [if_true]
            refine List.Perm.trans ?_ hperm
            rw [List.append_assoc]
            exact List.Perm.append_left _ (List.perm_cons_erase hc.2).symm
          · simp only [if_neg hxp, if_neg (fun e => hxp e.symm : ¬ p = x), List.append_nil]
            exact I.wait x hx
        · intro x y hy hx
          rw [received_snoc_deliver]
          simp only at hx ⊢
          rw [I.net x y hy hx]
          by_cases hyp : p = y
          · subst hyp
            by_cases hxq : x = q
            · subst hxq
              simp
            · simp [hxq]
          · have : ¬ (x = q ∧ y = p) := fun h => hyp h.2.symm
            simp [this, hyp]
        · intro x y hy
          rw [received_snoc_deliver] at hy
          rw [List.mem_append] at hy
          rcases hy with hy | hy
          · exact I.sender x y hy
          · split at hy
            · rw [List.mem_singleton] at hy
              subst hy
              exact hbq
            · cases hy
        · intro x
          simp only [List.mem_append, List.mem_singleton, I.starts x]
          simp
        · refine List.nodup_append.2 ⟨I.nodup, by simp, ?_⟩
          intro a ha b hb hab
          rw [List.mem_singleton] at hb
          subst hab; subst hb
          exact hnr (mem_received.2 ha)
    · rw [if_neg hc]
      exact ⟨by simp, fun S' h => by cases h⟩

theorem run_inv {C : Call V} {G : Nat → Local V} (H : CallOk C G) {tr : List Event} {S : Sys V}
    (h : Run C G tr S) : RunInv C G tr S := by
  induction h with
  | nil => exact init_inv H.sized
  | snoc _ hs ih => exact (step_inv H ih _).2 _ hs

/-- As long as a processor has not left the call, something can happen. -/
theorem progress {C : Call V} {G : Nat → Local V} (H : CallOk C G) {tr : List Event} {S : Sys V}
    (I : RunInv C G tr S) (hd : ¬ Done C S) : ∃ ev S', step C S ev = .ok S' := by
  by_cases hs : ∃ p, p < C.n ∧ S.begun p = false
  · obtain ⟨p, hp⟩ := hs
    exact ⟨.start p, by simp only [step, if_pos hp]; exact ⟨_, rfl⟩⟩
  · have hall : ∀ p, p < C.n → S.begun p = true := by
      intro p hp
      cases hb : S.begun p with
      | true => rfl
      | false => exact absurd ⟨p, hp, hb⟩ hs
    obtain ⟨p, hp, q, hq⟩ : ∃ p, p < C.n ∧ ∃ q, q ∈ S.wait p := by
      apply Classical.byContradiction
      intro hn
      refine hd fun p hp => ⟨hall p hp, ?_⟩
      apply List.eq_nil_iff_forall_not_mem.2
      intro q hq
      exact hn ⟨p, hp, q, hq⟩
    refine ⟨.deliver p q, ?_⟩
    have hperm := I.wait p (hall p hp)
    have hqr : q ∈ recvFrom C p (G p) := hperm.mem_iff.1 (List.mem_append_right _ hq)
    have hnr : q ∉ received tr p := by
      have hn := hperm.nodup_iff.2 recvFrom_nodup
      rw [List.nodup_append] at hn
      exact fun h => hn.2.2 q h q hq rfl
    have hnf := (step_inv H I (.deliver p q)).1
    cases hr : step C S (.deliver p q) with
    | ok S' => exact ⟨S', rfl⟩
    | failed => exact absurd hr hnf
    | blocked =>
      simp only [step, if_pos (⟨hall p hp, hq⟩ : S.begun p = true ∧ q ∈ S.wait p)] at hr
      rw [I.net q p hp (hall q (mem_recvFrom hqr).1), if_pos ⟨hqr, hnr⟩] at hr
      simp only at hr
      split at hr <;> cases hr

theorem nodup_length_le {α : Type} [DecidableEq α] : ∀ {l m : List α}, l.Nodup → (∀ x, x ∈ l → x ∈ m) →
    l.length ≤ m.length
  | [], _, _, _ => Nat.zero_le _
  | a :: l, m, hn, h => by
    rw [List.nodup_cons] at hn
    have ha := h a List.mem_cons_self
    have := nodup_length_le (l := l) (m := m.erase a) hn.2 fun x hx =>
      (List.mem_erase_of_ne (fun e : x = a => hn.1 (by rw [← e]; exact hx))).2 (h x (List.mem_cons_of_mem _ hx))
    rw [List.length_erase_of_mem ha] at this
    have : 0 < m.length := List.length_pos_of_mem ha
    simp only [List.length_cons]
    omega

/-- Executions are finite. -/
theorem run_length {C : Call V} {G : Nat → Local V} {tr : List Event} {S : Sys V}
    (I : RunInv C G tr S) : tr.length ≤ C.n + C.n * C.n := by
  have h : ∀ ev, ev ∈ tr → ev ∈ (List.range C.n).map Event.start ++
      (List.range C.n).flatMap fun p => (List.range C.n).map fun q => Event.deliver p q := by
    intro ev hev
    have hb : ∀ p, S.begun p = true → p < C.n := by
      intro p hp
      by_cases h : p < C.n
      · exact h
      · rw [(I.other p h).2] at hp; cases hp
    cases ev with
    | start p =>
      refine List.mem_append_left _ (List.mem_map.2 ⟨p, List.mem_range.2 (hb p ?_), rfl⟩)
      exact (I.starts p).1 hev
    | deliver p q =>
      refine List.mem_append_right _ (List.mem_flatMap.2 ⟨p, ?_, List.mem_map.2 ⟨q, ?_, rfl⟩⟩)
      · have hq := mem_received.2 hev
        rw [List.mem_range]
        apply hb
        cases hbp : S.begun p with
        | true => rfl
        | false => rw [(I.idle p hbp).1] at hq; cases hq
      · exact List.mem_range.2 (hb q (I.sender p q (mem_received.2 hev)))
  have hl := nodup_length_le I.nodup h
  have hsq : ∀ m k, ((List.range m).flatMap fun p => (List.range k).map fun q => Event.deliver p q).length = m * k := by
    intro m k
    induction m with
    | zero => simp
    | succ m ih => rw [List.range_succ, List.flatMap_append, List.length_append, ih]; simp [Nat.succ_mul]
  rw [List.length_append, List.length_map, List.length_range, hsq] at hl
  exact hl

/-- Every execution can be continued to the end. -/
theorem complete {C : Call V} {G : Nat → Local V} (H : CallOk C G) {tr : List Event} {S : Sys V}
    (h : Run C G tr S) : ∃ tr' S', Run C G (tr ++ tr') S' ∧ Done C S' := by
  by_cases hd : Done C S
  · exact ⟨[], S, by rw [List.append_nil]; exact h, hd⟩
  · obtain ⟨ev, S1, h1⟩ := progress H (run_inv H h) hd
    have h2 := h.snoc h1
    have hb := run_length (run_inv H h2)
    obtain ⟨tr', S', h3, h4⟩ := complete H h2
    exact ⟨ev :: tr', S', by rw [List.append_cons]; exact h3, h4⟩
termination_by C.n + C.n * C.n - tr.length
decreasing_by
  simp only [List.length_append, List.length_singleton] at hb ⊢
  omega

end Verif.Parallel
