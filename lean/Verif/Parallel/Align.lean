import Verif.Parallel.Lemmas

/-!
# The lists of the sender and of the receiver correspond to each other
-/

namespace Verif.Parallel

variable {V : Type}

/-- `f` on `q` is the source and `t` on `p` the target of a transfer. -/
def Pair (C : Call V) (G : Nat → Local V) (q p : Nat) (f t : El) : Prop :=
  if C.reduce then GhostOf G q f p t else GhostOf G p t q f

theorem GhostOf.unique {n : Nat} {G : Nat → Local V} (D : Distributed n G) {p q : Nat} {e e1 e2 : El}
    (hq : q < n) (h1 : GhostOf G p e q e1) (h2 : GhostOf G p e q e2) : e1 = e2 :=
  D.unique q hq e1 e2 h1.mem' h2.mem' (h1.same.1.symm.trans h2.same.1)
    (h1.same.2.symm.trans h2.same.2)

theorem GhostOf.unique' {n : Nat} {G : Nat → Local V} (D : Distributed n G) {p q : Nat} {e e1 e2 : El}
    (hp : p < n) (h1 : GhostOf G p e1 q e) (h2 : GhostOf G p e2 q e) : e1 = e2 :=
  D.unique p hp e1 e2 h1.mem h2.mem (h1.same.1.trans h2.same.1.symm)
    (h1.same.2.trans h2.same.2.symm)

theorem mem_fromList {C : Call V} {G : Nat → Local V} (D : Distributed C.n G) {q p i : Nat}
    (hq : q < C.n) (_hp : p < C.n) (_hne : q ≠ p) {f : El} :
    f ∈ fromList C q (G q) p i ↔ C.mask i = true ∧ f.ty = i ∧ ∃ t, Pair C G q p f t := by
  unfold fromList Pair
  split
  · rw [mem_ghostList]
    constructor
    · rintro ⟨h1, h2, h3, h4, h5⟩
      refine ⟨h2, h3, ?_⟩
      have := (D.owner q hq f h1 h4).2
      rw [h5] at this
      exact this
    · rintro ⟨h2, h3, t, ht⟩
      exact ⟨ht.mem, h2, h3, ht.ghost, ht.owner⟩
  · rw [mem_sharedList]
    constructor
    · rintro ⟨h1, h2, h3, h4, h5, h6⟩
      exact ⟨h2, h3, (D.ghosts q hq f h1 h4 p h5 h6).2⟩
    · rintro ⟨h2, h3, t, ht⟩
      exact ⟨ht.mem', h2, h3, ht.shared, ht.procs, fun e => ht.ne e.symm⟩

theorem mem_toList {C : Call V} {G : Nat → Local V} (D : Distributed C.n G) {q p i : Nat}
    (_hq : q < C.n) (hp : p < C.n) (_hne : q ≠ p) {t : El} :
    t ∈ toList C p (G p) q i ↔ C.mask i = true ∧ t.ty = i ∧ ∃ f, Pair C G q p f t := by
  unfold toList Pair
  split
  · rw [mem_sharedList]
    constructor
    · rintro ⟨h1, h2, h3, h4, h5, h6⟩
      exact ⟨h2, h3, (D.ghosts p hp t h1 h4 q h5 h6).2⟩
    · rintro ⟨h2, h3, f, hf⟩
      exact ⟨hf.mem', h2, h3, hf.shared, hf.procs, fun e => hf.ne e.symm⟩
  · rw [mem_ghostList]
    constructor
    · rintro ⟨h1, h2, h3, h4, h5⟩
      refine ⟨h2, h3, ?_⟩
      have := (D.owner p hp t h1 h4).2
      rw [h5] at this
      exact this
    · rintro ⟨h2, h3, f, hf⟩
      exact ⟨hf.mem, h2, h3, hf.ghost, hf.owner⟩

theorem Pair.same {C : Call V} {G : Nat → Local V} {q p : Nat} {f t : El} (h : Pair C G q p f t) :
    f ∈ (G q).elems ∧ t ∈ (G p).elems ∧ f.ty = t.ty ∧ (G q).key f = (G p).key t ∧ q ≠ p := by
  unfold Pair at h
  split at h
  · exact ⟨h.mem, h.mem', h.same.1, h.same.2, fun e => h.ne e.symm⟩
  · exact ⟨h.mem', h.mem, h.same.1.symm, h.same.2.symm, h.ne⟩

theorem Pair.sel {C : Call V} {G : Nat → Local V} (D : Distributed C.n G) {q p : Nat}
    (hq : q < C.n) (hp : p < C.n) {f t : El} (h : Pair C G q p f t) : (G q).sel f = (G p).sel t := by
  unfold Pair at h
  split at h
  · exact D.select q p hq hp _ _ h
  · exact (D.select p q hp hq _ _ h).symm

theorem toList_nodup {C : Call V} {G : Nat → Local V} (D : Distributed C.n G) {p : Nat} (q i : Nat)
    (hp : p < C.n) : (toList C p (G p) q i).Nodup := by
  unfold toList
  split
  · exact sharedList_nodup (D.nodup p hp) (D.procs p hp)
  · exact ghostList_nodup (D.nodup p hp)

theorem sharedList_strict {C : Call V} {G : Nat → Local V} (D : Distributed C.n G) {p : Nat} (q i : Nat)
    (hp : p < C.n) : ((sharedList C.mask p (G p) q i).map (G p).key).Pairwise (· < ·) := by
  have hn : (sharedList C.mask p (G p) q i).Nodup := sharedList_nodup (D.nodup p hp) (D.procs p hp)
  refine sortBy_strict ((sortBy_perm _ _).nodup_iff.1 hn) ?_
  intro a b ha hb hk
  have ha' : a ∈ sharedList C.mask p (G p) q i := (sortBy_perm _ _).mem_iff.2 ha
  have hb' : b ∈ sharedList C.mask p (G p) q i := (sortBy_perm _ _).mem_iff.2 hb
  rw [mem_sharedList] at ha' hb'
  exact D.unique p hp a b ha'.1 hb'.1 (ha'.2.2.1.trans hb'.2.2.1.symm) hk

theorem ghostList_strict {C : Call V} {G : Nat → Local V} (D : Distributed C.n G) {p : Nat} (q i : Nat)
    (hp : p < C.n) : ((ghostList C.mask (G p) q i).map (G p).key).Pairwise (· < ·) := by
  have hn : (ghostList C.mask (G p) q i).Nodup := ghostList_nodup (D.nodup p hp)
  refine sortBy_strict ((sortBy_perm _ _).nodup_iff.1 hn) ?_
  intro a b ha hb hk
  have ha' : a ∈ ghostList C.mask (G p) q i := (sortBy_perm _ _).mem_iff.2 ha
  have hb' : b ∈ ghostList C.mask (G p) q i := (sortBy_perm _ _).mem_iff.2 hb
  rw [mem_ghostList] at ha' hb'
  exact D.unique p hp a b ha'.1 hb'.1 (ha'.2.2.1.trans hb'.2.2.1.symm) hk

/-- The sender's and the receiver's list have the same global numbers in the same order. -/
theorem align {C : Call V} {G : Nat → Local V} (D : Distributed C.n G) {q p : Nat} (i : Nat)
    (hq : q < C.n) (hp : p < C.n) (hne : q ≠ p) :
    (fromList C q (G q) p i).map (G q).key = (toList C p (G p) q i).map (G p).key := by
  apply sorted_unique
  · unfold fromList
    split
    · exact ghostList_strict D p i hq
    · exact sharedList_strict D p i hq
  · unfold toList
    split
    · exact sharedList_strict D q i hp
    · exact ghostList_strict D q i hp
  · intro x
    simp only [List.mem_map]
    constructor
    · rintro ⟨f, hf, rfl⟩
      rw [mem_fromList D hq hp hne] at hf
      obtain ⟨h1, h2, t, ht⟩ := hf
      refine ⟨t, ?_, ht.same.2.2.2.1.symm⟩
      rw [mem_toList D hq hp hne]
      exact ⟨h1, by rw [← ht.same.2.2.1]; exact h2, f, ht⟩
    · rintro ⟨t, ht, rfl⟩
      rw [mem_toList D hq hp hne] at ht
      obtain ⟨h1, h2, f, hf⟩ := ht
      refine ⟨f, ?_, hf.same.2.2.2.1⟩
      rw [mem_fromList D hq hp hne]
      exact ⟨h1, by rw [hf.same.2.2.1]; exact h2, t, hf⟩

/-- The pairs of copies between which data is transferred. -/
def pairs (C : Call V) (G : Nat → Local V) (q p i : Nat) : List (El × El) :=
  (fromList C q (G q) p i).zip (toList C p (G p) q i)

theorem pairs_fst {C : Call V} {G : Nat → Local V} (D : Distributed C.n G) {q p : Nat} (i : Nat)
    (hq : q < C.n) (hp : p < C.n) (hne : q ≠ p) :
    (pairs C G q p i).map (·.1) = fromList C q (G q) p i := by
  have := congrArg List.length (align D i hq hp hne)
  simp only [List.length_map] at this
  exact List.map_fst_zip (Nat.le_of_eq this)

theorem pairs_snd {C : Call V} {G : Nat → Local V} (D : Distributed C.n G) {q p : Nat} (i : Nat)
    (hq : q < C.n) (hp : p < C.n) (hne : q ≠ p) :
    (pairs C G q p i).map (·.2) = toList C p (G p) q i := by
  have := congrArg List.length (align D i hq hp hne)
  simp only [List.length_map] at this
  exact List.map_snd_zip (Nat.le_of_eq this.symm)

theorem zip_keys {kf kt : El → Int} : ∀ {l m : List El}, l.map kf = m.map kt →
    ∀ z, z ∈ l.zip m → kf z.1 = kt z.2
  | [], [], _, z, hz => by cases hz
  | [], _ :: _, h, _, _ => by simp at h
  | _ :: _, [], h, _, _ => by simp at h
  | a :: l, b :: m, h, z, hz => by
    simp only [List.map_cons, List.cons.injEq] at h
    simp only [List.zip_cons_cons, List.mem_cons] at hz
    rcases hz with rfl | hz
    · exact h.1
    · exact zip_keys h.2 z hz

theorem mem_pairs {C : Call V} {G : Nat → Local V} (D : Distributed C.n G) {q p i : Nat}
    (hq : q < C.n) (hp : p < C.n) (hne : q ≠ p) {f t : El} :
    (f, t) ∈ pairs C G q p i ↔ C.mask i = true ∧ t.ty = i ∧ Pair C G q p f t := by
  have key : ∀ f t, (f, t) ∈ pairs C G q p i → C.mask i = true ∧ t.ty = i ∧ Pair C G q p f t := by
    intro f t h
    have hk := zip_keys (align D i hq hp hne) _ h
    obtain ⟨hf, ht⟩ := List.of_mem_zip h
    rw [mem_fromList D hq hp hne] at hf
    rw [mem_toList D hq hp hne] at ht
    obtain ⟨h1, h2, t', ht'⟩ := hf
    obtain ⟨_, h4, _, hf'⟩ := ht
    have : t' = t := by
      refine D.unique p hp t' t ht'.same.2.1 hf'.same.2.1 ?_ ?_
      · rw [← ht'.same.2.2.1, h2, h4]
      · rw [← ht'.same.2.2.2.1]; exact hk
    subst this
    exact ⟨h1, h4, ht'⟩
  constructor
  · exact key f t
  · rintro ⟨h1, h2, h3⟩
    have hf : f ∈ fromList C q (G q) p i := (mem_fromList D hq hp hne).2
      ⟨h1, by rw [h3.same.2.2.1]; exact h2, t, h3⟩
    rw [← pairs_fst D i hq hp hne, List.mem_map] at hf
    obtain ⟨⟨f', t'⟩, hz, e⟩ := hf
    simp only at e
    subst e
    have := (key f' t' hz).2.2
    have : t' = t := by
      refine D.unique p hp t' t this.same.2.1 h3.same.2.1 ?_ ?_
      · rw [← this.same.2.2.1, h3.same.2.2.1]
      · rw [← this.same.2.2.2.1, h3.same.2.2.2.1]
    subst this
    exact hz

/-! ## Sizes of messages -/

theorem filter_pairs {selF selT : El → Bool} : ∀ {zs : List (El × El)},
    (∀ z, z ∈ zs → selF z.1 = selT z.2) →
    ((zs.map (·.1)).filter selF).length = ((zs.map (·.2)).filter selT).length
  | [], _ => rfl
  | z :: zs, h => by
    have ih := filter_pairs (zs := zs) fun z hz => h z (List.mem_cons_of_mem _ hz)
    have h0 := h z List.mem_cons_self
    simp only [List.map_cons, List.filter_cons, h0]
    split
    · simp only [List.length_cons, ih]
    · exact ih

theorem sel_count {C : Call V} {G : Nat → Local V} (D : Distributed C.n G) {q p : Nat} (i : Nat)
    (hq : q < C.n) (hp : p < C.n) (hne : q ≠ p) :
    ((fromList C q (G q) p i).filter (G q).sel).length =
      ((toList C p (G p) q i).filter (G p).sel).length := by
  rw [← pairs_fst D i hq hp hne, ← pairs_snd D i hq hp hne]
  exact filter_pairs fun z hz => ((mem_pairs D hq hp hne).1 hz).2.2.sel D hq hp

/-- A message is sent if and only if it is awaited. -/
theorem sizes_agree {C : Call V} {G : Nat → Local V} (D : Distributed C.n G) {q p : Nat}
    (hq : q < C.n) (hp : p < C.n) (hne : q ≠ p) :
    listSize C (G q) (fromList C q (G q) p) = listSize C (G p) (toList C p (G p) q) := by
  unfold listSize
  simp only [sel_count D _ hq hp hne]

theorem mem_sendTo {C : Call V} {G : Nat → Local V} (D : Distributed C.n G) {q p : Nat}
    (hq : q < C.n) (hp : p < C.n) : p ∈ sendTo C q (G q) ↔ q ∈ recvFrom C p (G p) := by
  unfold sendTo recvFrom
  simp only [List.mem_filter, List.mem_range, hq, hp, true_and, Bool.and_eq_true, bne_iff_ne]
  constructor
  · rintro ⟨h1, h2⟩
    have hne : q ≠ p := fun e => h1 e.symm
    exact ⟨hne, by rw [← sizes_agree D hq hp hne]; exact h2⟩
  · rintro ⟨h1, h2⟩
    exact ⟨fun e => h1 e.symm, by rw [sizes_agree D hq hp h1]; exact h2⟩

theorem packSparse_len {T : TagInfo} {sel : El → Bool} {d : El → Option (List V)} {n : Nat}
    (hT : T.size = some n) : ∀ (l : List El) (j : Nat),
    (∀ e, e ∈ l → ∀ x, d e = some x → x.length = n) →
    (packSparse T sel d j l).2.1.length ≤ (l.filter sel).length ∧
    (packSparse T sel d j l).2.2.length ≤ (l.filter sel).length * n
  | [], _, _ => by simp [packSparse]
  | e :: l, j, h => by
    obtain ⟨h1, h2⟩ := packSparse_len hT l (j + 1) fun e he => h e (List.mem_cons_of_mem _ he)
    simp only [packSparse, List.filter_cons]
    cases hs : sel e with
    | false => simpa using ⟨h1, h2⟩
    | true =>
      cases hd : d e with
      | none =>
        simp only [if_true, List.length_cons]
        exact ⟨by omega, by rw [Nat.add_mul]; omega⟩
      | some x =>
        have := h e List.mem_cons_self x hd
        simp only [if_true, List.length_cons, addSize, hT, List.length_append, this, Nat.add_mul]
        omega

theorem packDense_len {T : TagInfo} {sel : El → Bool} {d : El → Option (List V)} {n : Nat}
    (hT : T.size = some n) : ∀ (l : List El),
    (∀ e, e ∈ l → ∀ x, d e = some x → x.length = n) →
    (packDense T sel d l).1.length ≤ (l.filter sel).length ∧
    (packDense T sel d l).2.length ≤ (l.filter sel).length * n
  | [], _ => by simp [packDense]
  | e :: l, h => by
    obtain ⟨h1, h2⟩ := packDense_len hT l fun e he => h e (List.mem_cons_of_mem _ he)
    simp only [packDense, List.filter_cons]
    cases hs : sel e with
    | false => simpa using ⟨h1, h2⟩
    | true =>
      have : ((d e).getD []).length ≤ n := by
        cases hd : d e with
        | none => simp
        | some x => simp [h e List.mem_cons_self x hd]
      simp only [if_true, List.length_cons, addSize, hT, List.length_append, Nat.add_mul]
      omega

theorem packType_len {T : TagInfo} {sel : El → Bool} {d : El → Option (List V)} {n : Nat}
    (hT : T.size = some n) (i : Nat) (l : List El)
    (h : ∀ e, e ∈ l → ∀ x, d e = some x → x.length = n) :
    (packType T sel d i l).1.length ≤ 1 + (l.filter sel).length ∧
    (packType T sel d i l).2.length ≤ (l.filter sel).length * n := by
  unfold packType
  split
  · have := packSparse_len hT (sel := sel) l 0 h
    simp only [List.length_cons]
    omega
  · have := packDense_len hT (sel := sel) l h
    omega

theorem flatMap_len_le {α : Type} {f : Nat → List α} {g : Nat → Nat} {pr m : Nat → Bool} (hpm : ∀ i, pr i → m i) :
    ∀ (l : List Nat), (∀ i, i ∈ l → pr i = true → (f i).length ≤ g i) →
    ((l.filter pr).flatMap f).length ≤ (l.map fun i => if m i then g i else 0).sum
  | [], _ => by simp
  | i :: l, h => by
    have ih := flatMap_len_le (f := f) (g := g) hpm l fun j hj => h j (List.mem_cons_of_mem _ hj)
    simp only [List.filter_cons, List.map_cons, List.sum_cons]
    cases hp : pr i with
    | false => simp only [Bool.false_eq_true, if_false]; omega
    | true =>
      have := h i List.mem_cons_self hp
      simp only [if_true, List.flatMap_cons, List.length_append, hpm i hp]
      omega

theorem fits_message {C : Call V} {G : Nat → Local V} (D : Distributed C.n G)
    (hsz : Sized C.n C.tags G) {q p : Nat} (hq : q < C.n) (hp : p < C.n) (hne : q ≠ p)
    {L : Local V} (hL : L.elems = (G p).elems ∧ L.status = (G p).status ∧ L.owner = (G p).owner ∧
      L.procs = (G p).procs ∧ L.key = (G p).key ∧ L.sel = (G p).sel) :
    fits C p L q (message C q (G q) p) = true := by
  have hto : toList C p L q = toList C p (G p) q := by
    unfold toList sharedList ghostList
    rw [hL.1, hL.2.1, hL.2.2.1, hL.2.2.2.1, hL.2.2.2.2.1]
  unfold fits
  simp only [Bool.or_eq_true]
  by_cases hk : (C.tags.any fun t => t.2.size.isNone) = true
  · exact Or.inl hk
  · right
    have hls : listSize C L (toList C p L q) = listSize C (G q) (fromList C q (G q) p) := by
      rw [hto, sizes_agree D hq hp hne]
      unfold listSize
      rw [hL.2.2.2.2.2]
    rw [hls, List.all_eq_true]
    intro x hx
    unfold message at hx
    rw [List.zip_map_right, List.mem_map] at hx
    obtain ⟨⟨t, t'⟩, ht, rfl⟩ := hx
    have : t = t' := by
      have : ∀ (l : List (Nat × TagInfo)) (z : (Nat × TagInfo) × (Nat × TagInfo)), z ∈ l.zip l → z.1 = z.2 := by
        intro l
        induction l with
        | nil => intro z hz; cases hz
        | cons a l ih =>
          intro z hz
          simp only [List.zip_cons_cons, List.mem_cons] at hz
          rcases hz with rfl | hz
          · rfl
          · exact ih z hz
      exact this _ _ ht
    subst this
    have htm := (List.of_mem_zip ht).1
    obtain ⟨n, hn⟩ : ∃ n, t.2.size = some n := by
      cases hz : t.2.size with
      | some n => exact ⟨n, rfl⟩
      | none =>
        exact absurd (List.any_eq_true.2 ⟨t, htm, by rw [hz]; rfl⟩) hk
    simp only [Prod.map_apply, id_eq, Bool.and_eq_true, decide_eq_true_eq, hn, Option.getD_some]
    have hfl : ∀ i, i ∈ List.range 6 → (C.mask i && t.2.defd i) = true →
        (packType t.2 (G q).sel ((G q).data t.1) i (fromList C q (G q) p i)).1.length ≤
          1 + ((fromList C q (G q) p i).filter (G q).sel).length ∧
        (packType t.2 (G q).sel ((G q).data t.1) i (fromList C q (G q) p i)).2.length ≤
          ((fromList C q (G q) p i).filter (G q).sel).length * n := by
      intro i _ hi
      rw [Bool.and_eq_true] at hi
      refine packType_len hn i _ fun e he x hx => ?_
      rw [mem_fromList D hq hp hne] at he
      obtain ⟨h1, h2, t', ht'⟩ := he
      refine (hsz t htm q hq e ht'.same.1 ?_).size x n hx hn
      rw [h2]; exact hi.2
    have h5 : (fromList C q (G q) p 5) = [] := by
      apply List.eq_nil_iff_forall_not_mem.2
      intro e he
      rw [mem_fromList D hq hp hne] at he
      obtain ⟨_, h2, t', ht'⟩ := he
      have := D.types q hq e ht'.same.1
      omega
    have hpm : ∀ i, (C.mask i && t.2.defd i) = true → C.mask i = true := by
      intro i hi; rw [Bool.and_eq_true] at hi; exact hi.1
    have hr : List.range 6 = List.range 5 ++ [5] := by decide
    constructor
    · have := flatMap_len_le (g := fun i => 1 + ((fromList C q (G q) p i).filter (G q).sel).length)
        (m := C.mask) hpm (List.range 6) fun i h1 h2 => (hfl i h1 h2).1
      simp only [packTag, packTypes]
      refine Nat.le_trans this ?_
      simp only [listSize, List.range, List.range.loop, List.map_cons, List.map_nil, List.sum_cons,
        List.sum_nil, h5, List.filter_nil, List.length_nil]
      split <;> split <;> split <;> split <;> split <;> split <;> omega
    · have := flatMap_len_le (g := fun i => ((fromList C q (G q) p i).filter (G q).sel).length * n)
        (m := C.mask) hpm (List.range 6) fun i h1 h2 => (hfl i h1 h2).2
      simp only [packTag, packTypes]
      refine Nat.le_trans this ?_
      have hif : ∀ (b : Bool) (m : Nat), (if b = true then m * n else 0) = (if b = true then m else 0) * n := by
        intro b m; split <;> simp
      simp only [listSize, List.range, List.range.loop, List.map_cons, List.map_nil, List.sum_cons,
        List.sum_nil, h5, List.filter_nil, List.length_nil, Nat.zero_mul, hif, Nat.add_mul, ite_self]
      omega

end Verif.Parallel
