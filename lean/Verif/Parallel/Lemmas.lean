import Verif.Parallel.Spec

/-!
# Sorting, packing and unpacking
-/

namespace Verif.Parallel

variable {V : Type}

theorem insertBy_perm (key : El → Int) (e : El) (l : List El) : (insertBy key e l).Perm (e :: l) := by
  induction l with
  | nil => exact .refl _
  | cons x l ih =>
    simp only [insertBy]
    split
    · exact .refl _
    · exact (ih.cons x).trans (.swap _ _ _)

theorem sortBy_perm (key : El → Int) (l : List El) : (sortBy key l).Perm l := by
  induction l with
  | nil => exact .refl _
  | cons e l ih => exact (insertBy_perm key e _).trans (ih.cons e)

theorem insertBy_sorted (key : El → Int) (e : El) (l : List El)
    (h : l.Pairwise fun a b => key a ≤ key b) :
    (insertBy key e l).Pairwise fun a b => key a ≤ key b := by
  induction l with
  | nil => simp [insertBy]
  | cons x l ih =>
    rw [List.pairwise_cons] at h
    simp only [insertBy]
    split
    · rename_i hle
      refine List.pairwise_cons.2 ⟨?_, List.pairwise_cons.2 h⟩
      intro y hy
      rcases List.mem_cons.1 hy with rfl | hy
      · exact hle
      · exact Int.le_trans hle (h.1 y hy)
    · rename_i hle
      refine List.pairwise_cons.2 ⟨?_, ih h.2⟩
      intro y hy
      rcases List.mem_cons.1 ((insertBy_perm key e l).mem_iff.1 hy) with rfl | hy
      · omega
      · exact h.1 y hy

theorem sortBy_sorted (key : El → Int) (l : List El) :
    (sortBy key l).Pairwise fun a b => key a ≤ key b := by
  induction l with
  | nil => exact .nil
  | cons e l ih => exact insertBy_sorted key e _ ih

/-- Two strictly increasing lists of numbers with the same elements are equal. -/
theorem sorted_unique : ∀ {l m : List Int}, l.Pairwise (· < ·) → m.Pairwise (· < ·) →
    (∀ x, x ∈ l ↔ x ∈ m) → l = m
  | [], [], _, _, _ => rfl
  | [], y :: m, _, _, h => absurd ((h y).2 List.mem_cons_self) (by simp)
  | x :: l, [], _, _, h => absurd ((h x).1 List.mem_cons_self) (by simp)
  | x :: l, y :: m, hl, hm, h => by
    rw [List.pairwise_cons] at hl hm
    have hxy : x = y := by
      rcases List.mem_cons.1 ((h x).1 List.mem_cons_self) with e | hx
      · exact e
      · rcases List.mem_cons.1 ((h y).2 List.mem_cons_self) with e | hy
        · exact e.symm
        · have := hl.1 y hy
          have := hm.1 x hx
          omega
    subst hxy
    have : l = m := by
      refine sorted_unique hl.2 hm.2 fun z => ⟨fun hz => ?_, fun hz => ?_⟩
      · rcases List.mem_cons.1 ((h z).1 (List.mem_cons_of_mem _ hz)) with e | hz'
        · have := hl.1 z hz; omega
        · exact hz'
      · rcases List.mem_cons.1 ((h z).2 (List.mem_cons_of_mem _ hz)) with e | hz'
        · have := hm.1 z hz; omega
        · exact hz'
    rw [this]

theorem sortBy_strict {key : El → Int} {l : List El} (hn : l.Nodup)
    (hk : ∀ a b, a ∈ l → b ∈ l → key a = key b → a = b) :
    ((sortBy key l).map key).Pairwise (· < ·) := by
  rw [List.pairwise_map]
  have hs := sortBy_sorted key l
  have hn' : (sortBy key l).Nodup := (sortBy_perm key l).nodup_iff.2 hn
  have hm : ∀ a, a ∈ sortBy key l → a ∈ l := fun a h => (sortBy_perm key l).mem_iff.1 h
  refine List.Pairwise.imp_of_mem ?_ (hs.and hn')
  intro a b ha hb ⟨h1, h2⟩
  have : key a ≠ key b := fun e => h2 (hk a b (hm a ha) (hm b hb) e)
  omega

/-! ## The lists of ghost and shared elements -/

theorem mem_ghostList {mask : Nat → Bool} {L : Local V} {q i : Nat} {e : El} :
    e ∈ ghostList mask L q i ↔
      e ∈ L.elems ∧ mask i = true ∧ e.ty = i ∧ L.status e = .ghost ∧ L.owner e = q := by
  rw [ghostList, (sortBy_perm _ _).mem_iff, List.mem_filter]
  simp only [Bool.and_eq_true, beq_iff_eq]
  constructor
  · rintro ⟨h, ⟨⟨h1, rfl⟩, h3⟩, h4⟩; exact ⟨h, h1, rfl, h3, h4⟩
  · rintro ⟨h, h1, rfl, h3, h4⟩; exact ⟨h, ⟨⟨h1, rfl⟩, h3⟩, h4⟩

theorem mem_sharedList {mask : Nat → Bool} {me : Nat} {L : Local V} {q i : Nat} {e : El} :
    e ∈ sharedList mask me L q i ↔
      e ∈ L.elems ∧ mask i = true ∧ e.ty = i ∧ L.status e = .shared ∧ q ∈ L.procs e ∧ q ≠ me := by
  rw [sharedList, (sortBy_perm _ _).mem_iff, List.mem_flatMap]
  constructor
  · rintro ⟨a, ha, h⟩
    split at h
    · rename_i hc
      simp only [Bool.and_eq_true, beq_iff_eq] at hc
      simp only [List.mem_map, List.mem_filter, Bool.and_eq_true, beq_iff_eq, bne_iff_ne] at h
      obtain ⟨v, ⟨hv, rfl, h2⟩, rfl⟩ := h
      obtain ⟨⟨h1, rfl⟩, h3⟩ := hc
      exact ⟨ha, h1, rfl, h3, hv, h2⟩
    · cases h
  · rintro ⟨h, h1, rfl, h3, h4, h5⟩
    refine ⟨e, h, ?_⟩
    rw [if_pos (by simp [h1, h3])]
    simp only [List.mem_map, List.mem_filter, Bool.and_eq_true, beq_iff_eq, bne_iff_ne]
    exact ⟨q, ⟨h4, rfl, h5⟩, trivial⟩

theorem ghostList_nodup {mask : Nat → Bool} {L : Local V} {q i : Nat} (h : L.elems.Nodup) :
    (ghostList mask L q i).Nodup :=
  (sortBy_perm _ _).nodup_iff.2 (h.sublist List.filter_sublist)

theorem nodup_filter_const {l : List Nat} (h : l.Nodup) (q me : Nat) (e : El) :
    ((l.filter fun v => v == q && v != me).map fun _ => e).Nodup := by
  have hs : (l.filter fun v => v == q && v != me).length ≤ 1 := by
    have hn : (l.filter fun v => v == q && v != me).Nodup := h.sublist List.filter_sublist
    have ha : ∀ v, v ∈ (l.filter fun v => v == q && v != me) → v = q := by
      intro v hv
      simp only [List.mem_filter, Bool.and_eq_true, beq_iff_eq] at hv
      exact hv.2.1
    match (l.filter fun v => v == q && v != me), hn, ha with
    | [], _, _ => simp
    | [_], _, _ => simp
    | a :: b :: _, hn, ha =>
      have e1 := ha a (by simp)
      have e2 := ha b (by simp)
      rw [e1, e2] at hn
      simp at hn
  generalize (l.filter fun v => v == q && v != me) = m at hs
  match m, hs with
  | [], _ => simp
  | [_], _ => simp

theorem sharedList_nodup {mask : Nat → Bool} {me : Nat} {L : Local V} {q i : Nat}
    (h : L.elems.Nodup) (hp : ∀ e, e ∈ L.elems → L.status e = .shared → (L.procs e).Nodup) :
    (sharedList mask me L q i).Nodup := by
  refine (sortBy_perm _ _).nodup_iff.2 ?_
  rw [List.nodup_iff_pairwise_ne, List.pairwise_flatMap]
  constructor
  · intro e he
    split
    · next hc =>
      simp only [Bool.and_eq_true, beq_iff_eq] at hc
      exact nodup_filter_const (hp e he hc.2) q me e
    · exact .nil
  · refine List.Pairwise.imp ?_ h
    intro a b hab x hx y hy
    have key : ∀ (c z : El), z ∈ (if mask c.ty && c.ty == i && L.status c == .shared then
      ((L.procs c).filter fun v => v == q && v != me).map fun _ => c else []) → z = c := by
      intro c z hz
      split at hz
      · simp only [List.mem_map] at hz
        obtain ⟨_, _, rfl⟩ := hz
        rfl
      · cases hz
    rw [key a x hx, key b y hy]
    exact hab

/-! ## Packing and unpacking of lists that correspond to each other -/

/-- The value sent for `f`, if there is something to send. -/
def contrib (sel : El → Bool) (d : El → Option (List V)) (f : El) : Option (List V) :=
  if sel f then
    match d f with
    | some (x :: l) => some (x :: l)
    | _ => none
  else none

theorem contrib_ne {sel : El → Bool} {d : El → Option (List V)} {f : El} {x : List V}
    (h : contrib sel d f = some x) : x ≠ [] ∧ d f = some x ∧ sel f = true := by
  unfold contrib at h
  split at h
  · rename_i hs
    split at h
    · rename_i a l hd
      cases h
      exact ⟨by simp, hd, hs⟩
    · cases h
  · cases h

/-- Effect on the receiver of pairs (sender's copy, receiver's copy). -/
def applyAll (op : Op V) (T : TagInfo) (c : El → Option (List V)) :
    List (El × El) → (El → Option (List V)) → Option (El → Option (List V))
  | [], d => some d
  | (f, t) :: zs, d =>
    match c f with
    | none => applyAll op T c zs d
    | some x =>
      match op T t (d t) x with
      | none => none
      | some r => applyAll op T c zs (setAt d t r)

theorem applyAll_append (op : Op V) (T : TagInfo) (c : El → Option (List V)) (zs ws : List (El × El)) :
    ∀ d, applyAll op T c (zs ++ ws) d =
      match applyAll op T c zs d with
      | none => none
      | some d' => applyAll op T c ws d' := by
  induction zs with
  | nil => intro d; rfl
  | cons z zs ih =>
    intro d
    obtain ⟨f, t⟩ := z
    simp only [List.cons_append, applyAll]
    cases c f with
    | none => exact ih d
    | some x =>
      simp only
      cases op T t (d t) x with
      | none => rfl
      | some r => exact ih _

theorem unpackRec_append (T : TagInfo) (op : Op V) (e : El) (d : El → Option (List V)) (x v : List V) :
    unpackRec T op e x.length d (x ++ v) =
      match x with
      | [] => some (d, v)
      | _ :: _ =>
        match op T e (d e) x with
        | none => none
        | some r => some (setAt d e r, v) := by
  cases x with
  | nil => simp [unpackRec]
  | cons a l =>
    unfold unpackRec
    rw [if_neg (by simp), if_neg (by simp), List.take_left' rfl, List.drop_left' rfl]
    cases op T e (d e) (a :: l) <;> rfl

theorem unpackDense_pack {T : TagInfo} {selF selT : El → Bool} {op : Op V}
    {dF : El → Option (List V)} : ∀ (zs : List (El × El)) (d : El → Option (List V)) (s : List Nat)
    (v : List V), (∀ z, z ∈ zs → selF z.1 = selT z.2) →
    (∀ z n, z ∈ zs → selF z.1 = true → T.size = some n → ((dF z.1).getD []).length = n) →
    unpackDense T selT op (zs.map (·.2)) d ((packDense T selF dF (zs.map (·.1))).1 ++ s)
        ((packDense T selF dF (zs.map (·.1))).2 ++ v) =
      match applyAll op T (contrib selF dF) zs d with
      | none => none
      | some d' => some (d', s, v)
  | [], d, s, v, _, _ => rfl
  | (f, t) :: zs, d, s, v, hs, hz => by
    have hs0 := hs (f, t) List.mem_cons_self
    simp only at hs0
    have ih := fun d => unpackDense_pack (op := op) zs d s v (fun z h => hs z (List.mem_cons_of_mem _ h))
      (fun z n h => hz z n (List.mem_cons_of_mem _ h))
    simp only [List.map_cons, unpackDense, packDense]
    cases hf : selF f with
    | false =>
      rw [hf] at hs0
      rw [← hs0]
      simp only [Bool.false_eq_true, if_false, applyAll, contrib, hf]
      exact ih d
    | true =>
      rw [hf] at hs0
      rw [← hs0]
      simp only [if_true]
      generalize hx : (dF f).getD [] = x
      have hrec : recSize T (addSize T x.length (packDense T selF dF (zs.map (·.1))).1 ++ s) =
          some (x.length, (packDense T selF dF (zs.map (·.1))).1 ++ s) := by
        unfold recSize addSize
        cases hT : T.size with
        | none => simp
        | some n =>
          have := hz (f, t) n List.mem_cons_self hf hT
          simp only [hx] at this
          simp [this]
      rw [hrec]
      simp only
      rw [List.append_assoc, unpackRec_append]
      cases x with
      | nil =>
        have hc : contrib selF dF f = none := by
          unfold contrib
          rw [if_pos hf]
          cases hd : dF f with
          | none => rfl
          | some y => rw [hd] at hx; simp at hx; subst hx; rfl
        simp only [applyAll, hc]
        exact ih d
      | cons a l =>
        have hc : contrib selF dF f = some (a :: l) := by
          unfold contrib
          rw [if_pos hf]
          cases hd : dF f with
          | none => rw [hd] at hx; simp at hx
          | some y => rw [hd] at hx; simp at hx; subst hx; rfl
        simp only [applyAll, hc]
        cases op T t (d t) (a :: l) with
        | none => rfl
        | some r => exact ih _

theorem unpackSparse_pack {T : TagInfo} {selF selT : El → Bool} {op : Op V}
    {dF : El → Option (List V)} (all : List El) : ∀ (zs : List (El × El)) (j : Nat)
    (d : El → Option (List V)) (s : List Nat) (v : List V),
    (∀ m, m < zs.length → all[j + m]? = (zs.map (·.2))[m]?) →
    (∀ z, z ∈ zs → selF z.1 = selT z.2) →
    (∀ z x n, z ∈ zs → selF z.1 = true → dF z.1 = some x → T.size = some n → x.length = n) →
    unpackSparse T selT op all (packSparse T selF dF j (zs.map (·.1))).1 d
        ((packSparse T selF dF j (zs.map (·.1))).2.1 ++ s)
        ((packSparse T selF dF j (zs.map (·.1))).2.2 ++ v) =
      match applyAll op T (contrib selF dF) zs d with
      | none => none
      | some d' => some (d', s, v)
  | [], _, d, s, v, _, _, _ => rfl
  | (f, t) :: zs, j, d, s, v, ha, hs, hz => by
    have hs0 := hs (f, t) List.mem_cons_self
    simp only at hs0
    have ih := fun d => unpackSparse_pack (op := op) all zs (j + 1) d s v
      (fun m h => by
        have := ha (m + 1) (by simpa using h)
        simp only [List.map_cons, List.getElem?_cons_succ] at this
        rw [← this]; congr 1; omega)
      (fun z h => hs z (List.mem_cons_of_mem _ h))
      (fun z x n h => hz z x n (List.mem_cons_of_mem _ h))
    have ht : all[j]? = some t := by simpa using ha 0 (by simp)
    simp only [List.map_cons, packSparse]
    cases hf : selF f with
    | false => simpa only [applyAll, contrib, hf, Bool.false_eq_true, if_false] using ih d
    | true =>
      cases hd : dF f with
      | none => simpa only [applyAll, contrib, hf, hd, if_true] using ih d
      | some x =>
        rw [hf] at hs0
        simp only [List.cons_append, unpackSparse, ht, ← hs0, if_true]
        have hrec : recSize T (addSize T x.length (packSparse T selF dF (j + 1) (zs.map (·.1))).2.1 ++ s) =
            some (x.length, (packSparse T selF dF (j + 1) (zs.map (·.1))).2.1 ++ s) := by
          unfold recSize addSize
          cases hT : T.size with
          | none => simp
          | some n =>
            have := hz (f, t) x n List.mem_cons_self hf hd hT
            simp [this]
        rw [hrec]
        simp only
        rw [List.append_assoc, unpackRec_append]
        cases x with
        | nil =>
          simp only [applyAll, contrib, hf, hd, if_true]
          exact ih d
        | cons a l =>
          simp only [applyAll, contrib, hf, hd, if_true]
          cases op T t (d t) (a :: l) with
          | none => rfl
          | some r => exact ih _

/-- Hypotheses on lists of pairs under which a packet of one type is unpacked correctly. -/
structure PairsOk (T : TagInfo) (i : Nat) (selF selT : El → Bool) (dF : El → Option (List V))
    (zs : List (El × El)) : Prop where
  sel : ∀ z, z ∈ zs → selF z.1 = selT z.2
  size : ∀ z, z ∈ zs → SizedAt T i (dF z.1)

theorem unpackType_pack {T : TagInfo} {selF selT : El → Bool} {op : Op V} {dF : El → Option (List V)}
    {i : Nat} {zs : List (El × El)} (h : PairsOk T i selF selT dF zs) (d : El → Option (List V))
    (s : List Nat) (v : List V) :
    unpackType T selT op i (zs.map (·.2)) d ((packType T selF dF i (zs.map (·.1))).1 ++ s)
        ((packType T selF dF i (zs.map (·.1))).2 ++ v) =
      match applyAll op T (contrib selF dF) zs d with
      | none => none
      | some d' => some (d', s, v) := by
  unfold unpackType packType
  cases hsp : T.sparse i with
  | true =>
    simp only [if_true, List.cons_append]
    exact unpackSparse_pack _ zs 0 d s v (fun m hm => by rw [Nat.zero_add]) h.sel
      (fun z x n hz _ hx hn => (h.size z hz).size x n hx hn)
  | false =>
    simp only [Bool.false_eq_true, if_false]
    refine unpackDense_pack zs d s v h.sel fun z n hz _ hn => ?_
    have := h.size z hz
    cases hd : dF z.1 with
    | none => exact absurd hd (this.dense hsp)
    | some x => exact this.size x n hd hn

theorem unpackTypes_pack {T : TagInfo} {selF selT : El → Bool} {op : Op V} {dF : El → Option (List V)}
    {zs : Nat → List (El × El)} : ∀ (is : List Nat), (∀ i, i ∈ is → PairsOk T i selF selT dF (zs i)) →
    ∀ (d : El → Option (List V)),
    unpackTypes T selT op (fun i => (zs i).map (·.2)) is d
        (is.flatMap fun i => (packType T selF dF i ((zs i).map (·.1))).1)
        (is.flatMap fun i => (packType T selF dF i ((zs i).map (·.1))).2) =
      applyAll op T (contrib selF dF) (is.flatMap zs) d
  | [], _, d => rfl
  | i :: is, h, d => by
    simp only [List.flatMap_cons, unpackTypes]
    rw [unpackType_pack (h i List.mem_cons_self), applyAll_append]
    cases applyAll op T (contrib selF dF) (zs i) d with
    | none => rfl
    | some d' => exact unpackTypes_pack is (fun j hj => h j (List.mem_cons_of_mem _ hj)) d'

theorem packTypes_filter (T : TagInfo) (mask : Nat → Bool) :
    ((List.range 6).filter fun i => (packTypes T mask).contains i) = packTypes T mask := by
  unfold packTypes
  apply List.filter_congr
  intro i hi
  simp only [List.contains_eq_mem, List.mem_filter, hi, true_and]
  cases mask i && T.defd i <;> rfl

theorem unpackTag_pack {T : TagInfo} {mask : Nat → Bool} {selF selT : El → Bool} {op : Op V}
    {dF : El → Option (List V)} {zs : Nat → List (El × El)} {fl tl : Nat → List El}
    (hf : ∀ i, (zs i).map (·.1) = fl i) (ht : ∀ i, (zs i).map (·.2) = tl i)
    (h : ∀ i, i ∈ packTypes T mask → PairsOk T i selF selT dF (zs i)) (d : El → Option (List V)) :
    unpackTag T selT op tl (packTag T mask selF dF fl) d =
      applyAll op T (contrib selF dF) ((packTypes T mask).flatMap zs) d := by
  have e1 : fl = fun i => (zs i).map (·.1) := funext fun i => (hf i).symm
  have e2 : tl = fun i => (zs i).map (·.2) := funext fun i => (ht i).symm
  subst e1; subst e2
  unfold unpackTag packTag
  simp only [packTypes_filter]
  exact unpackTypes_pack _ h d

theorem applyAll_spec {op : Op V} {T : TagInfo} {c : El → Option (List V)} (hop : OpSafe op T)
    (hc : ∀ f x, c f = some x → x ≠ []) :
    ∀ (zs : List (El × El)) (d : El → Option (List V)), (zs.map (·.2)).Nodup →
    (∀ z x, z ∈ zs → c z.1 = some x → T.defd z.2.ty = true ∧ SizedAt T z.2.ty (d z.2) ∧
      ∀ n, T.size = some n → x.length = n) →
    ∃ d', applyAll op T c zs d = some d' ∧
      (∀ f t x, (f, t) ∈ zs → c f = some x → op T t (d t) x = some (d' t)) ∧
      (∀ t, (∀ f, (f, t) ∈ zs → c f = none) → d' t = d t)
  | [], d, _, _ => ⟨d, rfl, by simp, by simp⟩
  | (f, t) :: zs, d, hn, hz => by
    simp only [List.map_cons, List.nodup_cons] at hn
    cases hcf : c f with
    | none =>
      obtain ⟨d', h1, h2, h3⟩ := applyAll_spec hop hc zs d hn.2
        (fun z x h => hz z x (List.mem_cons_of_mem _ h))
      refine ⟨d', by simp only [applyAll, hcf]; exact h1, ?_, ?_⟩
      · intro f' t' x hm hx
        rcases List.mem_cons.1 hm with e | hm
        · cases e; rw [hcf] at hx; cases hx
        · exact h2 f' t' x hm hx
      · intro t' ht'
        exact h3 t' fun f' hf' => ht' f' (List.mem_cons_of_mem _ hf')
    | some x =>
      have h0 := hz (f, t) x List.mem_cons_self hcf
      obtain ⟨r, hr, hr'⟩ := hop t (d t) x h0.1 h0.2.1 (hc f x hcf) h0.2.2
      obtain ⟨d', h1, h2, h3⟩ := applyAll_spec hop hc zs (setAt d t r) hn.2
        (fun z y h hy => by
          have := hz z y (List.mem_cons_of_mem _ h) hy
          have hne : z.2 ≠ t := fun e => hn.1 (List.mem_map.2 ⟨z, h, e⟩)
          simpa only [setAt, if_neg hne] using this)
      refine ⟨d', by simp only [applyAll, hcf, hr]; exact h1, ?_, ?_⟩
      · intro f' t' y hm hy
        rcases List.mem_cons.1 hm with e | hm
        · cases e
          rw [hcf] at hy; cases hy
          rw [h3 t fun g hg => absurd (List.mem_map.2 ⟨(g, t), hg, rfl⟩) hn.1]
          simpa only [setAt, if_true] using hr
        · have hne : t' ≠ t := fun e => hn.1 (List.mem_map.2 ⟨(f', t'), hm, e⟩)
          have := h2 f' t' y hm hy
          simpa only [setAt, if_neg hne] using this
      · intro t' ht'
        rw [h3 t' fun f' hf' => ht' f' (List.mem_cons_of_mem _ hf')]
        have hne : t' ≠ t := by
          rintro rfl
          have := ht' f List.mem_cons_self
          rw [hcf] at this; cases this
        simp only [setAt, if_neg hne]

end Verif.Parallel
