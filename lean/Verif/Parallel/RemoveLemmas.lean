import Verif.Parallel.RemoveSpec

/-!
# The passes of RemoveGhost
-/

namespace Verif.Parallel

/-! ## Differences of sorted ranges -/

theorem setDiff_eq {α : Type} (key : α → Int) : ∀ (l m : List α), (l.map key).Pairwise (· < ·) →
    (m.map key).Pairwise (· ≤ ·) →
    setDiff (fun a b => decide (key a < key b)) l m = l.filter fun a => !m.any fun b => decide (key b = key a)
  | [], m, _, _ => rfl
  | a :: l, m, hl, hm => by
    rw [List.map_cons, List.pairwise_cons] at hl
    have hla : ∀ x, x ∈ l → key a < key x := fun x hx => hl.1 _ (List.mem_map_of_mem hx)
    show setDiffAt _ a (setDiff _ l) m = _
    induction m with
    | nil =>
      show a :: setDiff _ l [] = _
      rw [setDiff_eq key l [] hl.2 List.Pairwise.nil]
      simp
    | cons b m ih =>
      have hm' := hm
      rw [List.map_cons, List.pairwise_cons] at hm
      have hmb : ∀ x, x ∈ m → key b ≤ key x := fun x hx => hm.1 _ (List.mem_map_of_mem hx)
      show (if decide (key a < key b) then a :: setDiff _ l (b :: m) else if decide (key b < key a) then
        setDiffAt _ a (setDiff _ l) m else setDiff _ l m) = _
      by_cases h1 : key a < key b
      · rw [if_pos (by simpa using h1), setDiff_eq key l (b :: m) hl.2 hm', List.filter_cons, if_pos]
        simp only [Bool.not_eq_true', List.any_eq_false, List.mem_cons, decide_eq_true_eq]
        rintro x (rfl | hx)
        · omega
        · have := hmb x hx; omega
      · rw [if_neg (by simpa using h1)]
        by_cases h2 : key b < key a
        · rw [if_pos (by simpa using h2), ih hm.2]
          refine List.filter_congr fun x hx => ?_
          have : ¬ key b = key x := by
            rcases List.mem_cons.1 hx with rfl | hx
            · omega
            · have := hla x hx; omega
          rw [List.any_cons]
          simp [this]
        · rw [if_neg (by simpa using h2), setDiff_eq key l m hl.2 hm.2, List.filter_cons, if_neg]
          · refine List.filter_congr fun x hx => ?_
            have : ¬ key b = key x := by have := hla x hx; omega
            rw [List.any_cons]
            simp [this]
          · have : key b = key a := by omega
            simp [this]

theorem insertRank_perm (a : Nat) : ∀ l, (insertRank a l).Perm (a :: l)
  | [] => List.Perm.refl _
  | b :: l => by
    rw [insertRank]
    split
    · exact List.Perm.refl _
    · exact ((insertRank_perm a l).cons b).trans (List.Perm.swap a b l)

theorem sortRanks_perm : ∀ l, (sortRanks l).Perm l
  | [] => List.Perm.refl _
  | a :: l => (insertRank_perm a _).trans ((sortRanks_perm l).cons a)

theorem insertRank_sorted (a : Nat) : ∀ l : List Nat, l.Pairwise (· ≤ ·) → (insertRank a l).Pairwise (· ≤ ·)
  | [], _ => List.pairwise_singleton _ _
  | b :: l, h => by
    rw [insertRank]
    have h' := h
    rw [List.pairwise_cons] at h
    split
    · rename_i hab
      rw [List.pairwise_cons]
      refine ⟨fun x hx => ?_, h'⟩
      rcases List.mem_cons.1 hx with rfl | hx
      · exact hab
      · exact Nat.le_trans hab (h.1 x hx)
    · rename_i hab
      rw [List.pairwise_cons]
      refine ⟨fun x hx => ?_, insertRank_sorted a l h.2⟩
      rcases List.mem_cons.1 ((insertRank_perm a l).mem_iff.1 hx) with rfl | hx
      · omega
      · exact h.1 x hx

theorem sortRanks_sorted : ∀ l : List Nat, (sortRanks l).Pairwise (· ≤ ·)
  | [] => List.Pairwise.nil
  | a :: l => insertRank_sorted a _ (sortRanks_sorted l)

theorem lessProcs_eq {procs del : List Nat} (h : procs.Pairwise (· < ·)) :
    lessProcs procs del = procs.filter fun a => !del.contains a := by
  have := setDiff_eq (fun a : Nat => (a : Int)) procs (sortRanks del)
    (List.pairwise_map.2 (h.imp fun h => by omega))
    (List.pairwise_map.2 ((sortRanks_sorted del).imp fun h => by omega))
  unfold lessProcs
  rw [show (fun a b : Nat => decide (a < b)) = fun a b : Nat => decide ((a : Int) < (b : Int)) by
    funext a b; exact decide_eq_decide.2 (by omega), this]
  refine List.filter_congr fun x _ => ?_
  have : ((sortRanks del).any fun b => decide ((b : Int) = (x : Int))) = del.contains x := by
    rw [Bool.eq_iff_iff]
    simp only [List.any_eq_true, decide_eq_true_eq, List.contains_iff_mem]
    constructor
    · rintro ⟨b, hb, h⟩
      rw [show x = b by omega]
      exact (sortRanks_perm del).mem_iff.1 hb
    · exact fun hx => ⟨x, (sortRanks_perm del).mem_iff.2 hx, rfl⟩
  rw [this]

theorem key_ext {key : El → Int} : ∀ {l m : List El}, (l.map key).Pairwise (· < ·) → (m.map key).Pairwise (· < ·) →
    (∀ x, x ∈ l ↔ x ∈ m) → l = m := by
  intro l m hl hm h
  have nd : ∀ {l : List El}, (l.map key).Pairwise (· < ·) → l.Nodup := fun h => by
    rw [List.pairwise_map] at h
    exact h.imp fun {a b} hab e => by subst e; omega
  rw [List.pairwise_map] at hl hm
  exact ((List.perm_ext_iff_of_nodup (nd (List.pairwise_map.2 hl)) (nd (List.pairwise_map.2 hm))).2 h).eq_of_pairwise
    (fun a b _ _ h1 h2 => by omega) hl hm

/-- What `takeOut` leaves. -/
theorem takeOut_spec {L : Local Nat} {l del : List El} (hl : (l.map L.key).Pairwise (· < ·))
    (hk : ∀ a b, a ∈ l → b ∈ del → L.key b = L.key a → b = a) :
    ((takeOut L l del).map L.key).Pairwise (· < ·) ∧ ∀ x, x ∈ takeOut L l del ↔ x ∈ l ∧ x ∉ del := by
  have := setDiff_eq L.key l (sortBy L.key del) hl (List.pairwise_map.2 (sortBy_sorted L.key del))
  have e : takeOut L l del = l.filter fun a => !(sortBy L.key del).any fun b => decide (L.key b = L.key a) := this
  rw [e]
  constructor
  · exact List.Pairwise.sublist (List.Sublist.map _ List.filter_sublist) hl
  · intro x
    rw [List.mem_filter]
    refine and_congr_right fun hx => ?_
    simp only [Bool.not_eq_true', List.any_eq_false, decide_eq_true_eq, (sortBy_perm L.key del).mem_iff]
    constructor
    · exact fun h hd => h x hd rfl
    · intro h y hy he
      rw [hk x y hx hy he] at hy
      exact h hy

/-! ## The values of the tag -/

theorem deleteUnpack_safe : OpSafe deleteUnpack delTag := by
  intro e d x _ _ hx _
  cases x with
  | nil => exact absurd rfl hx
  | cons a l => exact ⟨_, rfl, fun _ _ _ hm => (by cases hm), fun _ => by simp⟩

theorem withDel_same {n k : Nat} {want : Nat → El → Bool} {W : Nat → Part} : SameMesh n (meshOf W) (withDel k want W) :=
  ⟨fun _ _ => rfl, fun _ _ => rfl, fun _ _ => rfl, fun _ _ => rfl, fun _ _ => rfl⟩

theorem withDel_data {k : Nat} {want : Nat → El → Bool} {W : Nat → Part} {p : Nat} {e : El} :
    (withDel k want W p).data k e = if want p e then some [p] else none := by
  simp only [withDel, setTag, if_true]

theorem del_sized {n k : Nat} {G : Nat → Local Nat} (h : ∀ p, p < n → ∀ e, e ∈ (G p).elems → e.ty < 5) :
    Sized n [(k, delTag)] G := by
  intro t ht p hp e he _
  rw [List.mem_singleton] at ht
  subst ht
  refine ⟨fun _ _ _ hm => (by cases hm), fun hs => ?_⟩
  simp [delTag, h p hp e he] at hs

/-- Appending the contributions one after the other. -/
theorem foldOp_delete (T : TagInfo) (e : El) (val : Nat → Option (List Nat))
    (hv : ∀ q, val q = none ∨ val q = some [q]) : ∀ (l : List Nat) (arr : List Nat),
    foldOp deleteUnpack T e val l (some arr) = some (some (arr ++ l.filter fun q => (val q).isSome))
  | [], arr => by simp [foldOp]
  | q :: l, arr => by
    rw [foldOp]
    rcases hv q with h | h
    · rw [h]
      simp only
      rw [foldOp_delete T e val hv l arr, List.filter_cons, if_neg (by simp [h])]
    · rw [h]
      simp only [deleteUnpack, Option.getD_some]
      rw [foldOp_delete T e val hv l, List.filter_cons, if_pos (by simp [h])]
      simp

theorem foldOp_delete_none (T : TagInfo) (e : El) (val : Nat → Option (List Nat))
    (hv : ∀ q, val q = none ∨ val q = some [q]) : ∀ (l : List Nat),
    foldOp deleteUnpack T e val l none =
      some (if (l.filter fun q => (val q).isSome) = [] then none else some (l.filter fun q => (val q).isSome))
  | [] => by simp [foldOp]
  | q :: l => by
    rcases hv q with h | h
    · have e1 : (q :: l).filter (fun q => (val q).isSome) = l.filter fun q => (val q).isSome := by
        rw [List.filter_cons, if_neg (by simp [h])]
      rw [foldOp, h, e1]
      simp only
      exact foldOp_delete_none T e val hv l
    · have e1 : (q :: l).filter (fun q => (val q).isSome) = q :: l.filter fun q => (val q).isSome := by
        rw [List.filter_cons, if_pos (by simp [h])]
      rw [foldOp, h, e1, if_neg (by simp)]
      simp only [deleteUnpack, Option.getD_none, List.nil_append]
      rw [foldOp_delete T e val hv l]
      simp

section Values

variable {n k t : Nat} {want : Nat → El → Bool} {W : Nat → Part}

/-- Some copy of `e` is to be deleted on processor `v`. -/
def WantAt (n : Nat) (want : Nat → El → Bool) (G : Nat → Local Nat) (p : Nat) (e : El) (v : Nat) : Prop :=
  v < n ∧ ∃ e', e' ∈ (G v).elems ∧ SameElem G p e v e' ∧ want v e' = true

/-- The first collective call. -/
theorem del_mid {G1 : Nat → Local Nat} (A : Agreed n (meshOf W)) (ht : t < 5)
    (hw : ∀ p, p < n → ∀ e, want p e = true → (meshOf W p).status e = .ghost)
    (h1 : Collective (reduceCall n [(k, delTag)] (fun i => i == t) deleteUnpack) (withDel k want W) G1) :
    SameMesh n (meshOf W) G1 ∧ (∀ p, p < n → (G1 p).sel = fun _ => true) ∧
    (∀ q, q < n → ∀ e', e' ∈ (meshOf W q).elems → e'.ty = t → (meshOf W q).status e' = .shared →
      ∃ l : List Nat, (G1 q).data k e' = (if l = [] then none else some l) ∧ l.Nodup ∧
        ∀ v, v ∈ l ↔ WantAt n want (meshOf W) q e' v) ∧
    (∀ q, q < n → ∀ e', (meshOf W q).status e' ≠ .shared → (G1 q).data k e' = if want q e' then some [q] else none) := by
  have s0 : SameMesh n (meshOf W) (withDel k want W) := withDel_same
  have A0 : Agreed n (withDel k want W) := s0.agreed A
  have D0 : Distributed n (withDel k want W) := A0.distributed fun _ _ _ _ _ _ _ => rfl
  have hsz : Sized n [(k, delTag)] (withDel k want W) := del_sized A0.types
  obtain ⟨x1, x2⟩ := reduce_collective D0 hsz (by simp) (fun t ht => by
    rw [show t = (k, delTag) from List.mem_singleton.1 ht]; exact deleteUnpack_safe) h1
  refine ⟨s0.trans (sameMesh_data x1), fun p hp => by rw [x1 p hp]; rfl, ?_, ?_⟩
  · intro q hq e' he hty hst
    classical
    have hown : ∀ p e, e ∈ (meshOf W p).elems → p < n → SameElem (meshOf W) q e' p e → p ≠ q →
        GhostOf (withDel k want W) p e q e' := by
      intro p e he2 hp hs hne
      refine A0.ghostOf hp hq he2 he hs.symm (Ne.symm hne) ?_
      show (meshOf W p).owner e = q
      rw [← A.same q p hq hp e' e he he2 hs]
      exact ((A.shared hq he).1 hst).1
    have hgh : ∀ p, ∃ x : Option (List Nat), (x = none ∨ x = some [p]) ∧
        (x.isSome = true ↔ ∃ e, e ∈ (meshOf W p).elems ∧ SameElem (meshOf W) q e' p e ∧ want p e = true) := by
      intro p
      by_cases h : ∃ e, e ∈ (meshOf W p).elems ∧ SameElem (meshOf W) q e' p e ∧ want p e = true
      · exact ⟨some [p], Or.inr rfl, by simp [h]⟩
      · exact ⟨none, Or.inl rfl, by simp [h]⟩
    choose val hv hvs using hgh
    obtain ⟨order, ho, hf⟩ := (x2 q hq (k, delTag) (by simp) e').1 he hst (by simp [hty]) (by simp [delTag, hty, ht])
      rfl val (fun p e hg => by
        have hp : p < n := (D0.ghosts q hq e' he hst p hg.procs hg.ne.symm).1
        simp only
        rw [withDel_data]
        have hge : e ∈ (meshOf W p).elems := hg.mem
        have hgs : SameElem (meshOf W) q e' p e := (s0.sameElem hq hp).1 hg.same.symm
        by_cases hwe : want p e = true
        · rw [if_pos hwe]
          have : (val p).isSome = true := (hvs p).2 ⟨e, hge, hgs, hwe⟩
          rcases hv p with h | h
          · rw [h] at this; cases this
          · rw [h]; rfl
        · rw [if_neg hwe]
          rcases hv p with h | h
          · rw [h]; rfl
          · exfalso
            obtain ⟨e2, he2, hs2, hw2⟩ := (hvs p).1 (by rw [h]; rfl)
            rw [A.unique p hp e e2 hge he2 (hgs.symm.trans hs2)] at hwe
            exact hwe hw2)
    simp only at hf
    have hwq : want q e' = false := by
      cases h : want q e' with
      | false => rfl
      | true => have := hw q hq e' h; rw [hst] at this; cases this
    rw [withDel_data, hwq, if_neg (by simp), foldOp_delete_none delTag e' val hv] at hf
    injection hf with hf
    refine ⟨order.filter fun q => (val q).isSome, hf.symm, ?_, fun v => ?_⟩
    · refine List.Nodup.sublist List.filter_sublist ?_
      refine ho.nodup_iff.2 (List.Nodup.sublist List.filter_sublist ?_)
      exact (A.sorted q hq e' he).imp Nat.ne_of_lt
    · rw [List.mem_filter, ho.mem_iff, List.mem_filter, hvs]
      constructor
      · rintro ⟨⟨hv1, _⟩, hv2⟩
        exact ⟨((A.procs q hq e' he v).1 hv1).1, hv2⟩
      · rintro ⟨hv1, e2, he2, hs2, hw2⟩
        refine ⟨⟨(A.procs q hq e' he v).2 ⟨hv1, e2, he2, hs2⟩, ?_⟩, e2, he2, hs2, hw2⟩
        simp only [bne_iff_ne, ne_eq]
        rintro rfl
        have := A.unique v hq e' e2 he he2 hs2
        subst this
        rw [hwq] at hw2
        cases hw2
  · intro q hq e' hst
    have := (x2 q hq (k, delTag) (by simp) e').2 (Or.inl hst)
    simp only at this
    rw [this, withDel_data]

/-- Both collective calls. -/
theorem del_data {G1 G2 : Nat → Local Nat} (A : Agreed n (meshOf W)) (ht : t < 5)
    (hw : ∀ p, p < n → ∀ e, want p e = true → (meshOf W p).status e = .ghost)
    (h1 : Collective (reduceCall n [(k, delTag)] (fun i => i == t) deleteUnpack) (withDel k want W) G1)
    (h2 : Collective (exchangeCall n [(k, delTag)] fun i => i == t) G1 G2) :
    SameMesh n (meshOf W) G2 ∧
    ∀ p, p < n → ∀ e, e ∈ (meshOf W p).elems → e.ty = t → (meshOf W p).status e ≠ .owned →
      ∃ l : List Nat, (G2 p).data k e = (if l = [] then none else some l) ∧ l.Nodup ∧
        ∀ v, v ∈ l ↔ WantAt n want (meshOf W) p e v := by
  obtain ⟨s1, hsel, hsh, hot⟩ := del_mid A ht hw h1
  have A1 : Agreed n G1 := s1.agreed A
  have D1 : Distributed n G1 := A1.distributed fun p q hp hq _ _ _ => by rw [hsel p hp, hsel q hq]
  obtain ⟨x1, x2⟩ := exchange_collective D1 (del_sized A1.types) (by simp) h2
  refine ⟨s1.trans (sameMesh_data x1), fun p hp e he hty hst => ?_⟩
  by_cases hg : (meshOf W p).status e = .ghost
  · obtain ⟨hq, e', he', hs⟩ := (A.procs p hp e he _).1 (A.owner p hp e he)
    have hne := (A.ghost hp he).1 hg
    have hgo := A.ghostOf hp hq he he' hs hne rfl
    obtain ⟨l, l1, l2, l3⟩ := hsh _ hq e' he' (by rw [← hs.1]; exact hty) hgo.shared
    have hl : ∀ v, v ∈ l ↔ WantAt n want (meshOf W) p e v := by
      intro v
      rw [l3]
      constructor
      · rintro ⟨a, b, c, d, f⟩; exact ⟨a, b, c, hs.trans d, f⟩
      · rintro ⟨a, b, c, d, f⟩; exact ⟨a, b, c, hs.symm.trans d, f⟩
    refine ⟨l, ?_, l2, hl⟩
    obtain ⟨y1, y2⟩ := x2 p hp (k, delTag) (by simp) e
    have back : ∀ q e2, GhostOf G1 p e q e2 → q = (meshOf W p).owner e ∧ e2 = e' := by
      intro q e2 hg2
      have ho : (meshOf W p).owner e = q := by rw [← s1.owner p hp]; exact hg2.owner
      subst ho
      refine ⟨rfl, ?_⟩
      have hm2 : e2 ∈ (meshOf W ((meshOf W p).owner e)).elems := by rw [← s1.elems _ hq]; exact hg2.mem'
      exact (A.unique _ hq e' e2 he' hm2 (hs.symm.trans ((s1.sameElem hp hq).1 hg2.same))).symm
    cases l with
    | nil =>
      rw [if_pos rfl]
      have hwf : want p e = false := by
        cases h : want p e with
        | false => rfl
        | true => exact absurd ((hl p).2 ⟨hp, e, he, ⟨rfl, rfl⟩, h⟩) (by simp)
      rw [y2 fun q e2 hg2 _ _ _ a m hd => ?_]
      · show (G1 p).data k e = none
        rw [hot p hp e (by rw [hg]; simp), hwf]
        rfl
      · obtain ⟨rfl, rfl⟩ := back q e2 hg2
        rw [l1] at hd
        cases hd
    | cons a m =>
      rw [if_neg (by simp)] at l1 ⊢
      exact y1 _ e' a m (s1.ghostOf hp hq hgo) (by simp [hty]) (by simp [delTag, hty, ht]) (by rw [hsel p hp]) l1
  · have hs : (meshOf W p).status e = .shared := by
      have := A.status p hp e he
      rw [this] at hst hg ⊢
      split at hst
      · exact absurd rfl hst
      · rename_i h
        rw [if_neg h] at hg ⊢
        split at hg
        · rename_i h'; rw [if_pos h']
        · exact absurd rfl hg
    obtain ⟨l, l1, l2, l3⟩ := hsh p hp e he hty hs
    refine ⟨l, ?_, l2, l3⟩
    rw [← l1]
    refine (x2 p hp (k, delTag) (by simp) e).2 fun q e2 hg2 => ?_
    have := hg2.ghost
    rw [s1.status p hp] at this
    exact absurd this hg

theorem pass_exists {low : Nat → El → List El} {gone : Nat → Local Nat → El → Bool} {os : Bool}
    (A : Agreed n (meshOf W)) (ht : t < 5)
    (hw : ∀ p, p < n → ∀ e, want p e = true → (meshOf W p).status e = .ghost) :
    CallOk (reduceCall n [(k, delTag)] (fun i => i == t) deleteUnpack) (withDel k want W) ∧
    (∀ G1, Collective (reduceCall n [(k, delTag)] (fun i => i == t) deleteUnpack) (withDel k want W) G1 →
      CallOk (exchangeCall n [(k, delTag)] fun i => i == t) G1) ∧
    ∃ W', Pass n k t low want gone os W W' := by
  have A0 : Agreed n (withDel k want W) := withDel_same.agreed A
  have D0 : Distributed n (withDel k want W) := A0.distributed fun _ _ _ _ _ _ _ => rfl
  have c1 : CallOk (reduceCall n [(k, delTag)] (fun i => i == t) deleteUnpack) (withDel k want W) :=
    ⟨D0, del_sized A0.types, by simp [reduceCall], fun t ht => by
      rw [show t = (k, delTag) from List.mem_singleton.1 ht]; exact deleteUnpack_safe⟩
  have c2 : ∀ G1, Collective (reduceCall n [(k, delTag)] (fun i => i == t) deleteUnpack) (withDel k want W) G1 →
      CallOk (exchangeCall n [(k, delTag)] fun i => i == t) G1 := by
    intro G1 h1
    obtain ⟨s1, hsel, _⟩ := del_mid A ht hw h1
    have A1 : Agreed n G1 := s1.agreed A
    exact exchange_ok (A1.distributed fun p q hp hq _ _ _ => by rw [hsel p hp, hsel q hq]) (del_sized A1.types) (by simp)
  obtain ⟨G1, h1⟩ := collective_exists c1
  obtain ⟨G2, h2⟩ := collective_exists (c2 G1 h1)
  exact ⟨c1, c2, _, G1, G2, h1, h2, rfl⟩

end Values

end Verif.Parallel
