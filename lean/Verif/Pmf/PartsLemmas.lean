import Verif.Pmf.PartsSpec
import Verif.Pmf.Basic

namespace Verif.Pmf
open Verif.Binary

theorem chunks_eq {cmax : Nat} (hc : 0 < cmax) (b : Bytes) : ∀ (f off size : Nat), size ≤ f →
    chunks cmax b f off size = (b.drop off).take size
  | 0, off, size, h => by
    have : size = 0 := by omega
    subst this; simp [chunks]
  | f + 1, off, size, h => by
    unfold chunks
    by_cases h0 : size = 0
    · subst h0; simp
    · rw [if_neg h0, chunks_eq hc b f _ _ (by omega)]
      rw [← List.drop_drop, ← List.take_add]
      congr 1
      omega

theorem fetch_eq {cmax : Nat} (hc : 0 < cmax) (b : Bytes) (off size : Nat) : fetch cmax b off size = (b.drop off).take size :=
  chunks_eq hc b size off size (le_refl _)

variable {α : Type}

/-- The groups of the loops. -/
def accumG (c : Nat) : Nat → List α → List (List α) × List α
  | 0, s => ([], s)
  | k + 1, s => (s.take c :: (accumG c k (s.drop c)).1, (accumG c k (s.drop c)).2)

/-- The groups of parts that `recvSizes` makes. -/
def groupsOf (q : Nat) (parts : List α) : List (List α) :=
  if parts.length ≤ q then parts.map (fun p => [p]) ++ List.replicate (q - parts.length) []
  else (accumG (parts.length / q) (q - 1) parts).1 ++ [(accumG (parts.length / q) (q - 1) parts).2]

theorem accumG_all (c : Nat) : ∀ (k : Nat) (s : List α), (accumG c k s).1.flatten ++ (accumG c k s).2 = s
  | 0, s => rfl
  | k + 1, s => by
    simp only [accumG, List.flatten_cons, List.append_assoc, accumG_all c k, List.take_append_drop]

theorem accumG_length (c : Nat) : ∀ (k : Nat) (s : List α), (accumG c k s).1.length = k
  | 0, _ => rfl
  | k + 1, s => by simp only [accumG, List.length_cons, accumG_length c k]

theorem accumG_share (c : Nat) : ∀ (k : Nat) (s : List α), k * c ≤ s.length →
    (∀ g ∈ (accumG c k s).1, g.length = c) ∧ (accumG c k s).2.length = s.length - k * c
  | 0, s, _ => by simp [accumG]
  | k + 1, s, h => by
    rw [Nat.succ_mul] at h
    have ih := accumG_share c k (s.drop c) (by rw [List.length_drop]; omega)
    simp only [accumG, List.mem_cons, forall_eq_or_imp, List.length_take]
    refine ⟨⟨by omega, ih.1⟩, ?_⟩
    rw [ih.2, List.length_drop, Nat.succ_mul]; omega

theorem groups_ok {q : Nat} (hq : 0 < q) (parts : List α) : Groups q parts (groupsOf q parts) := by
  unfold groupsOf
  by_cases h : parts.length ≤ q
  · rw [if_pos h]
    refine ⟨by simp; omega, ?_, ?_, fun h' => by omega⟩
    · have e : ∀ l : List α, (l.map fun p => [p]).flatten = l := by
        intro l
        induction l with
        | nil => rfl
        | cons a l ih => simp only [List.map_cons, List.flatten_cons, ih, List.singleton_append]
      rw [List.flatten_append, e, List.flatten_replicate_nil, List.append_nil]
    · intro _ k g hg
      by_cases hk : k < parts.length
      · rw [List.getElem?_append_left (by simpa using hk)] at hg
        simp only [List.getElem?_map, List.getElem?_eq_getElem hk, Option.map_some, Option.some.injEq] at hg
        simp [← hg, List.getElem?_eq_getElem hk]
      · rw [List.getElem?_append_right (by simpa using hk)] at hg
        have := List.eq_of_mem_replicate (List.mem_of_getElem? hg)
        rw [this, List.getElem?_eq_none (by omega)]; rfl
  · rw [if_neg h]
    refine ⟨by simp [accumG_length]; omega, ?_, fun h' => absurd h' h, ?_⟩
    · rw [List.flatten_append]; simp [accumG_all]
    · intro _ k g hg
      have hm := Nat.div_mul_le_self parts.length q
      have hle : (q - 1) * (parts.length / q) + parts.length / q ≤ parts.length := by
        have : (q - 1) * (parts.length / q) + parts.length / q = parts.length / q * q := by
          obtain ⟨q', rfl⟩ : ∃ q', q = q' + 1 := ⟨q - 1, by omega⟩
          simp only [Nat.add_sub_cancel]
          rw [Nat.mul_add, Nat.mul_comm]; omega
        omega
      have hs := accumG_share (parts.length / q) (q - 1) parts (Nat.le_of_add_right_le hle)
      rcases List.mem_append.1 (List.mem_of_getElem? hg) with hg | hg
      · exact (hs.1 g hg).ge
      · rw [List.mem_singleton] at hg
        subst hg
        rw [hs.2]; omega

/-- The number of bytes of a group. -/
def bytesOf (g : List Bytes) : Nat := (g.map fun p => p.length).sum

theorem bytesOf_eq (g : List Bytes) : bytesOf g = g.flatten.length := by
  simp [bytesOf, List.length_flatten]

theorem accum_eq (c : Nat) : ∀ (k : Nat) (s : List Bytes), accum c k (s.map fun p => p.length) =
    ((accumG c k s).1.map bytesOf, (accumG c k s).2.map fun p => p.length)
  | 0, s => rfl
  | k + 1, s => by
    simp only [accum, accumG, ← List.map_take, ← List.map_drop, accum_eq c k, List.map_cons]
    rfl

theorem recvSizes_eq (q : Nat) (parts : List Bytes) :
    recvSizes q (parts.map fun p => p.length) = (groupsOf q parts).map bytesOf := by
  unfold recvSizes groupsOf
  simp only [List.length_map]
  by_cases h : parts.length ≤ q
  · rw [if_pos h, if_pos h]
    simp [bytesOf]
  · rw [if_neg h, if_neg h, accum_eq]
    simp [bytesOf]

theorem offsets_get : ∀ (l : List Nat) (off k : Nat), k < l.length → (offsetsFrom off l)[k]? = some (off + (l.take k).sum)
  | [], _, k, h => by simp at h
  | r :: l, off, 0, _ => by simp [offsetsFrom]
  | r :: l, off, k + 1, h => by
    simp only [offsetsFrom, List.getElem?_cons_succ, List.take_succ_cons, List.sum_cons]
    rw [offsets_get l (off + r) k (by simpa using h)]
    congr 1; omega

theorem slice : ∀ (L : List Bytes) (k : Nat) (g : Bytes), L[k]? = some g →
    (L.flatten.drop ((L.map fun p => p.length).take k).sum).take g.length = g
  | [], k, g, h => by simp at h
  | p :: L, 0, g, h => by
    simp only [List.getElem?_cons_zero, Option.some.injEq] at h
    subst h; simp
  | p :: L, k + 1, g, h => by
    simp only [List.getElem?_cons_succ] at h
    simp only [List.map_cons, List.take_succ_cons, List.sum_cons, List.flatten_cons]
    rw [← List.drop_drop, List.drop_left]
    exact slice L k g h

theorem pheader_pfile {o : Order} {parts : List Bytes} (hn : parts.length < 256 ^ 8) (hs : ∀ p ∈ parts, p.length < 256 ^ 8) :
    pheader (pfile o parts) = some (parts.map fun p => p.length, parts.flatten) := by
  have r1 : ∀ r, rI 8 ⟨o, 8⟩ (mem o 8 parts.length ++ r) = some (parts.length, r) := by
    intro r
    have := rI_mem (lw := 8) (o := o) (w := 8) (v := parts.length) widthOk8 (by omega) hn r
    rwa [Nat.mod_eq_of_lt hn] at this
  have r2 : rMany (rI 8 ⟨o, 8⟩) parts.length ((parts.map fun p => p.length).flatMap (mem o 8) ++ parts.flatten) =
      some (parts.map fun p => p.length, parts.flatten) := by
    have := rMany_flatMap (rI 8 ⟨o, 8⟩) (mem o 8) id (parts.map fun p => p.length) parts.flatten (by
      intro a ha r
      obtain ⟨p, hp, rfl⟩ := List.mem_map.1 ha
      have h := hs p hp
      have := rI_mem (lw := 8) (o := o) (w := 8) (v := p.length) widthOk8 (by omega) h r
      rwa [Nat.mod_eq_of_lt h] at this)
    simpa using this
  have e : pfile o parts = 0x10 :: (writeOrder o :: 8 :: (mem o 8 parts.length ++
      ((parts.map fun p => p.length).flatMap (mem o 8) ++ parts.flatten))) := by
    simp only [pfile, List.append_assoc, List.cons_append, List.nil_append]
  rw [e]
  unfold pheader
  simp only [rConv_order]
  simp only [r1]
  exact r2

theorem length_pfile (o : Order) (parts : List Bytes) :
    ∃ h, pfile o parts = h ++ parts.flatten := ⟨_, rfl⟩

theorem group_at {q k : Nat} (parts : List Bytes) {g : List Bytes} (hq : 0 < q) (hg : (groupsOf q parts)[k]? = some g) :
    (recvSizes q (parts.map fun p => p.length))[k]? = some g.flatten.length ∧
    ∀ off, ∃ o, (offsetsFrom off (recvSizes q (parts.map fun p => p.length)))[k]? = some (off + o) ∧
      (parts.flatten.drop o).take g.flatten.length = g.flatten := by
  have hk : k < (groupsOf q parts).length := (List.getElem?_eq_some_iff.1 hg).1
  rw [recvSizes_eq]
  refine ⟨by rw [List.getElem?_map, hg, Option.map_some, bytesOf_eq], ?_⟩
  intro off
  refine ⟨_, offsets_get _ off k (by simpa using hk), ?_⟩
  have hall := (groups_ok hq parts).all
  have e : parts.flatten = ((groupsOf q parts).map List.flatten).flatten := by
    rw [← List.flatten_flatten, hall]
  have e2 : (groupsOf q parts).map bytesOf = ((groupsOf q parts).map List.flatten).map fun p => p.length := by
    rw [List.map_map]
    apply List.map_congr_left
    intro x _
    exact bytesOf_eq x
  rw [e, e2]
  exact slice _ k _ (by rw [List.getElem?_map, hg]; rfl)

/-! ## Owners -/

theorem mem_uniq : ∀ (l : List Nat) (a : Nat), a ∈ uniq l ↔ a ∈ l
  | [], a => by simp [uniq]
  | [b], a => by simp [uniq]
  | b :: c :: l, a => by
    unfold uniq
    split
    · next h => subst h; rw [mem_uniq (b :: l)]; simp
    · rw [List.mem_cons, mem_uniq (c :: l)]; simp [List.mem_cons]

theorem uniq_sorted : ∀ (l : List Nat), l.Pairwise (· ≤ ·) → (uniq l).Pairwise (· < ·)
  | [], _ => by simp [uniq]
  | [b], _ => by simp [uniq]
  | b :: c :: l, h => by
    obtain ⟨h1, h2⟩ := List.pairwise_cons.1 h
    unfold uniq
    split
    · exact uniq_sorted (c :: l) h2
    · next hne =>
      refine List.pairwise_cons.2 ⟨?_, uniq_sorted (c :: l) h2⟩
      intro a ha
      rw [mem_uniq] at ha
      have hbc := h1 c (List.mem_cons_self ..)
      rcases List.mem_cons.1 ha with rfl | ha
      · omega
      · have := (List.pairwise_cons.1 h2).1 a ha
        omega

theorem sortN_sorted (l : List Nat) : (sortN l).Pairwise (· ≤ ·) := List.pairwise_insertionSort _ l

theorem mem_sortN (l : List Nat) (a : Nat) : a ∈ sortN l ↔ a ∈ l := (List.perm_insertionSort _ l).mem_iff

theorem newRank_eq {P : Nat} {read : List (List Nat)} {r : Nat → Nat} (R : Readers P read r) {me p : Nat} (hp : p < P) :
    newRank read me p = r p := by
  unfold newRank
  by_cases h : p ∈ read.getD me []
  · rw [if_pos h]; exact (R.mem p hp me).1 h
  · rw [if_neg h]
    have hr := (R.mem p hp (r p)).2 rfl
    have hl : r p < read.length := by
      by_contra hc
      rw [List.getD_eq_getElem?_getD, List.getElem?_eq_none (by omega)] at hr
      simp at hr
    cases hf : read.findIdx? fun l => decide (p ∈ l) with
    | none =>
      have := List.findIdx?_eq_none_iff.1 hf read[r p] (List.getElem_mem hl)
      rw [List.getD_eq_getElem?_getD, List.getElem?_eq_getElem hl] at hr
      simp at this hr
      exact absurd hr this
    | some k =>
      obtain ⟨hk, h1, -⟩ := List.findIdx?_eq_some_iff_getElem.1 hf
      have h1 : p ∈ read[k] := by simpa using h1
      refine (R.mem p hp k).1 ?_
      rw [List.getD_eq_getElem?_getD, List.getElem?_eq_getElem hk]
      exact h1

theorem flatten_unique : ∀ (L : List (List Nat)), L.flatten.Nodup → ∀ p ∈ L.flatten, ∃ k, ∀ j, p ∈ L.getD j [] ↔ j = k
  | [], _, p, hp => by simp at hp
  | l :: L, hn, p, hp => by
    rw [List.flatten_cons, List.nodup_append] at hn
    rw [List.flatten_cons, List.mem_append] at hp
    by_cases h : p ∈ l
    · refine ⟨0, fun j => ?_⟩
      cases j with
      | zero => simp [h]
      | succ j =>
        simp only [List.getD_cons_succ, Nat.add_eq_zero_iff, one_ne_zero, and_false, iff_false]
        intro hj
        have : p ∈ L.flatten := by
          rw [List.getD_eq_getElem?_getD] at hj
          cases hx : L[j]? with
          | none => rw [hx] at hj; simp at hj
          | some g => rw [hx] at hj; exact List.mem_flatten.2 ⟨g, List.mem_of_getElem? hx, hj⟩
        exact hn.2.2 p h p this rfl
    · obtain ⟨k, hk⟩ := flatten_unique L hn.2.1 p (hp.resolve_left h)
      refine ⟨k + 1, fun j => ?_⟩
      cases j with
      | zero => simp [h]
      | succ j => simp only [List.getD_cons_succ, hk j]; omega

end Verif.Pmf
