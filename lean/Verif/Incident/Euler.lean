import Verif.Incident.Spec
import Mathlib.Data.List.Dedup

/-! Edges with an even number of ends in every node: every edge is on a closed polygon. -/

namespace Verif.Incident
variable {C R : Type} [DecidableEq C] [DecidableEq R] {low : C → List R}

theorem Joins.symm {c : C} {a b : R} (h : Joins low c a b) : Joins low c b a := fun r => (h r).trans Or.comm

/-- A path from `b` to the last argument through different nodes. -/
inductive SPath (low : C → List R) (E : List C) (b : R) : List C → List R → R → Prop
  | nil : SPath low E b [] [b] b
  | cons {o ns x c y} : SPath low E b o ns x → c ∈ E → Joins low c x y → y ∉ ns →
      SPath low E b (c :: o) (y :: ns) y

theorem SPath.last {E : List C} {b x : R} {o : List C} {ns : List R} (h : SPath low E b o ns x) : x ∈ ns := by
  cases h <;> simp

theorem SPath.sub {E : List C} {b x : R} {o : List C} {ns : List R} (h : SPath low E b o ns x) :
    ∀ c ∈ o, c ∈ E := by
  induction h with
  | nil => simp
  | cons _ hc _ _ ih =>
    intro d hd
    rcases List.mem_cons.1 hd with rfl | hd
    · exact hc
    · exact ih d hd

theorem SPath.inside {E : List C} {b x : R} {o : List C} {ns : List R} (h : SPath low E b o ns x) :
    ∀ c ∈ o, ∀ r ∈ low c, r ∈ ns := by
  induction h with
  | nil => simp
  | @cons o ns x c y hp hc hj hy ih =>
    intro d hd r hr
    rcases List.mem_cons.1 hd with rfl | hd
    · rcases (hj r).1 hr with rfl | rfl
      · exact List.mem_cons_of_mem _ hp.last
      · simp
    · exact List.mem_cons_of_mem _ (ih d hd r hr)

theorem SPath.nodup {E : List C} {b x : R} {o : List C} {ns : List R} (h : SPath low E b o ns x) : o.Nodup := by
  induction h with
  | nil => simp
  | @cons o ns x c y hp hc hj hy ih =>
    refine List.nodup_cons.2 ⟨fun hm => hy ?_, ih⟩
    exact hp.inside c hm y ((hj y).2 (Or.inr rfl))

theorem uses_cons {c : C} {l : List C} (r : R) :
    uses low r (c :: l) = uses low r l + if r ∈ low c then 1 else 0 := by
  unfold uses
  rw [List.countP_cons]
  simp

theorem joins_one {c : C} {x y : R} (hj : Joins low c x y) (h : x ≠ y) (r : R) :
    (if r ∈ low c then 1 else 0) = (if r = x then 1 else 0) + (if r = y then 1 else 0) := by
  by_cases hx : r = x
  · rw [if_pos ((hj r).2 (Or.inl hx)), if_pos hx, if_neg]
    rintro rfl
    exact h hx.symm
  · by_cases hy : r = y
    · rw [if_pos ((hj r).2 (Or.inr hy)), if_neg hx, if_pos hy]
    · rw [if_neg fun h => ((hj r).1 h).elim hx hy, if_neg hx, if_neg hy]

theorem SPath.uses {E : List C} {b x : R} {o : List C} {ns : List R} (h : SPath low E b o ns x) (r : R) :
    uses low r o + (if r = b then 1 else 0) + (if r = x then 1 else 0) = if r ∈ ns then 2 else 0 := by
  induction h with
  | nil =>
    simp only [Incident.uses, List.countP_nil, List.mem_singleton]
    split <;> rfl
  | @cons o ns x c y hp hc hj hy ih =>
    have hxy : x ≠ y := by rintro rfl; exact hy hp.last
    rw [uses_cons, joins_one hj hxy]
    by_cases hr : r = y
    · have h1 : r ∉ ns := by rw [hr]; exact hy
      rw [if_neg h1] at ih
      rw [if_pos hr, if_pos (List.mem_cons.2 (Or.inl hr))]
      omega
    · rw [if_neg hr]
      have : r ∈ y :: ns ↔ r ∈ ns := by simp [hr]
      simp only [this]
      omega

/-- The beginning of a path up to one of its nodes. -/
theorem SPath.upto {E : List C} {b x s : R} {o : List C} {ns : List R} (h : SPath low E b o ns x) (hs : s ∈ ns) :
    ∃ o' ns', SPath low E b o' ns' s := by
  induction h with
  | nil => rw [List.mem_singleton.1 hs]; exact ⟨_, _, .nil⟩
  | @cons o ns x c y hp hc hj hy ih =>
    rcases List.mem_cons.1 hs with rfl | hs
    · exact ⟨_, _, .cons hp hc hj hy⟩
    · exact ih hs

/-! ### Counting -/

def total (low : C → List R) (Rs : List R) (E : List C) : Nat := (Rs.map fun r => uses low r E).sum

theorem total_cons (Rs : List R) (c : C) (E : List C) :
    total low Rs (c :: E) = total low Rs E + Rs.countP fun r => decide (r ∈ low c) := by
  unfold total
  induction Rs with
  | nil => rfl
  | cons r rs ih =>
    simp only [List.map_cons, List.sum_cons, List.countP_cons, uses_cons] at ih ⊢
    rw [ih]
    simp only [decide_eq_true_eq]
    omega

theorem count_nodup {Rs : List R} (hn : Rs.Nodup) (a : R) : Rs.count a = if a ∈ Rs then 1 else 0 := by
  split
  · next h =>
    have h1 := List.nodup_iff_count.1 hn a
    have h2 := List.count_pos_iff.2 h
    omega
  · next h => exact List.count_eq_zero.2 h

theorem countP_ends {c : C} {a b : R} (hj : Joins low c a b) (h : a ≠ b) (Rs : List R) :
    (Rs.countP fun r => decide (r ∈ low c)) = Rs.count a + Rs.count b := by
  induction Rs with
  | nil => rfl
  | cons r rs ih =>
    rw [List.countP_cons, List.count_cons, List.count_cons, ih]
    have := joins_one hj h r
    simp only [decide_eq_true_eq, beq_iff_eq]
    omega

theorem total_even {Rs : List R} (hn : Rs.Nodup) : ∀ (E : List C),
    (∀ c ∈ E, ∃ a b, a ≠ b ∧ Joins low c a b ∧ (a ∈ Rs ↔ b ∈ Rs)) → total low Rs E % 2 = 0
  | [], _ => by
    have : total low Rs ([] : List C) = 0 := by
      unfold total Incident.uses
      induction Rs with
      | nil => rfl
      | cons r rs ih => simp
    rw [this]
  | c :: E, h => by
    rw [total_cons]
    obtain ⟨a, b, hab, hj, hm⟩ := h c (by simp)
    have h1 := total_even hn E fun d hd => h d (by simp [hd])
    rw [countP_ends hj hab, count_nodup hn, count_nodup hn]
    by_cases ha : a ∈ Rs
    · rw [if_pos ha, if_pos (hm.1 ha)]; omega
    · rw [if_neg ha, if_neg fun hb => ha (hm.2 hb)]; omega

theorem total_odd (E : List C) (b : R) : ∀ (Rs : List R), Rs.Nodup → uses low b E % 2 = 1 →
    (∀ r ∈ Rs, r ≠ b → uses low r E % 2 = 0) → total low Rs E % 2 = if b ∈ Rs then 1 else 0
  | [], _, _, _ => by simp [total]
  | r :: rs, hn, hb, hr => by
    rw [List.nodup_cons] at hn
    have ih := total_odd E b rs hn.2 hb fun x hx => hr x (by simp [hx])
    have e : total low (r :: rs) E = uses low r E + total low rs E := by
      unfold total; rw [List.map_cons, List.sum_cons]
    rw [e]
    by_cases h : r = b
    · subst h
      rw [if_neg hn.1] at ih
      rw [if_pos (by simp)]
      omega
    · have := hr r (by simp) h
      have h' : b ∈ r :: rs ↔ b ∈ rs := by simp [Ne.symm h]
      simp only [h']
      omega

theorem uses_erase {E : List C} {c : C} (h : c ∈ E) (r : R) :
    uses low r E = uses low r (E.erase c) + if r ∈ low c then 1 else 0 := by
  have := (List.perm_cons_erase h).countP_eq fun c => decide (r ∈ low c)
  unfold uses
  rw [this, List.countP_cons]
  simp

/-- If every node has an even number of edges, every edge is part of a closed polygon. -/
theorem closed_through {E : List C} (hn : E.Nodup) (he : ∀ c ∈ E, ∃ a b, a ≠ b ∧ Joins low c a b)
    (hev : ∀ r, uses low r E % 2 = 0) {c : C} (hc : c ∈ E) :
    ∃ L : List C, L.Nodup ∧ (∀ x ∈ L, x ∈ E) ∧ c ∈ L ∧ Closed low L := by
  obtain ⟨a, b, hab, hj⟩ := he c hc
  have hsub : ∀ x ∈ E.erase c, x ∈ E ∧ x ≠ c := fun x hx =>
    ⟨List.mem_of_mem_erase hx, by rintro rfl; exact (List.Nodup.not_mem_erase hn) hx⟩
  by_cases hr : ∃ o ns, SPath low (E.erase c) b o ns a
  · obtain ⟨o, ns, hp⟩ := hr
    refine ⟨c :: o, List.nodup_cons.2 ⟨fun hm => (hsub c (hp.sub c hm)).2 rfl, hp.nodup⟩, ?_, by simp, ?_⟩
    · intro x hx
      rcases List.mem_cons.1 hx with rfl | hx
      · exact hc
      · exact (hsub x (hp.sub x hx)).1
    · intro r
      have h1 := hp.uses r
      rw [uses_cons, joins_one hj hab]
      by_cases h2 : r ∈ ns
      · rw [if_pos h2] at h1; omega
      · rw [if_neg h2] at h1; omega
  · exfalso
    classical
    let P : R → Prop := fun r => ∃ o ns, SPath low (E.erase c) b o ns r
    let Rs : List R := (((E.erase c).flatMap low ++ [b]).dedup).filter fun r => decide (P r)
    have hRs : ∀ r, r ∈ Rs ↔ (r ∈ (E.erase c).flatMap low ∨ r = b) ∧ P r := by
      intro r
      simp [Rs]
    have hnd : Rs.Nodup := (List.nodup_dedup _).filter _
    have hb : b ∈ Rs := (hRs b).2 ⟨Or.inr rfl, _, _, .nil⟩
    have ha : a ∉ Rs := fun h => hr ((hRs a).1 h).2
    have hstep : ∀ d ∈ E.erase c, ∀ x y, Joins low d x y → x ∈ Rs → y ∈ Rs := by
      intro d hd x y hjd hx
      obtain ⟨-, o, ns, hp⟩ := (hRs x).1 hx
      refine (hRs y).2 ⟨Or.inl (List.mem_flatMap.2 ⟨d, hd, (hjd y).2 (Or.inr rfl)⟩), ?_⟩
      by_cases hy : y ∈ ns
      · exact hp.upto hy
      · exact ⟨_, _, .cons hp hd hjd hy⟩
    have h1 := total_even (low := low) hnd (E.erase c) (by
      intro d hd
      obtain ⟨x, y, hxy, hjd⟩ := he d (hsub d hd).1
      exact ⟨x, y, hxy, hjd, hstep d hd x y hjd, hstep d hd y x hjd.symm⟩)
    have h2 := total_odd (low := low) (E.erase c) b Rs hnd (by
      have := uses_erase (low := low) hc b
      have := hev b
      rw [if_pos ((hj b).2 (Or.inr rfl))] at *
      omega) (by
      intro r hrm hrb
      have h3 := uses_erase (low := low) hc r
      have h4 := hev r
      have hra : r ≠ a := by rintro rfl; exact ha hrm
      rw [if_neg fun h => ((hj r).1 h).elim hra hrb] at h3
      omega)
    rw [if_pos hb] at h2
    omega

end Verif.Incident
