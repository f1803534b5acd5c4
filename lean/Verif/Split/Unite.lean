import Verif.Split.Loop

/-! The loops of edges around united edges. -/

namespace Verif.Split
open Verif.Topology Verif.EdgeLoop

variable {T T' : Topo} {flip : Topo → El → Bool}

theorem Path.corner {a b : El} {es ns : List El} (h : Path T a es ns b) : ∃ l, ns ++ [b] = a :: l := by
  cases h with
  | nil => exact ⟨[], rfl⟩
  | cons => exact ⟨_, rfl⟩

/-- The edges of an open polygon with different corners differ. -/
theorem path_nodup {a b : El} {es ns : List El} (h : Path T a es ns b) (hn : (ns ++ [b]).Nodup) : es.Nodup := by
  induction h with
  | nil => simp
  | @cons e a m b es ns hj hp ih =>
    rw [List.cons_append] at hn
    obtain ⟨h1, h2⟩ := List.nodup_cons.1 hn
    refine List.nodup_cons.2 ⟨fun hm => ?_, ih h2⟩
    obtain ⟨u, v, hj', hu, hv⟩ := hp.mem hm
    have : a ∈ (T.low e).filter fun x => !T.hid x := by rcases hj with h | h <;> rw [h] <;> simp
    rcases joins_mem hj' this with rfl | rfl
    · exact h1 (by simp [hu])
    · exact h1 hv

/-- The edges of a closed polygon with different corners differ. -/
theorem cycle_nodup {a : El} {es ns : List El} (h : Path T a es ns a) (hn : ns.Nodup) (h3 : 3 ≤ es.length) :
    es.Nodup := by
  cases h with
  | nil => simp
  | @cons e _ m _ es ns hj hp =>
  obtain ⟨h1, h2⟩ := List.nodup_cons.1 hn
  have hna : (ns ++ [a]).Nodup := by
    rw [List.nodup_append]
    refine ⟨h2, by simp, fun x hx y hy => ?_⟩
    rw [List.mem_singleton.1 hy]
    rintro rfl; exact h1 hx
  refine List.nodup_cons.2 ⟨fun hm => ?_, path_nodup hp hna⟩
  cases hp with
  | nil => cases hm
  | @cons e2 _ m2 _ es ns hj2 hp2 =>
  have hm2 : m ∈ (T.low e).filter fun x => !T.hid x := by rcases hj with h | h <;> rw [h] <;> simp
  have ha2 : a ∈ (T.low e).filter fun x => !T.hid x := by rcases hj with h | h <;> rw [h] <;> simp
  obtain ⟨h5, h6⟩ := List.nodup_cons.1 hna
  rcases List.mem_cons.1 hm with rfl | hm
  · have hne : ns ≠ [] := by
      intro h0
      have := hp2.length
      rw [h0] at this; simp at h3 this; omega
    have hmm := hp2.head hne
    rcases joins_mem hj2 ha2 with rfl | rfl
    · exact h1 (by simp)
    · exact h1 (by simp [hmm])
  · obtain ⟨u, v, hj', hu, hv⟩ := hp2.mem hm
    rcases joins_mem hj' hm2 with rfl | rfl
    · exact h5 (by simp [hu])
    · exact h5 hv

theorem endsOf_cons {e : El} {es : List El} :
    T.endsOf (e :: es) = ((T.low e).filter fun x => !T.hid x) ++ T.endsOf es := by
  unfold Topo.endsOf; rw [List.flatMap_cons]

theorem endsOf_perm {es es' : List El} (h : es.Perm es') (n : El) :
    (T.endsOf es).count n = (T.endsOf es').count n := by
  unfold Topo.endsOf
  exact (h.flatMap_right _).count_eq n

theorem joins_count {e a b n : El} (h : Joins T e a b) :
    ((T.low e).filter fun x => !T.hid x).count n = [a, b].count n := by
  rcases h with h | h <;> rw [h]
  simp only [List.count_cons, List.count_nil]; omega

/-- Every edge contributes its first and its second corner. -/
theorem path_ends {a b : El} {es ns : List El} (h : Path T a es ns b) (n : El) :
    (T.endsOf es).count n + [a].count n = 2 * ns.count n + [b].count n := by
  induction h with
  | nil => simp [Topo.endsOf]
  | @cons e a m b es ns hj hp ih =>
    rw [endsOf_cons, List.count_append, joins_count hj]
    simp only [List.count_cons, List.count_nil] at ih ⊢
    omega

theorem collect_nodup : ∀ (l acc : List El), acc.Nodup → (T.collect acc l).Nodup
  | [], acc, h => by unfold Topo.collect; exact h
  | x :: xs, acc, h => by
    unfold Topo.collect
    split
    · exact collect_nodup xs _ h
    split
    · exact collect_nodup xs _ h
    · next hx =>
      refine collect_nodup xs _ ?_
      rw [List.nodup_append]
      refine ⟨h, by simp, fun y hy z hz => ?_⟩
      rw [List.mem_singleton.1 hz]
      rintro rfl
      simp_all

theorem facesOf_nodup : ∀ (es acc r : List El), acc.Nodup → T.facesOf acc es = some r → r.Nodup
  | [], acc, r, hn, h => by cases h; exact hn
  | e :: es, acc, r, hn, h => by
    unfold Topo.facesOf at h
    split at h
    · cases h
    · exact facesOf_nodup es _ r (collect_nodup _ _ hn) h

theorem remIdx_spec {E : List El} : ∀ (l : List El) (p : Nat), remIdx E l = some p →
    ∃ A x B, l = A ++ x :: B ∧ A.length = p ∧ x ∈ E ∧ ∀ y ∈ A, y ∉ E
  | [], p, h => by cases h
  | x :: xs, p, h => by
    unfold remIdx at h
    split at h
    · next hx => cases h; exact ⟨[], x, xs, rfl, rfl, hx, by simp⟩
    · next hx =>
      cases hq : remIdx E xs with
      | none => rw [hq] at h; cases h
      | some q =>
        rw [hq] at h
        cases h
        obtain ⟨A, y, B, h1, h2, h3, h4⟩ := remIdx_spec xs q hq
        refine ⟨x :: A, y, B, by rw [h1]; rfl, by simp [h2], h3, ?_⟩
        intro z hz
        rcases List.mem_cons.1 hz with rfl | hz
        · exact hx
        · exact h4 z hz

theorem uniteIns_at {e f : El} {q : Nat} (hfe : f ≠ e) : ∀ (pos : List (El × Nat)) (T T' : Topo),
    (∀ p ∈ pos, p.1 ≠ e) → (pos.map Prod.fst).count f = 1 → (f, q) ∈ pos →
    forEach (Topo.uniteIns e) pos T = some T' →
    T'.low f = (T.low f).take q ++ [e] ++ (T.low f).drop q
  | [], T, T', _, h, _, _ => by simp at h
  | (g, r) :: pos, T, T', hne, h, hm, e' => by
    unfold forEach at e'
    split at e'
    · cases e'
    next T1 h1 =>
    unfold Topo.uniteIns at h1
    split at h1
    · cases h1
    next lc hl =>
    split at h1
    · cases h1
    split at h1
    · cases h1
    next T2 h2 =>
    obtain ⟨-, -, rfl⟩ := modLow_some h2
    obtain ⟨-, -, rfl⟩ := modHigh_some h1
    by_cases hg : g = f
    · subst hg
      have h0 : (pos.map Prod.fst).count g = 0 := by
        rw [List.map_cons, List.count_cons_self] at h; omega
      have hnm : g ∉ pos.map Prod.fst := List.count_eq_zero.1 h0
      have hr : r = q := by
        rcases List.mem_cons.1 hm with h | h
        · cases h; rfl
        · exact absurd (List.mem_map.2 ⟨_, h, rfl⟩) hnm
      subst hr
      obtain ⟨-, -, -, hs, -, -⟩ := uniteIns_spec pos _ T' (fun p hp => hne p (by simp [hp])) e'
      rw [hs g hnm]
      simp only [set1_same]
    · have hm' : (f, q) ∈ pos := by
        rcases List.mem_cons.1 hm with h | h
        · cases h; exact absurd rfl hg
        · exact h
      have hc' : (pos.map Prod.fst).count f = 1 := by
        rw [List.map_cons, List.count_cons_of_ne hg] at h; exact h
      have := uniteIns_at hfe pos _ T' (fun p hp => hne p (by simp [hp])) hc' hm' e'
      simp only [set1_ne _ _ (fun h => hg h.symm : f ≠ g)] at this
      exact this

/-- The state before the creation of the new edge, seen from an edge that stays. -/
theorem joins_stay {T3 : Topo} (I : Inv T (fun _ => False)) {edges inner : List El} (hE : ∀ x ∈ edges, x.ty = 1)
    (hT : (T.hide = true ∧ (∀ x ∈ edges ++ inner, T.alive x = true) ∧
        T3 = { T with hidden := fun x => if x ∈ edges ++ inner then true else T.hidden x }) ∨
       (T.hide = false ∧ Gone T (edges ++ inner) T3)) (hin : ∀ n ∈ inner, n.ty = 0) {x a b : El}
    (hx : x.ty = 1) (hxe : x ∉ edges) (hj : Joins T x a b) (ha : a ∉ inner) (hb : b ∉ inner) :
    Joins T3 x a b := by
  have hlow : ∀ n ∈ T.low x, n ∉ edges := fun n hn hm => by
    have := (I.lowTy x n hn).1 (by omega)
    have := hE n hm
    omega
  have key : (T3.low x).filter (fun n => !T3.hid n) =
      ((T.low x).filter fun n => !T.hid n).filter fun n => decide (n ∉ inner) := by
    rcases hT with ⟨hh, -, rfl⟩ | ⟨hh, G⟩
    · rw [List.filter_filter]
      refine List.filter_congr fun n hn => ?_
      unfold Topo.hid
      simp only [hh, Bool.true_and]
      by_cases hi : n ∈ inner
      · simp [hi]
      · simp [hi, hlow n hn]
    · have h1 : ∀ n, T.hid n = false := fun n => by unfold Topo.hid; rw [hh]; rfl
      have h3 : ∀ n, T3.hid n = false := fun n => by unfold Topo.hid; rw [G.hide, hh]; rfl
      have e3 : (T3.low x).filter (fun n => !T3.hid n) = T3.low x :=
        List.filter_eq_self.2 fun n _ => by simp [h3 n]
      have e1 : (T.low x).filter (fun n => !T.hid n) = T.low x :=
        List.filter_eq_self.2 fun n _ => by simp [h1 n]
      rw [e3, e1, G.low, if_neg]
      · refine List.filter_congr fun n hn => ?_
        simp [hlow n hn]
      · intro hm
        rcases List.mem_append.1 hm with hm | hm
        · exact hxe hm
        · have := hin x hm; omega
  unfold Joins
  rw [key]
  rcases hj with h | h <;> rw [h] <;> simp [ha, hb]

/-- The effect of `UniteEdges` on edges and faces. -/
structure United (T T' : Topo) (edges inner : List El) (r u v : El) : Prop where
  joins : Joins T' r u v
  stay : ∀ x a b, x.ty = 1 → T.alive x = true → x ∉ edges → Joins T x a b → a ∉ inner → b ∉ inner →
    Joins T' x a b
  face : ∀ e ∈ edges, ∀ f ∈ T.high e, T.hid f = false → ∃ A x B, T.low f = A ++ x :: B ∧ x ∈ edges ∧
    (∀ y ∈ A, y ∉ edges) ∧ edgesOf T' f = (A.filter fun x => !T.hid x) ++ [r] ++
      (((x :: B).filter fun x => !T.hid x).filter fun y => decide (y ∉ edges))
  other : ∀ g, g.ty = 2 → T.alive g = true → T.hid g = false → (∀ e ∈ edges, e ∉ T.low g) →
    edgesOf T' g = edgesOf T g
  result : T'.alive r = true ∧ r.ty = 1 ∧ T'.hid r = false
  faces : ∀ e ∈ edges, ∀ f ∈ T.high e, T.hid f = false → f ∈ T'.high r
  gone : ∀ x ∈ edges ++ inner, x = r ∨ T'.alive x = false ∨ T'.hid x = true

theorem unite_core {dup : Bool} {prot : El → Bool} {edges ch nc : List El} {id : Nat} {r u v : El}
    (I : Inv T (fun _ => False)) (A : UniteOk T edges) (hok : dup = true → EdgesOk T)
    (h : T.uniteEdges flip dup prot edges id = some (T', some r))
    (P : Path T u ch nc v) (hch : ch.Perm edges) (hnd : (nc ++ [v]).Nodup) (hne : ch ≠ []) :
    ∃ inner, nc = u :: inner ∧ United T T' edges inner r u v := by
  obtain ⟨inner, hnc⟩ : ∃ inner, nc = u :: inner := by
    cases P with
    | nil => exact absurd rfl hne
    | cons => exact ⟨_, rfl⟩
  subst hnc
  refine ⟨inner, rfl, ?_⟩
  rw [List.cons_append] at hnd
  obtain ⟨hu, hnd⟩ := List.nodup_cons.1 hnd
  have huv : u ≠ v := fun h => hu (by simp [h])
  have hvi : v ∉ inner := fun h => (List.nodup_append.1 hnd).2.2 v h v (by simp) rfl
  have hui : u ∉ inner := fun h => hu (by simp [h])
  have hind : inner.Nodup := (List.nodup_append.1 hnd).1
  -- numbers of occurrences
  have hcount : ∀ n, (T.endsOf edges).count n = if n = u ∨ n = v then 1 else if n ∈ inner then 2 else 0 := by
    intro n
    have := path_ends P n
    rw [endsOf_perm hch n] at this
    simp only [List.count_cons, List.count_nil, List.count_eq_zero.2, beq_iff_eq] at this
    by_cases h1 : n = u
    · subst h1
      rw [List.count_eq_zero.2 hui] at this
      simp [huv, Ne.symm huv] at this
      simp; omega
    · by_cases h2 : n = v
      · subst h2
        rw [List.count_eq_zero.2 hvi] at this
        simp [Ne.symm h1, huv] at this
        simp; omega
      · simp only [Ne.symm h1, Ne.symm h2, if_false] at this
        simp only [h1, h2, or_self, if_false]
        split
        · next hm =>
          rw [List.count_eq_one_of_mem hind hm] at this; omega
        · next hm =>
          rw [List.count_eq_zero.2 hm] at this; omega
  obtain ⟨faces, pos, hal, hf, hb, hle, hp, hr⟩ := uniteEdges_parts h
  have hinner : ∀ n, n ∈ (keys (T.endsOf edges)).filter (fun n => (T.endsOf edges).count n ≠ 1) ↔ n ∈ inner := by
    intro n
    rw [List.mem_filter, mem_keys, ← List.count_pos_iff, hcount]
    by_cases h1 : n = u ∨ n = v
    · have : n ∉ inner := by rcases h1 with rfl | rfl <;> assumption
      simp [h1, this]
    · by_cases h2 : n ∈ inner <;> simp [h1, h2]
  have hity : ∀ n ∈ inner, n.ty = 0 := by
    intro n hn
    rw [← hinner, List.mem_filter, mem_keys] at hn
    obtain ⟨e, he, hl, -⟩ := mem_endsOf.1 hn.1
    have := (I.lowTy e n hl).1 (by have := A.ty e he; omega)
    have := A.ty e he
    omega
  obtain ⟨T3, T4, e, b, he, h4, h5, hT⟩ := uniteRun_parts I A.ty A.nodup hf
    (fun n hn => hity n ((hinner n).1 hn)) (fun hh n hn => A.free hh n (by
      have h1 := (hinner n).1 hn
      have h2 : ¬ (n = u ∨ n = v) := by rintro (rfl | rfl) <;> contradiction
      rw [hcount, if_neg h2, if_pos h1]
      exact Nat.le_refl 2)) hr
  cases he
  obtain ⟨n0, n1, hbl⟩ := len_two hb
  rw [hbl] at h4
  have hends : ∀ n, n ∈ [n0, n1] ↔ n = u ∨ n = v := by
    intro n
    rw [← hbl, List.mem_filter, mem_keys, ← List.count_pos_iff, hcount]
    by_cases h1 : n = u ∨ n = v
    · simp [h1]
    · by_cases h2 : n ∈ inner <;> simp [h1, h2]
  have h01 : (n0 = u ∧ n1 = v) ∨ (n0 = v ∧ n1 = u) := by
    have a0 := (hends n0).1 (by simp)
    have a1 := (hends n1).1 (by simp)
    have a2 := mem_two.1 ((hends u).2 (Or.inl rfl))
    have a3 := mem_two.1 ((hends v).2 (Or.inr rfl))
    rcases a0 with rfl | rfl <;> rcases a1 with rfl | rfl
    · simp at a3; exact absurd a3.symm huv
    · exact Or.inl ⟨rfl, rfl⟩
    · exact Or.inr ⟨rfl, rfl⟩
    · simp at a2; exact absurd a2 huv
  have hT' : (T.hide = true ∧ (∀ x ∈ edges ++ inner, T.alive x = true) ∧
        T3 = { T with hidden := fun x => if x ∈ edges ++ inner then true else T.hidden x }) ∨
       (T.hide = false ∧ Gone T (edges ++ inner) T3) := by
    have hm : ∀ x, x ∈ edges ++ (keys (T.endsOf edges)).filter (fun n => (T.endsOf edges).count n ≠ 1) ↔
        x ∈ edges ++ inner := fun x => by rw [List.mem_append, List.mem_append, hinner]
    rcases hT with ⟨h1, h2, h3⟩ | ⟨h1, G⟩
    · refine Or.inl ⟨h1, fun x hx => h2 x ((hm x).2 hx), ?_⟩
      rw [h3]; simp only [hm]
    · refine Or.inr ⟨h1, G.cn, G.last, G.hide, fun x => ?_, fun x => ?_, fun x => ?_, fun x => ?_⟩
      · rw [G.alive]; simp only [hm]
      · rw [G.hidden]; simp only [hm]
      · rw [G.low]; simp only [hm]
      · rw [G.high]; simp only [hm]
  have huvv : ∀ n, n = u ∨ n = v → T.alive n = true ∧ n.ty = 0 ∧ T.hid n = false := by
    intro n hn
    have h1 : 0 < (T.endsOf edges).count n := by rw [hcount, if_pos hn]; simp
    obtain ⟨e, he, hl, hv⟩ := mem_endsOf.1 (List.count_pos_iff.1 h1)
    have := (I.lowTy e n hl).1 (by have := A.ty e he; omega)
    have := A.ty e he
    exact ⟨(I.lowLive hl).1, by omega, hv⟩
  have hni : ∀ n, n = u ∨ n = v → n ∉ edges ++ inner := by
    intro n hn hm
    rcases List.mem_append.1 hm with hm | hm
    · have := A.ty n hm; have := (huvv n hn).2.1; omega
    · rcases hn with rfl | rfl <;> contradiction
  have I3 : Inv T3 (fun _ => False) ∧ ∀ n, n ∉ edges ++ inner → T3.alive n = T.alive n ∧ T3.hid n = T.hid n := by
    rcases hT' with ⟨-, ha, rfl⟩ | ⟨h1, G⟩
    · refine ⟨hiddens_inv I ha, fun n hn => ⟨rfl, ?_⟩⟩
      unfold Topo.hid; simp only [if_neg hn]
    · refine ⟨G.inv I, fun n hn => ⟨by rw [G.alive, if_neg hn], ?_⟩⟩
      unfold Topo.hid; rw [G.hide, h1]; rfl
  obtain ⟨I3, hst⟩ := I3
  have hN : ∀ n, n = n0 ∨ n = n1 → T3.alive n = true ∧ n.ty = 0 ∧ T3.hid n = false := by
    intro n hn
    have := (hends n).1 (mem_two.2 hn)
    obtain ⟨g1, g2, g3⟩ := huvv n this
    obtain ⟨k1, k2⟩ := hst n (hni n this)
    exact ⟨k1.trans g1, g2, k2.trans g3⟩
  have H0 := hN n0 (Or.inl rfl)
  have H1 := hN n1 (Or.inr rfl)
  have hsub : ∀ x n, n ∈ T3.low x → n ∈ T.low x := by
    intro x n hn
    rcases hT' with ⟨-, -, rfl⟩ | ⟨-, G⟩
    · exact hn
    · rw [G.low] at hn
      split at hn
      · cases hn
      · exact (List.mem_filter.1 hn).1
  have hjoin : ∀ z x y, z.ty = 1 → z ∉ edges → Joins T z x y → x ∉ inner → y ∉ inner → Joins T3 z x y :=
    fun z x y hz hze hj hx hy => joins_stay I A.ty hT' hity hz hze hj hx hy
  have hvis3 : ∀ z, T3.alive z = true → T3.hid z = false → z ∉ edges ++ inner := by
    intro z hz hv hm
    rcases hT' with ⟨hh, -, rfl⟩ | ⟨-, G⟩
    · unfold Topo.hid at hv; simp [hh] at hv
      simp at hm; rcases hm with hm | hm
      · exact hv.1.1 hm
      · exact hv.1.2 hm
    · rw [G.alive, if_pos hm] at hz; cases hz
  have hn01 : n0 ≠ n1 := by
    rcases h01 with ⟨rfl, rfl⟩ | ⟨rfl, rfl⟩
    · exact huv
    · exact fun h => huv h.symm
  have hJ := create_joins I3 H0 H1 (fun hd z za zt zv z0 z1 => by
    have hze := hvis3 z za zv
    obtain ⟨k1, k2⟩ := hst z hze
    have e0 := (hends n0).1 (by simp)
    have e1 := (hends n1).1 (by simp)
    refine hjoin z n0 n1 zt (fun h => hze (by simp [h])) ((hok hd).joins (huvv n0 e0).2.2 (huvv n1 e1).2.2 hn01
      (k1 ▸ za) zt (k2 ▸ zv) (hsub _ _ z0) (hsub _ _ z1)) (fun h => hni n0 e0 (by simp [h]))
      (fun h => hni n1 e1 (by simp [h]))) h4
  have hv4 := create_visible I3 ⟨H0.1, H0.2.1⟩ ⟨H1.1, H1.2.1⟩ h4
  have C := create_chained I3 ⟨H0.1, H0.2.1⟩ ⟨H1.1, H1.2.1⟩ h4 hv4
  obtain ⟨q1, q2⟩ := remPos_spec _ _ hp
  have hft : ∀ f ∈ faces, f.ty = 2 ∧ T.alive f = true ∧ T.hid f = false := by
    intro f hm
    obtain ⟨e, he, hm, hv⟩ := ((facesOf_mem edges [] faces hf).1 hm).resolve_left (by simp)
    have := (I.highTy (fun h => h) hm).1 (by have := A.ty e he; omega)
    have := A.ty e he
    exact ⟨by omega, (I.lowLive ((I.mem (fun h => h)).2 hm)).2, hv⟩
  have hrt := (C.ret r (by simp)).2.1
  have hpr : ∀ p ∈ pos, p.1 ≠ r := fun p hp heq => by
    have := (hft p.1 (by rw [← q1]; exact List.mem_map.2 ⟨p, hp, rfl⟩)).1
    rw [heq] at this; omega
  obtain ⟨F, k1, k2, k3, k4, k5⟩ := uniteIns_spec pos T4 T' hpr h5
  have hid' : ∀ x, T'.hid x = T4.hid x := fun x => by unfold Topo.hid; rw [F.hide, F.hidden]
  have hlow1 : ∀ x, x.ty = 1 → T'.low x = T4.low x := fun x hx => k3 x fun hm => by
    rw [q1] at hm; have := (hft x hm).1; omega
  have hJ' : Joins T' r n0 n1 := joins_congr (hlow1 r hrt) hid' hJ
  have hhid3 : ∀ x, T'.hid x = T3.hid x := fun x => by rw [hid', Chained.hid C]
  -- the filter of the visible edges afterwards
  have hfil : ∀ (f : El) (l : List El), f.ty = 2 → (∀ x ∈ l, x ∈ T.low f) → l.filter (fun x => !T3.hid x ) =
      if T.hide then (l.filter fun x => !T.hid x).filter (fun y => decide (y ∉ edges)) else l := by
    intro f l hft hl
    have hnin : ∀ x ∈ l, x ∉ inner := fun x hx hi => by
      have := (I.lowTy f x (hl x hx)).1 (by omega)
      have := hity x hi
      omega
    rcases hT' with ⟨hh, -, rfl⟩ | ⟨hh, G⟩
    · rw [if_pos hh, List.filter_filter]
      refine List.filter_congr fun x hx => ?_
      unfold Topo.hid
      simp only [hh, Bool.true_and]
      by_cases hi : x ∈ edges
      · simp [hi]
      · simp [hi, hnin x hx]
    · rw [if_neg (by simp [hh])]
      exact List.filter_eq_self.2 fun x _ => by unfold Topo.hid; rw [G.hide, hh]; rfl
  have hnotD : ∀ f, f.ty = 2 → f ∉ edges ++ inner := fun f hf hm => by
    rcases List.mem_append.1 hm with hm | hm
    · have := A.ty f hm; omega
    · have := hity f hm; omega
  have hlow3 : ∀ f, f.ty = 2 → T3.low f = if T.hide then T.low f else (T.low f).filter fun y => decide (y ∉ edges) := by
    intro f hf
    rcases hT' with ⟨hh, -, rfl⟩ | ⟨hh, G⟩
    · rw [if_pos hh]
    · rw [if_neg (by simp [hh]), G.low, if_neg (hnotD f hf)]
      refine List.filter_congr fun x hx => ?_
      have : x ∉ inner := fun hi => by
        have := (I.lowTy f x hx).1 (by omega)
        have := hity x hi
        omega
      simp [this]
  refine ⟨?_, ?_, ?_, ?_, ?_, ?_, ?_⟩
  · rcases h01 with ⟨rfl, rfl⟩ | ⟨rfl, rfl⟩
    · exact hJ'
    · exact hJ'.symm
  · intro x a b hx hxa hxe hj ha hb
    have hxn : x ∉ edges ++ inner := fun hm => by
      rcases List.mem_append.1 hm with hm | hm
      · exact hxe hm
      · have := hity x hm; omega
    refine joins_congr (T := T3) ?_ hhid3 (hjoin x a b hx hxe hj ha hb)
    rw [hlow1 x hx, C.low x (by rw [(hst x hxn).1]; exact hxa)]
  · intro e0 he0 f hfe hfv
    have hfm : f ∈ faces := (facesOf_mem edges [] faces hf).2 (Or.inr ⟨e0, he0, hfe, hfv⟩)
    obtain ⟨f2, fa, -⟩ := hft f hfm
    have hfm' : f ∈ pos.map Prod.fst := by rw [q1]; exact hfm
    obtain ⟨⟨f', q⟩, hq, rfl⟩ := List.mem_map.1 hfm'
    simp only at *
    obtain ⟨A0, x, B, hl, hA, hx, hd⟩ := remIdx_spec _ _ (q2 _ hq)
    simp only at hl
    have hcf : (pos.map Prod.fst).count f' = 1 := by
      rw [q1]; exact List.count_eq_one_of_mem (facesOf_nodup edges [] faces (by simp) hf) hfm
    have hlow' := uniteIns_at (hpr _ hq) pos T4 T' hpr hcf hq h5
    rw [C.low f' (by rw [(hst f' (hnotD f' f2)).1]; exact fa), hlow3 f' f2] at hlow'
    refine ⟨A0, x, B, hl, hx, hd, ?_⟩
    have hrv : T'.hid r = false := by rw [hid']; exact hv4
    have hAf : (A0.filter fun y => decide (y ∉ edges)) = A0 :=
      List.filter_eq_self.2 fun y hy => by simp [hd y hy]
    have hfil' : ∀ l : List El, l.filter (fun x => !T'.hid x) = l.filter fun x => !T3.hid x := fun l =>
      filter_hid fun n _ => hhid3 n
    unfold edgesOf
    subst hA
    cases hh : T.hide with
    | true =>
      rw [hh, if_pos rfl, hl, List.take_left, List.drop_left] at hlow'
      rw [hlow', List.filter_append, List.filter_append, List.filter_cons_of_pos (by simp [hrv]), List.filter_nil,
        hfil', hfil', hfil f' A0 f2 (by intro y hy; rw [hl]; simp [hy]),
        hfil f' (x :: B) f2 (by intro y hy; rw [hl]; exact List.mem_append_right _ hy), hh, if_pos rfl, if_pos rfl]
      congr 2
      exact List.filter_eq_self.2 fun y hy => by simp [hd y (List.mem_filter.1 hy).1]
    | false =>
      have h1 : ∀ n, T.hid n = false := fun n => by unfold Topo.hid; rw [hh]; rfl
      have h2 : ∀ n, T'.hid n = false := fun n => by
        rw [hhid3]; unfold Topo.hid
        rcases hT' with ⟨h', -⟩ | ⟨-, G⟩
        · rw [hh] at h'; cases h'
        · rw [G.hide, hh]; rfl
      rw [hh, if_neg (by simp), hl, List.filter_append, hAf, List.take_left, List.drop_left] at hlow'
      have e2 : ∀ l : List El, l.filter (fun x => !T'.hid x) = l := fun l =>
        List.filter_eq_self.2 fun n _ => by simp [h2 n]
      have e1 : ∀ l : List El, l.filter (fun x => !T.hid x) = l := fun l =>
        List.filter_eq_self.2 fun n _ => by simp [h1 n]
      rw [e2, e1, e1, hlow']
  · intro g g2 ga gv hno
    have hgf : g ∉ pos.map Prod.fst := by
      rw [q1]
      intro hm
      obtain ⟨e, he, hm, -⟩ := ((facesOf_mem edges [] faces hf).1 hm).resolve_left (by simp)
      exact hno e he ((I.mem (fun h => h)).2 hm)
    unfold edgesOf
    rw [k3 g hgf, C.low g (by rw [(hst g (hnotD g g2)).1]; exact ga), hlow3 g g2,
      filter_hid (T := T3) (fun n _ => hhid3 n)]
    have hid2 : (T.low g).filter (fun y => decide (y ∉ edges)) = T.low g :=
      List.filter_eq_self.2 fun y hy => by
        have : y ∉ edges := fun hm => hno y hm hy
        simp [this]
    rw [hid2, ite_self]
    refine filter_hid fun n hn => (hst n ?_).2
    intro hm
    rcases List.mem_append.1 hm with hm | hm
    · exact hno n hm hn
    · have := (I.lowTy g n hn).1 (by omega)
      have := hity n hm
      omega
  · exact ⟨by rw [F.alive]; exact (C.ret r (by simp)).1, hrt, by rw [hid']; exact hv4⟩
  · intro e0 he0 f hfe hfv
    rw [k5, set1_same, q1]
    exact List.mem_append_right _ ((facesOf_mem edges [] faces hf).2 (Or.inr ⟨e0, he0, hfe, hfv⟩))
  · intro x hx
    by_cases hxr : x = r
    · exact Or.inl hxr
    right
    cases hv : T'.hid x with
    | true => exact Or.inr rfl
    | false =>
      left
      cases ha : T'.alive x with
      | false => rfl
      | true =>
        rw [F.alive] at ha
        rcases C.kinds x ha with h | h
        · exact absurd hx (hvis3 x h (by rw [← hhid3]; exact hv))
        · exact absurd (List.mem_singleton.1 h.1) hxr

theorem path_map {a c : El} {es ns : List El} (h : Path T a es ns c)
    (hl : ∀ x ∈ es, ∀ a b, Joins T x a b → Joins T' x a b) : Path T' a es ns c := by
  induction h with
  | nil => exact .nil _
  | cons hj _ ih => exact .cons (hl _ (by simp) _ _ hj) (ih fun x hx => hl x (by simp [hx]))

/-- A polygon made of the united chain and the rest. -/
theorem unite_cycle {dup : Bool} {prot : El → Bool} {edges ch nc rest nr : List El} {id : Nat} {r u v f : El}
    (I : Inv T (fun _ => False)) (A : UniteOk T edges) (hok : dup = true → EdgesOk T)
    (h : T.uniteEdges flip dup prot edges id = some (T', some r)) (hft : f.ty = 2)
    (P : Path T u ch nc v) (Q : Path T v rest nr u) (hch : ch.Perm edges) (hnd : (nc ++ nr).Nodup)
    (hne : ch ≠ []) (hr : rest ≠ []) (hrf : ∀ x ∈ rest, x ∈ T.low f) (hen : (ch ++ rest).Nodup) :
    ∃ inner, nc = u :: inner ∧ United T T' edges inner r u v ∧
      ∀ x ∈ rest, ∀ a b, Joins T x a b → Joins T' x a b := by
  have hvm : v ∈ nr := Q.head fun h0 => hr (List.length_eq_zero_iff.1 (by rw [← Q.length, h0]; rfl))
  have hnv : (nc ++ [v]).Nodup := by
    obtain ⟨h1, h2, h3⟩ := List.nodup_append.1 hnd
    rw [List.nodup_append]
    refine ⟨h1, by simp, fun x hx y hy => ?_⟩
    rw [List.mem_singleton.1 hy]
    exact h3 x hx v hvm
  obtain ⟨inner, hi, U⟩ := unite_core I A hok h P hch hnv hne
  refine ⟨inner, hi, U, fun x hx a b hj => ?_⟩
  have hxe : x ∉ edges := fun hm => (List.nodup_append.1 hen).2.2 x (hch.mem_iff.2 hm) x hx rfl
  have hx1 : x.ty = 1 := by have := (I.lowTy f x (hrf x hx)).1 (by omega); omega
  obtain ⟨p, q, hj', hp, hq⟩ := Q.mem hx
  have hnot : ∀ n, n ∈ (T.low x).filter (fun y => !T.hid y) → n ∉ inner := by
    intro n hn hin
    have hnn : n ∈ nr ++ [u] := by
      rcases joins_mem hj' hn with rfl | rfl
      · simp [hp]
      · exact hq
    subst hi
    rcases List.mem_append.1 hnn with h1 | h1
    · exact (List.nodup_append.1 hnd).2.2 n (by simp [hin]) n h1 rfl
    · rw [List.mem_singleton.1 h1] at hin
      exact (List.nodup_cons.1 (List.nodup_append.1 hnd).1).1 hin
  refine U.stay x a b hx1 (I.lowLive (hrf x hx)).1 hxe hj (hnot a ?_) (hnot b ?_)
  · rcases hj with h | h <;> rw [h] <;> simp
  · rcases hj with h | h <;> rw [h] <;> simp

theorem first_marked {E A l pre : List El} {x m : El} {B tl : List El} (h : A ++ x :: B = pre ++ m :: tl) (hx : x ∈ E)
    (hA : ∀ y ∈ A, y ∉ E) (hm : m ∈ E) (hp : ∀ y ∈ pre, y ∉ E) : A = pre ∧ x :: B = m :: tl := by
  induction A generalizing pre with
  | nil =>
    cases pre with
    | nil => exact ⟨rfl, h⟩
    | cons p ps =>
      simp only [List.nil_append, List.cons_append, List.cons.injEq] at h
      exact absurd (h.1 ▸ hx) (hp p (by simp))
  | cons a as ih =>
    cases pre with
    | nil =>
      simp only [List.nil_append, List.cons_append, List.cons.injEq] at h
      exact absurd (h.1 ▸ hm) (hA a (by simp))
    | cons p ps =>
      simp only [List.cons_append, List.cons.injEq] at h
      obtain ⟨h1, h2⟩ := ih (pre := ps) h.2 (fun y hy => hA y (by simp [hy])) (fun y hy => hp y (by simp [hy]))
      exact ⟨by rw [h.1, h1], h2⟩

end Verif.Split
