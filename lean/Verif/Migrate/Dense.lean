import Verif.Migrate.Model
import Verif.Layers.Skin

/-! # Lemmas: the collective calls of Redistribute -/

namespace Verif.Migrate

open Verif.Topology Verif.Transfer Verif.Layers

variable {V : Type} {n : Nat} {cn : Bool} {G : Whole} {W : Nat → Side V} {mask : Nat → Bool}

theorem setUnion_spec : ∀ (l m : List Nat), l.Pairwise (· < ·) → m.Pairwise (· < ·) →
    (setUnion l m).Pairwise (· < ·) ∧ ∀ x, x ∈ setUnion l m ↔ x ∈ l ∨ x ∈ m
  | [], m, _, hm => ⟨hm, by simp [setUnion]⟩
  | a :: l, m, hl, hm => by
    rw [List.pairwise_cons] at hl
    show (setUnionAt a (setUnion l) m).Pairwise _ ∧ ∀ x, x ∈ setUnionAt a (setUnion l) m ↔ _
    induction m with
    | nil =>
      obtain ⟨h1, h2⟩ := setUnion_spec l [] hl.2 .nil
      show (a :: setUnion l []).Pairwise _ ∧ ∀ x, x ∈ a :: setUnion l [] ↔ _
      refine ⟨List.pairwise_cons.2 ⟨fun x hx => ?_, h1⟩, fun x => by simp [h2]⟩
      rw [h2] at hx
      exact hl.1 x (by simpa using hx)
    | cons b m ih =>
      have hm' := hm
      rw [List.pairwise_cons] at hm
      unfold setUnionAt
      split
      · next hab =>
        obtain ⟨h1, h2⟩ := setUnion_spec l (b :: m) hl.2 hm'
        refine ⟨List.pairwise_cons.2 ⟨fun x hx => ?_, h1⟩, fun x => by simp [h2, or_assoc]⟩
        rw [h2] at hx
        rcases hx with hx | hx
        · exact hl.1 x hx
        · rcases List.mem_cons.1 hx with rfl | hx
          · exact hab
          · exact Nat.lt_trans hab (hm.1 x hx)
      · next hab =>
        split
        · next hba =>
          obtain ⟨h1, h2⟩ := ih hm.2
          refine ⟨List.pairwise_cons.2 ⟨fun x hx => ?_, h1⟩, fun x => ?_⟩
          · rw [h2] at hx
            rcases hx with hx | hx
            · rcases List.mem_cons.1 hx with rfl | hx
              · exact hba
              · exact Nat.lt_trans hba (hl.1 x hx)
            · exact hm.1 x hx
          · rw [List.mem_cons, h2]
            simp only [List.mem_cons]
            constructor
            · rintro (h | (h | h) | h) <;> simp [h]
            · rintro ((h | h) | (h | h)) <;> simp [h]
        · next hba =>
          have : a = b := by omega
          subst this
          obtain ⟨h1, h2⟩ := setUnion_spec l m hl.2 hm.2
          refine ⟨List.pairwise_cons.2 ⟨fun x hx => ?_, h1⟩, fun x => ?_⟩
          · rw [h2] at hx
            rcases hx with hx | hx
            exacts [hl.1 x hx, hm.1 x hx]
          · rw [List.mem_cons, h2]
            simp only [List.mem_cons]
            constructor
            · rintro (h | h | h) <;> simp [h]
            · rintro ((h | h) | (h | h)) <;> simp [h]

/-- Lists of processors of existing elements are sorted. -/
def Sorted (n : Nat) (W : Nat → Side V) (a : Nat → El → List Nat) : Prop :=
  ∀ p, p < n → ∀ e, (W p).T.alive e = true → (a p e).Pairwise (· < ·)

section
variable {a b : Nat → El → List Nat}

theorem merge_args (H : Spread n cn G W) (ha : Sorted n W a) :
    (∀ p, p < n → ∀ e, e ∈ (look Nat (W p)).elems → ((some (a p ⟨e.ty, e.id⟩) : Option (List Nat)).getD []).Pairwise (· < ·)) ∧
    ∀ p, p < n → ∀ (e : Parallel.El) x, e ∈ (look Nat (W p)).elems → (look Nat (W p)).status e = .ghost →
      some (a p ⟨e.ty, e.id⟩) = some x → x ≠ [] → x.Pairwise (· < ·) := by
  have h : ∀ p, p < n → ∀ e, e ∈ (look Nat (W p)).elems → (a p ⟨e.ty, e.id⟩).Pairwise (· < ·) := fun p hp e he =>
    ha p hp _ ((mem_look (H.piece p hp).reach e).1 he)
  refine ⟨fun p hp e he => h p hp e he, fun p hp e x he _ hx _ => ?_⟩
  injection hx with hx
  rw [← hx]; exact h p hp e he

theorem merge_exists (H : Spread n cn G W) (ha : Sorted n W a) : ∃ b, Merge n mask W a b := by
  obtain ⟨k1, k2⟩ := merge_args H ha
  obtain ⟨G2, G1, h1, h2⟩ := Parallel.tag_exists (k := 0) (T := procsTag) (mask := mask) (f := setUnion)
    (init := fun p e => some (a p ⟨e.ty, e.id⟩)) (P := fun l => l.Pairwise (· < ·)) (Q := fun l => l.Pairwise (· < ·))
    rfl (fun _ _ => rfl) (fun _ _ _ _ _ _ => by simp) (agreed_look H Nat)
    (fun arr x h1 h2 => setUnion_spec arr x h1 h2) k1 k2
  have hn : ∀ p, p < n → ∀ e, (W p).T.alive e = true → (G2 p).data 0 (toP e) ≠ none := by
    intro p hp e he
    have hmem := (mem_look (A := Nat) (H.piece p hp).reach (toP e)).2 he
    obtain ⟨D1, s1, hsel, hot, hnn, hown⟩ := Parallel.tag_mid (k := 0) (T := procsTag) (mask := mask) (f := setUnion)
      (P := fun l => l.Pairwise (· < ·)) (Q := fun l => l.Pairwise (· < ·)) rfl (fun _ _ => rfl) (fun _ _ _ _ _ _ => by simp)
      (agreed_look H Nat) (fun arr x h1 h2 => setUnion_spec arr x h1 h2) k1 k2 h1
    obtain ⟨x1, x2⟩ := Parallel.exchange_collective D1 (Parallel.sized_any rfl fun p hp e he h1 h2 =>
      hnn p hp e (by rw [← s1.elems p hp]; exact he) (by simp)) (by simp) h2
    by_cases hc : ∃ q e' a l, Parallel.GhostOf G1 p (toP e) q e' ∧ mask (toP e).ty = true ∧ (G1 q).data 0 e' = some (a :: l)
    · obtain ⟨q, e', a, l, hg, hm, hd⟩ := hc
      rw [(x2 p hp (0, procsTag) (by simp) (toP e)).1 q e' a l hg hm rfl (by rw [hsel p hp]) hd]
      simp
    · have := (x2 p hp (0, procsTag) (by simp) (toP e)).2 fun q e' hg hm _ _ a l hd => hc ⟨q, e', a, l, hg, hm, hd⟩
      simp only at this
      rw [this]
      exact hnn p hp _ hmem (by simp)
  refine ⟨fun p e => ((G2 p).data 0 (toP e)).getD [], G1, G2, h1, h2, fun p hp e he => ?_⟩
  cases hd : (G2 p).data 0 (toP e) with
  | none => exact absurd hd (hn p hp e he)
  | some x => simp only [hd]; rfl

theorem merge_spec (H : Spread n cn G W) (ha : Sorted n W a) (h : Merge n mask W a b) :
    Sorted n W b ∧
    (∀ p, p < n → ∀ e, (W p).T.alive e = true → mask e.ty = true → ∀ r, r ∈ b p e ↔
      ∃ q, q < n ∧ ∃ e', (W q).T.alive e' = true ∧ name (W q).num e' = name (W p).num e ∧ r ∈ a q e') ∧
    ∀ p, p < n → ∀ e, (W p).T.alive e = true → mask e.ty = false → b p e = a p e := by
  obtain ⟨k1, k2⟩ := merge_args H ha
  obtain ⟨G1, G2, h1, h2, h3⟩ := h
  have hrun : Parallel.CollectTag n 0 procsTag mask (Parallel.listOp setUnion) (fun p e => some (a p ⟨e.ty, e.id⟩))
    (fun p => look Nat (W p)) G2 := ⟨G1, h1, h2⟩
  have hout : ∀ p, p < n → ∀ e, (W p).T.alive e = true → mask e.ty = false → b p e = a p e := by
    intro p hp e he hm
    have := Parallel.tag_other (P := fun l => l.Pairwise (· < ·)) (Q := fun l => l.Pairwise (· < ·)) rfl (fun _ _ => rfl)
      (fun _ _ _ _ _ _ => by simp) (agreed_look H Nat) (fun arr x h1 h2 => setUnion_spec arr x h1 h2) k1 k2 hrun hp
      (e := toP e) hm
    rw [h3 p hp e he] at this
    injection this
  have hin : ∀ p, p < n → ∀ e, (W p).T.alive e = true → mask e.ty = true → (b p e).Pairwise (· < ·) ∧ ∀ r, r ∈ b p e ↔
      ∃ q, q < n ∧ ∃ e', (W q).T.alive e' = true ∧ name (W q).num e' = name (W p).num e ∧ r ∈ a q e' := by
    intro p hp e he hm
    have := Parallel.tag_final (P := fun l => l.Pairwise (· < ·)) (Q := fun l => l.Pairwise (· < ·)) rfl (fun _ _ => rfl)
      (fun _ _ _ _ _ _ => by simp) (agreed_look H Nat) (fun arr x h1 h2 => setUnion_spec arr x h1 h2) k1 k2 hrun hp
      (e := toP e) ((mem_look (H.piece p hp).reach _).2 he) hm
    rw [h3 p hp e he] at this
    refine ⟨this.1, fun r => (this.2 r).trans ⟨?_, ?_⟩⟩
    · rintro ⟨q, e', hq, he', hs, hr⟩
      exact ⟨q, hq, ofP e', (mem_look (H.piece q hq).reach _).1 he', same_name.1 hs, hr⟩
    · rintro ⟨q, hq, e', he', hs, hr⟩
      exact ⟨q, toP e', hq, (mem_look (H.piece q hq).reach _).2 he', same_name.2 hs, hr⟩
  refine ⟨fun p hp e he => ?_, fun p hp e he hm => (hin p hp e he hm).2, hout⟩
  cases hm : mask e.ty with
  | true => exact (hin p hp e he hm).1
  | false => rw [hout p hp e he hm]; exact ha p hp e he

end

section
variable {a b : Nat → El → Nat}

theorem swap_sized (H : Spread n cn G W) :
    Parallel.Sized n [(0, ownerTag)] (Parallel.tagged 0 (fun p e => some [a p ⟨e.ty, e.id⟩]) fun p => look Nat (W p)) := by
  intro t ht p hp e he _
  rw [List.mem_singleton] at ht
  subst ht
  rw [Parallel.tagged_data]
  refine ⟨fun x m hx hm => ?_, fun _ => by simp⟩
  injection hx with hx
  injection hm with hm
  rw [← hx, ← hm]; rfl

theorem swap_dist (H : Spread n cn G W) :
    Parallel.Distributed n (Parallel.tagged 0 (fun p e => some [a p ⟨e.ty, e.id⟩]) fun p => look Nat (W p)) :=
  (Parallel.tagged_agreed (agreed_look H Nat)).distributed fun _ _ _ _ _ _ _ => rfl

theorem swap_run (H : Spread n cn G W) {G1 : Nat → Parallel.Local Nat}
    (h : Parallel.Collective (Parallel.exchangeCall n [(0, ownerTag)] mask)
      (Parallel.tagged 0 (fun p e => some [a p ⟨e.ty, e.id⟩]) fun p => look Nat (W p)) G1) :
    (∀ p, p < n → ∀ e, (W p).T.alive e = true → mask e.ty = false → (G1 p).data 0 (toP e) = some [a p e]) ∧
    ∀ p q, p < n → q < n → ∀ e e', (W p).T.alive e = true → (W q).T.alive e' = true → name (W q).num e' = name (W p).num e →
      G.owner (name (W p).num e) = q → mask e.ty = true → (G1 p).data 0 (toP e) = some [a q e'] := by
  obtain ⟨x1, x2⟩ := Parallel.exchange_collective (swap_dist H) (swap_sized H) (by simp) h
  constructor
  · intro p hp e he hm
    have := (x2 p hp (0, ownerTag) (by simp) (toP e)).2 fun q e' hg hm' => by
      rw [show mask (toP e).ty = false from hm] at hm'; cases hm'
    simp only [Parallel.tagged_data] at this
    exact this
  · intro p q hp hq e e' he he' hn ho hm
    have Ag := Parallel.tagged_agreed (k := 0) (init := fun p e => some [a p ⟨e.ty, e.id⟩]) (agreed_look H Nat)
    have hmem := (mem_look (A := Nat) (H.piece p hp).reach (toP e)).2 he
    have hmem' := (mem_look (A := Nat) (H.piece q hq).reach (toP e')).2 he'
    by_cases hpq : p = q
    · subst hpq
      have hee : e' = e := (H.piece p hp).fits.inj _ _ he' he hn
      subst hee
      have hng : (W p).status e' ≠ .ghost := by
        rw [Ne, ghost_iff H hp he']
        exact fun h => h ho
      have := (x2 p hp (0, ownerTag) (by simp) (toP e')).2 fun q' e2 hg => absurd hg.ghost hng
      simp only [Parallel.tagged_data] at this
      exact this
    · have hown : ((W p).owner e).toNat = q := (owner_nat H hp he).trans ho
      have hg := Ag.ghostOf (e := toP e) (e' := toP e') hp hq hmem hmem' ((same_name (A := Nat) (W := W)).2 hn) (fun h => hpq h.symm) hown
      have := (x2 p hp (0, ownerTag) (by simp) (toP e)).1 q (toP e') (a q e') [] hg hm rfl rfl (by
        rw [Parallel.tagged_data]; rfl)
      exact this

theorem swap_spec (H : Spread n cn G W) (h : Swap n mask W a b) :
    (∀ p, p < n → ∀ e, (W p).T.alive e = true → mask e.ty = false → b p e = a p e) ∧
    ∀ p q, p < n → q < n → ∀ e e', (W p).T.alive e = true → (W q).T.alive e' = true → name (W q).num e' = name (W p).num e →
      G.owner (name (W p).num e) = q → mask e.ty = true → b p e = a q e' := by
  obtain ⟨G1, h1, h2⟩ := h
  obtain ⟨y1, y2⟩ := swap_run H h1
  refine ⟨fun p hp e he hm => ?_, fun p q hp hq e e' he he' hn ho hm => ?_⟩
  · have := (h2 p hp e he).symm.trans (y1 p hp e he hm)
    simpa using this
  · have := (h2 p hp e he).symm.trans (y2 p q hp hq e e' he he' hn ho hm)
    simpa using this

theorem swap_exists (H : Spread n cn G W) (mask : Nat → Bool) (a : Nat → El → Nat) : ∃ b, Swap n mask W a b := by
  obtain ⟨G1, h1⟩ := Parallel.collective_exists
    (Parallel.exchange_ok (mask := mask) (tags := [(0, ownerTag)]) (swap_dist (a := a) H) (swap_sized H) (by simp))
  obtain ⟨y1, y2⟩ := swap_run H h1
  refine ⟨fun p e => (((G1 p).data 0 (toP e)).getD []).headD 0, G1, h1, fun p hp e he => ?_⟩
  cases hm : mask e.ty with
  | false => simp only [y1 p hp e he hm]; rfl
  | true =>
    obtain ⟨ho, e', he', hn⟩ := H.home p hp e he
    simp only [y2 p _ hp ho e e' he he' hn rfl hm]; rfl

end

end Verif.Migrate
