import Verif.Topology.Lemmas

/-!
# Destruction of elements
-/

namespace Verif.Topology

variable {T T' : Topo} {S : El → Prop} {flip : Topo → El → Bool}

theorem hcOf_some {x : El} {l : List El} (h : T.hcOf x = some l) : T.high x = l := by
  unfold Topo.hcOf at h; split at h
  · simpa using h
  · cases h

theorem lcOf_some {x : El} {l : List El} (h : T.lcOf x = some l) : T.low x = l := by
  unfold Topo.lcOf at h; split at h
  · simpa using h
  · cases h

theorem modLow_perm {x : El} {g : List El → List El} (hx : T.lcOf x = some (T.low x))
    (hg : (g (T.low x)).Perm (T.low x)) :
    ∃ T', T.modLow x g = some T' ∧ PermEq T T' ∧ T'.high = T.high ∧
      ∀ y, y ≠ x → T'.low y = T.low y := by
  refine ⟨{ T with low := set1 T.low x (g (T.low x)) }, by unfold Topo.modLow; rw [hx], ?_, rfl, ?_⟩
  · refine ⟨rfl, rfl, rfl, rfl, rfl, fun y => ?_, fun _ => .refl _⟩
    by_cases hy : y = x
    · subst hy; simpa only [set1_same] using hg
    · simp only [set1_ne _ _ hy]; exact .refl _
  · intro y hy; simp only [set1_ne _ _ hy]

theorem fixNoSwap_spec {f : El} (hf : T.lcOf f = some (T.low f)) :
    ∃ T', T.fixNoSwap flip f = some T' ∧ PermEq T T' ∧ T'.high = T.high ∧
      ∀ y, y ≠ f → T'.low y = T.low y := by
  unfold Topo.fixNoSwap
  split
  · exact modLow_perm hf (List.reverse_perm _)
  · exact ⟨T, rfl, .refl _, rfl, fun _ _ => rfl⟩

theorem swapBackFace_spec {c f : El} (hf : T.alive f = true) (hft : f.ty = 2) :
    ∃ T', T.swapBackFace flip c f = some T' ∧ PermEq T T' ∧
      (∀ x, (x ≠ f ∨ T.hid x = true) → T'.low x = T.low x ∧ T'.high x = T.high x) := by
  unfold Topo.swapBackFace
  by_cases hh : T.hid f = true
  · rw [if_pos hh]; exact ⟨T, rfl, .refl _, fun _ _ => ⟨rfl, rfl⟩⟩
  rw [if_neg hh]
  have hl : T.hcOf f = some (T.high f) := if_pos ⟨hf, Or.inl (by omega)⟩
  simp only [hl]
  by_cases hc : T.countVis (T.high f) = 2 ∧ (T.high f)[T.getNext (T.high f) 0]? = some c
  · rw [if_pos hc]
    obtain ⟨T1, e1, P1, hl1, hh1⟩ := swapTwo_spec hl (by omega)
    have hlc : T1.lcOf f = some (T1.low f) := if_pos ⟨by rw [P1.alive]; exact hf, Or.inl (by omega)⟩
    obtain ⟨T2, e2, P2, hh2, hl2⟩ := fixNoSwap_spec (flip := flip) hlc
    refine ⟨T2, by simp only [e1, e2], P1.trans P2, ?_⟩
    intro x hx
    have hxf : x ≠ f := by
      rcases hx with h | h
      · exact h
      · rintro rfl; exact hh h
    exact ⟨by rw [hl2 x hxf, hl1], by rw [hh2]; exact hh1 x hxf⟩
  · rw [if_neg hc]; exact ⟨T, rfl, .refl _, fun _ _ => ⟨rfl, rfl⟩⟩

theorem swapBack_spec {c : El} (I : Inv T S) (hc : T.alive c = true) (ht : c.ty = 3) :
    ∃ T', T.swapBack flip c = some T' ∧ PermEq T T' ∧
      (∀ x, (x ∉ T.low c ∨ T.hid x = true) → T'.low x = T.low x ∧ T'.high x = T.high x) := by
  unfold Topo.swapBack
  rw [show T.lcOf c = some (T.low c) from if_pos ⟨hc, Or.inl (by omega)⟩]
  refine forEach_ok (fun T1 => PermEq T T1 ∧ ∀ x, (x ∉ T.low c ∨ T.hid x = true) →
    T1.low x = T.low x ∧ T1.high x = T.high x) _ ?_ T ⟨.refl _, fun _ _ => ⟨rfl, rfl⟩⟩
  rintro T1 f hf ⟨P1, h1⟩
  have hfa := (I.lowLive hf).1
  have hft := (I.lowTy c f hf).1 (by omega)
  obtain ⟨T2, e2, P2, h2⟩ := swapBackFace_spec (T := T1) (flip := flip) (c := c) (f := f)
    (by rw [P1.alive]; exact hfa) (by omega)
  refine ⟨T2, e2, P1.trans P2, fun x hx => ?_⟩
  have := h2 x (hx.imp (fun h => by rintro rfl; exact h hf) (fun h => by rw [P1.hid]; exact h))
  rw [this.1, this.2]
  exact h1 x hx

theorem swapBackIf_spec {c : El} (I : Inv T S) (hc : T.alive c = true) :
    ∃ T', T.swapBackIf flip c = some T' ∧ PermEq T T' ∧ (c.ty ≠ 3 → T' = T) ∧
      (∀ x, (x ∉ T.low c ∨ T.hid x = true) → T'.low x = T.low x ∧ T'.high x = T.high x) := by
  unfold Topo.swapBackIf
  split
  · next h =>
    obtain ⟨T', e, P, h1⟩ := swapBack_spec (flip := flip) I hc h
    exact ⟨T', e, P, fun h' => absurd h h', h1⟩
  · exact ⟨T, rfl, .refl _, fun _ => rfl, fun _ _ => ⟨rfl, rfl⟩⟩

/-! ## The first loop of `Disconnect` -/

theorem rmLoop_spec (h : El) (L : List El) : ∀ (us : List El) (i : Nat) (T : Topo),
    L.drop i = us → (∀ u ∈ us, T.lcOf u = some (T.low u)) →
    ∃ (d : List Nat) (vs : List El), rmLoop h us i T = some
        ({ T with low := fun b => if b ∈ us then eraseAll h (T.low b) else T.low b }, d) ∧
      d.map (L[·]?) = vs.map some ∧ vs.Nodup ∧ ∀ u, u ∈ vs ↔ u ∈ us ∧ h ∈ T.low u
  | [], i, T, _, _ => ⟨[], [], by simp [rmLoop], rfl, List.nodup_nil, by simp⟩
  | u :: us, i, T, hL, hok => by
    have hL' : L.drop (i + 1) = us := by
      rw [← List.tail_drop, hL]; rfl
    have hu : L[i]? = some u := by
      have := congrArg (·[0]?) hL
      simpa using this
    have hlu := hok u (by simp)
    obtain ⟨d, vs, e, hd, hn, hv⟩ := rmLoop_spec h L us (i + 1)
      { T with low := set1 T.low u (eraseAll h (T.low u)) } hL' (by
        intro v hv
        have := hok v (by simp [hv])
        unfold Topo.lcOf at this ⊢
        split at this
        · next hc => rw [if_pos hc]
        · cases this)
    have hlow : (fun b => if b ∈ us then eraseAll h (set1 T.low u (eraseAll h (T.low u)) b)
        else set1 T.low u (eraseAll h (T.low u)) b) =
        fun b => if b ∈ u :: us then eraseAll h (T.low b) else T.low b := by
      funext b
      by_cases hb : b = u
      · subst hb
        rw [set1_same, if_pos (List.mem_cons_self ..)]
        split
        · rw [eraseAll_eq, eraseAll_eq, List.filter_filter]; congr 1; funext x; simp
        · rfl
      · rw [set1_ne _ _ hb]
        by_cases hbu : b ∈ us
        · rw [if_pos hbu, if_pos (List.mem_cons_of_mem _ hbu)]
        · rw [if_neg hbu, if_neg (by simp [hb, hbu])]
    simp only [hlow] at e
    refine ⟨if h ∈ T.low u then i :: d else d, if h ∈ T.low u then u :: vs else vs, ?_, ?_, ?_, ?_⟩
    · unfold rmLoop; rw [hlu]; simp only [e]
    · split <;> simp [hd, hu]
    · split
      · refine List.nodup_cons.2 ⟨fun hm => ?_, hn⟩
        have := ((hv u).1 hm).2
        simp only [set1_same, eraseAll_eq] at this
        simp at this
      · exact hn
    · intro v
      by_cases hvu : v = u
      · subst hvu
        by_cases hh : h ∈ T.low v
        · rw [if_pos hh]; simp [hh]
        · rw [if_neg hh]
          simp only [hh, and_false, iff_false]
          intro hm
          have := ((hv v).1 hm).2
          simp only [set1_same, eraseAll_eq] at this
          simp at this
      · have := hv v
        simp only [set1_ne _ _ hvu] at this
        split <;> simp [hvu, this]

/-- State after the first loop. -/
def cutOff (T : Topo) (h : El) : Topo :=
  { T with low := fun b => (T.low b).filter fun x => decide (x ≠ h) }

theorem rmLoop_inv {h : El} (I : Inv T S) (hs : ¬ S h) :
    ∃ (d : List Nat) (vs : List El), rmLoop h (T.high h) 0 T = some (cutOff T h, d) ∧
      d.map ((T.high h)[·]?) = vs.map some ∧ vs.Nodup ∧ ∀ u, u ∈ vs ↔ u ∈ T.high h := by
  obtain ⟨d, vs, e, h1, h2, h3⟩ := rmLoop_spec h (T.high h) (T.high h) 0 T rfl
    (fun u hu => I.lcOf_of_high hs hu)
  refine ⟨d, vs, ?_, h1, h2, fun u => ?_⟩
  · rw [e]
    unfold cutOff
    congr 3
    funext b
    split
    · exact eraseAll_eq _ _
    · next hb =>
      symm
      apply List.filter_eq_self.2
      intro x hx
      simp only [decide_eq_true_eq]
      rintro rfl
      exact hb ((I.mem hs).1 hx)
  · rw [h3, I.mem hs]; simp

theorem cutOff_inv {h : El} (I : Inv T S) (hs : ¬ S h) :
    Inv (cutOff T h) (fun x => S x ∨ x = h) where
  tyLe := I.tyLe
  dead x hx := by
    obtain ⟨h1, h2, h3⟩ := I.dead x hx
    exact ⟨by simp [cutOff, h1], h2, h3⟩
  lastLt := I.lastLt
  lowTy x y hy := I.lowTy x y (List.mem_filter.1 hy).1
  mirror a b ha := by
    have h1 : a ≠ h := fun e => ha (Or.inr e)
    show ((T.low b).filter _).count a = _
    rw [count_filter_ne _ h1]
    exact I.mirror a b (fun h => ha (Or.inl h))
  cut a b ha hm := by
    have hm := List.mem_filter.1 hm
    rcases ha with ha | ha
    · exact I.cut a b ha hm.1
    · simp [ha] at hm

/-! ## The lower part of `Disconnect` and `Untie` -/

theorem lowerLoop_spec {h : El} : ∀ (l : List El) (T : Topo),
    (∀ x ∈ l, T.hcOf x = some (T.high x)) →
    forEach (fun T x => T.modHigh x (eraseAll h)) l T =
      some { T with high := fun x => if x ∈ l then eraseAll h (T.high x) else T.high x }
  | [], T, _ => by simp [forEach]
  | x :: xs, T, hok => by
    have h1 : T.modHigh x (eraseAll h) = some { T with high := set1 T.high x (eraseAll h (T.high x)) } := by
      unfold Topo.modHigh; rw [hok x (by simp)]
    rw [forEach_cons h1, lowerLoop_spec xs _ (by
      intro y hy
      have := hok y (by simp [hy])
      unfold Topo.hcOf at this ⊢
      split at this
      · next hc => rw [if_pos hc]
      · cases this)]
    congr 2
    funext y
    by_cases hy : y = x
    · subst hy
      simp only [set1_same, List.mem_cons, true_or, if_true]
      split
      · rw [eraseAll_eq, eraseAll_eq, List.filter_filter]; congr 1; funext x; simp
      · rfl
    · simp only [set1_ne _ _ hy, List.mem_cons, hy, false_or]

/-- The final state of a destruction, from the state after the upper part. -/
def finish (T : Topo) (h : El) : Topo :=
  { T with
    alive := set1 T.alive h false
    low := set1 T.low h []
    high := set1 (fun x => if x ∈ T.low h then (T.high x).filter fun y => decide (y ≠ h)
      else T.high x) h []
    hidden := set1 T.hidden h false }

theorem finish_high {h x : El} (I : Inv T (fun x => S x ∨ x = h)) (hs : ¬ S x) (hx : x ≠ h) :
    (finish T h).high x = (T.high x).filter fun y => decide (y ≠ h) := by
  simp only [finish]
  rw [set1_ne _ _ hx]
  split
  · rfl
  · next hm =>
    symm
    apply List.filter_eq_self.2
    intro y hy
    simp only [decide_eq_true_eq]
    rintro rfl
    exact hm ((I.mem (fun h => h.elim hs hx)).2 hy)

theorem finish_highS {h x : El} (I : Inv T (fun x => S x ∨ x = h)) (hs : S x) (hx : x ≠ h) :
    (finish T h).high x = T.high x := by
  simp only [finish]
  rw [set1_ne _ _ hx]
  exact if_neg (I.cut x h (Or.inl hs))

/-- Lower part after the upper list was cleared. -/
theorem disLower_spec {h : El} (I : Inv T (fun x => S x ∨ x = h)) (ha : T.alive h = true) :
    ∃ T2, disLower { T with high := set1 T.high h [] } h = some T2 ∧ T2.untie h = finish T h := by
  have hnl : h ∉ T.low h := I.cut h h (Or.inr rfl)
  unfold disLower
  by_cases hc : 0 < h.ty ∨ T.cn = true
  · rw [if_pos (show 0 < h.ty ∨ ({ T with high := set1 T.high h [] } : Topo).cn = true from hc)]
    rw [show ({ T with high := set1 T.high h [] } : Topo).lcOf h = some (T.low h) from if_pos ⟨ha, hc⟩]
    simp only
    rw [lowerLoop_spec (h := h) (T.low h) _ (by
      intro x hx
      have hxh : x ≠ h := by rintro rfl; exact hnl hx
      have := I.hcOf_of_low hx
      unfold Topo.hcOf at this ⊢
      split at this
      · next hc => rw [if_pos hc]
      · cases this)]
    simp only
    refine ⟨_, by unfold Topo.modLow; rw [show ({ T with high := fun x => if x ∈ T.low h then eraseAll h (set1 T.high h [] x) else set1 T.high h [] x } : Topo).lcOf h = some (T.low h) from if_pos ⟨ha, hc⟩], ?_⟩
    unfold Topo.untie finish
    simp only
    congr 1
    · funext x; by_cases hx : x = h
      · subst hx; simp [set1]
      · simp [set1, hx]
    · funext x; by_cases hx : x = h
      · subst hx; simp [set1]
      · simp only [set1_ne _ _ hx]
        split
        · exact eraseAll_eq _ _
        · rfl
  · rw [if_neg (show ¬ (0 < h.ty ∨ ({ T with high := set1 T.high h [] } : Topo).cn = true) from hc)]
    refine ⟨_, rfl, ?_⟩
    have hl : T.low h = [] := by
      cases e : T.low h with
      | nil => rfl
      | cons y ys =>
        exfalso
        apply hc; right
        exact ((I.lowTy h y (by rw [e]; simp)).2 (by omega)).1
    unfold Topo.untie finish
    simp only [hl]
    congr 1
    funext x; by_cases hx : x = h
    · subst hx; simp [set1]
    · simp [set1_ne _ _ hx]

theorem finish_inv {h : El} (I : Inv T (fun x => S x ∨ x = h)) : Inv (finish T h) S where
  tyLe x hx := by
    by_cases e : x = h
    · subst e; simp [finish, set1] at hx
    · exact I.tyLe x (by simpa [finish, set1, e] using hx)
  dead x hx := by
    by_cases e : x = h
    · subst e; simp [finish, set1]
    · obtain ⟨h1, h2, h3⟩ := I.dead x (by simpa [finish, set1, e] using hx)
      simp [finish, set1, e, h1, h2, h3]
  lastLt x hx := by
    by_cases e : x = h
    · subst e; simp [finish, set1] at hx
    · exact I.lastLt x (by simpa [finish, set1, e] using hx)
  lowTy x y hy := by
    by_cases e : x = h
    · subst e; simp [finish, set1] at hy
    · exact I.lowTy x y (by simpa [finish, set1, e] using hy)
  mirror a b ha := by
    by_cases e : a = h
    · subst e
      have h1 : (finish T a).high a = [] := by simp [finish, set1]
      rw [h1]
      simp only [List.count_nil]
      apply List.count_eq_zero.2
      by_cases e' : b = a
      · subst e'; simp [finish, set1]
      · simpa [finish, set1, e'] using I.cut a b (Or.inr rfl)
    · rw [finish_high I ha e]
      by_cases e' : b = h
      · subst e'; rw [count_filter_self]; simp [finish, set1]
      · rw [count_filter_ne _ e']
        have h1 : (finish T h).low b = T.low b := by simp [finish, set1, e']
        rw [h1]
        exact I.mirror a b (fun h => h.elim ha e)
  cut a b ha hm := by
    by_cases e : b = h
    · subst e; simp [finish, set1] at hm
    · exact I.cut a b (Or.inl ha) (by simpa [finish, set1, e] using hm)

/-! ## Removal of a set of elements -/

/-- `T'` is `T` without the elements of `D`. -/
structure Removed (T : Topo) (S D : El → Prop) (T' : Topo) : Prop where
  inv : Inv T' S
  cn : T'.cn = T.cn
  last : T'.last = T.last
  hide : T'.hide = T.hide
  alive : ∀ x, T'.alive x = true ↔ T.alive x = true ∧ ¬ D x
  hidden : ∀ x, T'.alive x = true → T'.hidden x = T.hidden x
  low : ∀ x, T'.alive x = true → (T'.low x).Perm ((T.low x).filter T'.alive)
  high : ∀ x, T'.alive x = true → ¬ S x → (T'.high x).Perm ((T.high x).filter T'.alive)
  highS : ∀ x, S x → T'.high x = T.high x

theorem filter_alive (I : Inv T S) (l : List El) (h : ∀ x ∈ l, T.alive x = true) :
    l.filter T.alive = l := List.filter_eq_self.2 h

theorem Removed.rfl' (I : Inv T S) : Removed T S (fun _ => False) T where
  inv := I
  cn := rfl
  last := rfl
  hide := rfl
  alive x := by simp
  hidden _ _ := rfl
  low x _ := by rw [List.filter_eq_self.2 (fun y hy => (I.lowLive hy).1)]
  high x _ hs := by rw [List.filter_eq_self.2 (fun y hy => (I.highLive hs hy).2)]
  highS _ _ := rfl

theorem Removed.congr {D D' : El → Prop} (R : Removed T S D T') (h : ∀ x, D x ↔ D' x) :
    Removed T S D' T' := by
  have : D = D' := funext fun x => propext (h x)
  exact this ▸ R

theorem Removed.mono {D : El → Prop} (R : Removed T S D T') {x : El} (h : T'.alive x = true) :
    T.alive x = true := ((R.alive x).1 h).1

theorem filter_filter_of {p q : El → Bool} (h : ∀ x, p x = true → q x = true) (l : List El) :
    (l.filter q).filter p = l.filter p := by
  rw [List.filter_filter]
  congr 1
  funext x
  cases hp : p x with
  | false => simp
  | true => simp [h x hp]

theorem Removed.trans {T1 T2 : Topo} {D D' : El → Prop} (R : Removed T S D T1)
    (R' : Removed T1 S D' T2) : Removed T S (fun x => D x ∨ D' x) T2 where
  inv := R'.inv
  cn := R'.cn.trans R.cn
  last := R'.last.trans R.last
  hide := R'.hide.trans R.hide
  alive x := by rw [R'.alive, R.alive]; simp only [not_or, and_assoc]
  hidden x h := by rw [R'.hidden x h, R.hidden x (R'.mono h)]
  low x h := by
    refine (R'.low x h).trans ?_
    refine ((R.low x (R'.mono h)).filter _).trans ?_
    rw [filter_filter_of (fun y => R'.mono)]
  high x h hs := by
    refine (R'.high x h hs).trans ?_
    refine ((R.high x (R'.mono h) hs).filter _).trans ?_
    rw [filter_filter_of (fun y => R'.mono)]
  highS x hs := by rw [R'.highS x hs, R.highS x hs]

/-- Membership in the lists of the smaller mesh. -/
theorem Removed.mem_high {D : El → Prop} (R : Removed T S D T') {x y : El}
    (hx : T'.alive x = true) (hs : ¬ S x) :
    y ∈ T'.high x ↔ y ∈ T.high x ∧ T'.alive y = true := by
  rw [(R.high x hx hs).mem_iff, List.mem_filter]

theorem Removed.sub_high {D : El → Prop} (R : Removed T S D T') {x y : El}
    (h : y ∈ T'.high x) : y ∈ T.high x := by
  by_cases hs : S x
  · rwa [← R.highS x hs]
  · exact ((R.mem_high (R.inv.highLive hs h).1 hs).1 h).1

/-! ## Elements built on an element -/

theorem above_mono {h x : El} (hsub : ∀ y z, z ∈ T'.high y → z ∈ T.high y) (a : Above T' h x) :
    Above T h x := by
  induction a with
  | refl => exact .refl
  | step _ ht hm ih => exact .step ih ht (hsub _ _ hm)

theorem above_perm {h x : El} (P : PermEq T T') : Above T' h x ↔ Above T h x :=
  ⟨above_mono fun y z hz => (P.high y).mem_iff.1 hz, above_mono fun y z hz => (P.high y).mem_iff.2 hz⟩

theorem above_trans {h y x : El} (a : Above T h y) (b : Above T y x) : Above T h x := by
  induction b with
  | refl => exact a
  | step _ ht hm ih => exact .step ih ht hm

theorem above_head {h x : El} : Above T h x ↔ x = h ∨ h.ty < 3 ∧ ∃ u ∈ T.high h, Above T u x := by
  constructor
  · intro a
    induction a with
    | refl => exact Or.inl rfl
    | step a ht hm ih =>
      right
      rcases ih with rfl | ⟨h3, u, hu, b⟩
      · exact ⟨ht, _, hm, .refl⟩
      · exact ⟨h3, u, hu, .step b ht hm⟩
  · rintro (rfl | ⟨h3, u, hu, b⟩)
    · exact .refl
    · exact above_trans (.step .refl h3 hu) b

theorem above_ty {h x : El} (I : Inv T S) (hS : ∀ x, S x → x.ty < h.ty) (a : Above T h x) :
    h.ty ≤ x.ty ∧ ¬ S x := by
  induction a with
  | refl => exact ⟨Nat.le_refl _, fun h' => absurd (hS _ h') (Nat.lt_irrefl _)⟩
  | step _ ht hm ih =>
    have := (I.highTy ih.2 hm).1 ht
    refine ⟨by omega, fun h' => ?_⟩
    have := hS _ h'
    omega

theorem above_alive {h x : El} (I : Inv T S) (hS : ∀ x, S x → x.ty < h.ty)
    (ha : T.alive h = true) (a : Above T h x) : T.alive x = true := by
  cases a with
  | refl => exact ha
  | step a ht hm => exact (I.highLive (above_ty I hS a).2 hm).2

/-- In a mesh from which an up-closed set was removed, the elements built on `u` are those of the
original mesh that are left. -/
theorem above_removed {D : El → Prop} {u x : El} (I : Inv T S) (R : Removed T S D T')
    (hS : ∀ x, S x → x.ty < u.ty) (hu : T'.alive u = true)
    (hD : ∀ y z, D y → y.ty < 3 → z ∈ T.high y → D z) :
    Above T' u x ↔ Above T u x ∧ T'.alive x = true := by
  constructor
  · intro a
    exact ⟨above_mono (fun _ _ => R.sub_high) a, above_alive R.inv hS hu a⟩
  · rintro ⟨a, hx⟩
    induction a with
    | refl => exact .refl
    | @step y x a ht hm ih =>
      have hy : T'.alive y = true := by
        refine (R.alive y).2 ⟨?_, fun hd => ((R.alive x).1 hx).2 (hD y x hd ht hm)⟩
        exact above_alive I hS ((R.alive u).1 hu).1 a
      exact .step (ih hy) ht ((R.mem_high hy (above_ty I hS a).2).2 ⟨hm, hx⟩)

/-! ## Destroy -/

/-- `Destroy`, given what the deletion of the upper elements does. -/
theorem destroyWith_spec {del : Topo → El → Option Topo} {h : El} {D : El → Prop} (I : Inv T S)
    (hs : ¬ S h) (ha : T.alive h = true) (hD3 : ¬ h.ty < 3 → ∀ x, ¬ D x) (hDh : ¬ D h)
    (hloop : h.ty < 3 → ∀ T0, PermEq T T0 → ∀ (d : List Nat) (vs : List El),
      d.map ((T0.high h)[·]?) = vs.map some → vs.Nodup → (∀ u, u ∈ vs ↔ u ∈ T0.high h) →
      ∃ T2, forEach (delAt del h (!(cutOff T0 h).hid h)) d (cutOff T0 h) = some T2 ∧
        Removed (cutOff T0 h) (fun x => S x ∨ x = h) D T2) :
    ∃ T', destroyWith flip del T h = some T' ∧ Removed T S (fun x => x = h ∨ D x) T' := by
  obtain ⟨T0, e0, P0, -, hsame⟩ := swapBackIf_spec (flip := flip) I ha
  have I0 := I.perm P0
  have ha0 : T0.alive h = true := by rw [P0.alive]; exact ha
  have Ic := cutOff_inv I0 hs
  have key : ∃ T2, disUpper del T0 h = some { T2 with high := set1 T2.high h [] } ∧
      Removed (cutOff T0 h) (fun x => S x ∨ x = h) D T2 := by
    unfold disUpper
    by_cases hc : h.ty < 3 ∨ T0.cn = true
    · rw [if_pos hc, show T0.hcOf h = some (T0.high h) from if_pos ⟨ha0, hc⟩]
      obtain ⟨d, vs, er, hd, hn, hv⟩ := rmLoop_inv I0 hs
      simp only [er]
      have fin : ∀ T2, Removed (cutOff T0 h) (fun x => S x ∨ x = h) D T2 →
          T2.modHigh h (fun _ => []) = some { T2 with high := set1 T2.high h [] } := by
        intro T2 R
        have : T2.hcOf h = some (T2.high h) :=
          if_pos ⟨(R.alive h).2 ⟨ha0, hDh⟩, by rw [R.cn]; exact hc⟩
        unfold Topo.modHigh; rw [this]
      by_cases h3 : h.ty < 3
      · obtain ⟨T2, e2, R2⟩ := hloop h3 T0 P0 d vs hd hn hv
        rw [if_pos h3, e2]
        exact ⟨T2, fin T2 R2, R2⟩
      · rw [if_neg h3]
        have R2 : Removed (cutOff T0 h) (fun x => S x ∨ x = h) D (cutOff T0 h) :=
          (Removed.rfl' Ic).congr fun x => ⟨False.elim, hD3 h3 x⟩
        exact ⟨_, fin _ R2, R2⟩
    · rw [if_neg hc]
      have h3 : ¬ h.ty < 3 := fun h' => hc (Or.inl h')
      have hnil : T0.high h = [] := by
        cases e : T0.high h with
        | nil => rfl
        | cons y ys =>
          exfalso; apply hc; right
          have := I0.tyLe h ha0
          exact ((I0.highTy hs (by rw [e]; exact List.mem_cons_self ..)).2 (by omega)).1
      have hcut : cutOff T0 h = T0 := by
        unfold cutOff
        have : (fun b => (T0.low b).filter fun x => decide (x ≠ h)) = T0.low := by
          funext b
          apply List.filter_eq_self.2
          intro x hx
          simp only [decide_eq_true_eq]
          rintro rfl
          have := (I0.mem hs).1 hx
          rw [hnil] at this; cases this
        rw [this]
      refine ⟨cutOff T0 h, ?_, (Removed.rfl' Ic).congr fun x => ⟨False.elim, hD3 h3 x⟩⟩
      rw [hcut]
      have : set1 T0.high h [] = T0.high := by
        funext x; by_cases hx : x = h
        · subst hx; rw [set1_same, hnil]
        · rw [set1_ne _ _ hx]
      rw [this]
  obtain ⟨T2, e2, R⟩ := key
  have ha2 : T2.alive h = true := (R.alive h).2 ⟨ha0, hDh⟩
  obtain ⟨T3, e3, hf⟩ := disLower_spec R.inv ha2
  refine ⟨finish T2 h, ?_, ?_⟩
  · unfold destroyWith
    rw [if_pos ha, e0]
    simp only [e2, e3, hf]
  have hal : ∀ x, (finish T2 h).alive x = true ↔ x ≠ h ∧ T2.alive x = true := by
    intro x
    show set1 T2.alive h false x = true ↔ _
    by_cases hx : x = h
    · subst hx; simp [set1]
    · rw [set1_ne _ _ hx]; simp [hx]
  have hflt : ∀ l : List El, (l.filter T2.alive).filter (fun y => decide (y ≠ h)) =
      l.filter (finish T2 h).alive := by
    intro l
    rw [List.filter_filter]
    congr 1
    funext x
    rw [Bool.eq_iff_iff, hal]
    simp
  refine ⟨finish_inv R.inv, R.cn.trans P0.cn, R.last.trans P0.last, R.hide.trans P0.hide,
    ?_, ?_, ?_, ?_, ?_⟩
  · intro x
    rw [hal, R.alive]
    show _ ∧ T0.alive x = true ∧ _ ↔ _
    rw [P0.alive, not_or]
    constructor
    · rintro ⟨h1, h2, h3⟩; exact ⟨h2, h1, h3⟩
    · rintro ⟨h2, h1, h3⟩; exact ⟨h1, h2, h3⟩
  · intro x hx
    obtain ⟨h1, h2⟩ := (hal x).1 hx
    show set1 T2.hidden h false x = _
    rw [set1_ne _ _ h1, R.hidden x h2]
    exact congrFun P0.hidden x
  · intro x hx
    obtain ⟨h1, h2⟩ := (hal x).1 hx
    show (set1 T2.low h [] x).Perm _
    rw [set1_ne _ _ h1]
    refine (R.low x h2).trans ?_
    refine (((P0.low x).filter _).filter _).trans ?_
    rw [← hflt, List.filter_filter, List.filter_filter]
    simp only [Bool.and_comm]
    exact .refl _
  · intro x hx hsx
    obtain ⟨h1, h2⟩ := (hal x).1 hx
    rw [finish_high R.inv hsx h1]
    refine ((R.high x h2 (fun h => h.elim hsx h1)).filter _).trans ?_
    rw [hflt]
    exact (P0.high x).filter _
  · intro x hsx
    have h1 : x ≠ h := by rintro rfl; exact hs hsx
    rw [finish_highS R.inv hsx h1, R.highS x (Or.inl hsx)]
    exact (hsame x (Or.inl (I.cut x h hsx))).2

/-- The loop over the upper elements. -/
theorem delLoop_spec {del : Topo → El → Option Topo} {h : El} {A : El → Prop} {L : List El} {b : Bool}
    (hdel : ∀ T u, Inv T S → T.hide = false → T.alive u = true → A u →
      ∃ T', del T u = some T' ∧ Removed T S (Above T u) T')
    (hAty : ∀ u, A u → u.ty = h.ty + 1) (hSty : ∀ x, S x → x.ty < h.ty + 1) (hs : S h)
    (hb : b = true) :
    ∀ (d : List Nat) (vs : List El) (T : Topo), Inv T S → T.hide = false → T.high h = L →
      d.map (L[·]?) = vs.map some → vs.Nodup → (∀ u ∈ vs, A u ∧ T.alive u = true) →
      ∃ T2, forEach (delAt del h b) d T = some T2 ∧
        Removed T S (fun x => ∃ u ∈ vs, Above T u x) T2
  | [], vs, T, I, _, _, hd, _, _ => by
    have : vs = [] := by simpa using hd.symm
    subst this
    exact ⟨T, rfl, (Removed.rfl' I).congr fun x => by simp⟩
  | i :: d, vs, T, I, hh, hL, hd, hn, hv => by
    cases vs with
    | nil => simp at hd
    | cons u us =>
      simp only [List.map_cons, List.cons.injEq] at hd
      obtain ⟨hnu, hn'⟩ := List.nodup_cons.1 hn
      obtain ⟨hAu, hau⟩ := hv u (by simp)
      obtain ⟨T1, e1, R1⟩ := hdel T u I hh hau hAu
      have hSu : ∀ x, S x → x.ty < u.ty := fun x hx => by rw [hAty u hAu]; exact hSty x hx
      have hv1 : ∀ v ∈ us, A v ∧ T1.alive v = true := by
        intro v hvm
        obtain ⟨hAv, hav⟩ := hv v (by simp [hvm])
        refine ⟨hAv, (R1.alive v).2 ⟨hav, fun a => ?_⟩⟩
        cases a with
        | refl => exact hnu hvm
        | step a ht hm =>
          have h1 := above_ty I hSu a
          have h2 := (I.highTy h1.2 hm).1 ht
          have h3 := hAty u hAu
          have h4 := hAty v hAv
          omega
      obtain ⟨T2, e2, R2⟩ := delLoop_spec hdel hAty hSty hs hb d us T1 R1.inv
        (R1.hide.trans hh) ((R1.highS h hs).trans hL) hd.2 hn' hv1
      refine ⟨T2, ?_, (R1.trans R2).congr fun x => ?_⟩
      · have : delAt del h b T i = some T1 := by
          unfold delAt
          rw [hL, hd.1]
          simp only [hb, Bool.true_or, if_true, e1]
        rw [forEach_cons this, e2]
      · constructor
        · rintro (a | ⟨v, hv', a⟩)
          · exact ⟨u, by simp, a⟩
          · exact ⟨v, by simp [hv'], above_mono (fun _ _ => R1.sub_high) a⟩
        · rintro ⟨v, hv', a⟩
          by_cases hx : Above T u x
          · exact Or.inl hx
          right
          rcases List.mem_cons.1 hv' with rfl | hvm
          · exact absurd a hx
          · refine ⟨v, hvm, ?_⟩
            obtain ⟨hAv, hav⟩ := hv1 v hvm
            have hSv : ∀ x, S x → x.ty < v.ty := fun x hx => by rw [hAty v hAv]; exact hSty x hx
            refine (above_removed I R1 hSv hav (fun y z hy ht hz => .step hy ht hz)).2 ⟨a, ?_⟩
            exact (R1.alive x).2 ⟨above_alive I hSv (hv v (by simp [hvm])).2 a, hx⟩

theorem above_cutOff {h u x : El} : Above (cutOff T h) u x ↔ Above T u x :=
  ⟨above_mono fun _ _ hz => hz, above_mono fun _ _ hz => hz⟩

/-- `Delete` outside modification removes exactly the elements built on the element. -/
theorem delete_spec : ∀ (n : Nat) (T : Topo) (S : El → Prop) (h : El), Inv T S → T.hide = false →
    T.alive h = true → (∀ x, S x → x.ty < h.ty) → 4 ≤ n + h.ty →
    ∃ T', deleteF flip n T h = some T' ∧ Removed T S (Above T h) T'
  | 0, T, S, h, I, _, ha, _, hn => by have := I.tyLe h ha; omega
  | n + 1, T, S, h, I, hh, ha, hS, hn => by
    have hs : ¬ S h := fun h' => absurd (hS h h') (Nat.lt_irrefl _)
    have hup : ∀ u ∈ T.high h, h.ty < 3 → u.ty = h.ty + 1 := fun u hu h3 => (I.highTy hs hu).1 h3
    obtain ⟨T', e, R⟩ := destroyWith_spec (flip := flip) (del := deleteF flip n) (h := h)
      (D := fun x => h.ty < 3 ∧ ∃ u ∈ T.high h, Above T u x) I hs ha
      (fun h3 x hx => h3 hx.1)
      (by
        rintro ⟨h3, u, hu, a⟩
        have h1 := hup u hu h3
        have := (above_ty I (fun x hx => by have := hS x hx; omega) a).1
        omega)
      (by
        intro h3 T0 P0 d vs hd hnd hv
        have I0 := I.perm P0
        have Ic := cutOff_inv I0 hs
        obtain ⟨T2, e2, R2⟩ := delLoop_spec (S := fun x => S x ∨ x = h) (del := deleteF flip n)
          (h := h) (A := fun u => u ∈ T0.high h) (L := T0.high h) (b := !(cutOff T0 h).hid h)
          (by
            intro T u I' hh' hu hA
            have hut := (I0.highTy hs hA).1 h3
            refine delete_spec n T _ u I' hh' hu ?_ (by omega)
            rintro x (hx | rfl)
            · have := hS x hx; omega
            · omega)
          (fun u hu => (I0.highTy hs hu).1 h3)
          (by
            rintro x (hx | rfl)
            · have := hS x hx; omega
            · omega)
          (Or.inr rfl)
          (by
            show (!(T0.hide && T0.hidden h)) = true
            rw [P0.hide, hh]; rfl)
          d vs (cutOff T0 h) Ic (P0.hide.trans hh) rfl hd hnd
          (fun u hu => ⟨(hv u).1 hu, (I0.highLive hs ((hv u).1 hu)).2⟩)
        refine ⟨T2, e2, R2.congr fun x => ?_⟩
        constructor
        · rintro ⟨u, hu, a⟩
          exact ⟨h3, u, (P0.high h).mem_iff.1 ((hv u).1 hu), (above_perm P0).1 (above_cutOff.1 a)⟩
        · rintro ⟨_, u, hu, a⟩
          exact ⟨u, (hv u).2 ((P0.high h).mem_iff.2 hu), above_cutOff.2 ((above_perm P0).2 a)⟩)
    refine ⟨T', ?_, R.congr fun x => above_head.symm⟩
    unfold deleteF
    rw [if_neg (by rw [hh]; simp)]
    exact e

end Verif.Topology
