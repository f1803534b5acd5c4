import Verif.Topology.Destroy

/-!
# Hiding, deletion during modification, end of modification
-/

namespace Verif.Topology

variable {T T' : Topo} {S : El → Prop} {flip : Topo → El → Bool}

/-- Equality up to the order of lists and hidden states. -/
structure PermEqH (T T' : Topo) : Prop where
  cn : T'.cn = T.cn
  alive : T'.alive = T.alive
  last : T'.last = T.last
  hide : T'.hide = T.hide
  low : ∀ x, (T'.low x).Perm (T.low x)
  high : ∀ x, (T'.high x).Perm (T.high x)

theorem PermEqH.refl (T : Topo) : PermEqH T T :=
  ⟨rfl, rfl, rfl, rfl, fun _ => .refl _, fun _ => .refl _⟩

theorem PermEqH.trans {T1 T2 T3 : Topo} (h : PermEqH T1 T2) (h' : PermEqH T2 T3) : PermEqH T1 T3 :=
  ⟨h'.cn.trans h.cn, h'.alive.trans h.alive, h'.last.trans h.last, h'.hide.trans h.hide,
    fun x => (h'.low x).trans (h.low x), fun x => (h'.high x).trans (h.high x)⟩

theorem PermEq.toH (P : PermEq T T') : PermEqH T T' :=
  ⟨P.cn, P.alive, P.last, P.hide, P.low, P.high⟩

theorem Inv.permH (I : Inv T S) (P : PermEqH T T')
    (hd : ∀ x, T.alive x = false → T'.hidden x = false) : Inv T' S where
  tyLe x h := I.tyLe x (by rw [← P.alive]; exact h)
  dead x h := by
    have h' : T.alive x = false := by rw [← P.alive]; exact h
    obtain ⟨h1, h2, h3⟩ := I.dead x h'
    refine ⟨?_, ?_, hd x h'⟩
    · have := P.low x; rw [h1] at this; exact this.eq_nil
    · have := P.high x; rw [h2] at this; exact this.eq_nil
  lastLt x h := by rw [P.last]; exact I.lastLt x (by rw [← P.alive]; exact h)
  lowTy x y h := by rw [P.cn]; exact I.lowTy x y ((P.low x).mem_iff.1 h)
  mirror a b h := by rw [(P.low b).count_eq, (P.high a).count_eq]; exact I.mirror a b h
  cut a b h h' := I.cut a b h ((P.low b).mem_iff.1 h')

theorem hideEl_spec {h : El} (I : Inv T S) (ha : T.alive h = true) :
    ∃ T', T.hideEl flip h = some T' ∧ PermEqH T T' ∧
      (∀ x, T'.hidden x = true ↔ T.hidden x = true ∨ x = h) ∧
      (∀ x, (x ∉ T.low h ∨ T.hid x = true) → T'.high x = T.high x) := by
  unfold Topo.hideEl
  rw [if_pos ha]
  by_cases hh : T.hidden h = true
  · rw [if_pos hh]
    refine ⟨T, rfl, .refl _, fun x => ⟨Or.inl, ?_⟩, fun _ _ => rfl⟩
    rintro (h1 | rfl)
    · exact h1
    · exact hh
  · rw [if_neg hh]
    obtain ⟨T1, e1, P1, -, h1⟩ := swapBackIf_spec (flip := flip) I ha
    rw [e1]
    refine ⟨_, rfl, ⟨P1.cn, P1.alive, P1.last, P1.hide, P1.low, P1.high⟩, fun x => ?_,
      fun x hx => (h1 x hx).2⟩
    by_cases hx : x = h
    · subst hx; simp [set1]
    · simp [set1, hx, P1.hidden]

/-- Deletion while the mesh is modified. -/
theorem deleteHide_spec : ∀ (n : Nat) (T : Topo) (h : El), Inv T S → T.hide = true →
    T.alive h = true → ¬ S h → (∀ x, S x → x.ty < h.ty) → 4 ≤ n + h.ty →
    ∃ T', deleteF flip n T h = some T' ∧ PermEqH T T' ∧
      (∀ x, T'.hidden x = true → T.hidden x = true ∨ Above T h x) ∧
      (∀ x, T.hidden x = true → T'.hidden x = true) ∧
      T'.hidden h = true ∧
      (∀ x y, T'.hidden x = true → (T.hidden x = false ∨ x = h) → x.ty < 3 → y ∈ T.high x →
        T'.hidden y = true) ∧
      (∀ x, T.hidden x = true → T'.high x = T.high x)
  | 0, T, h, I, _, ha, _, _, hn => by have := I.tyLe h ha; omega
  | n + 1, T, h, I, hh, ha, hs, hS, hn => by
    obtain ⟨T1, e1, P1, hid1, hi1⟩ := hideEl_spec (flip := flip) I ha
    have hd1 : ∀ x, T.alive x = false → T1.hidden x = false := by
      intro x hx
      cases h2 : T1.hidden x with
      | false => rfl
      | true =>
        rcases (hid1 x).1 h2 with h3 | rfl
        · rw [(I.dead x hx).2.2] at h3; cases h3
        · rw [ha] at hx; cases hx
    have I1 := I.permH P1 hd1
    have hh1 : T1.hidden h = true := (hid1 h).2 (Or.inr rfl)
    have ha1 : T1.alive h = true := by rw [P1.alive]; exact ha
    have hsame1 : ∀ x, T.hidden x = true → T1.high x = T.high x := fun x hx =>
      hi1 x (Or.inr (by unfold Topo.hid; rw [hh, hx]; rfl))
    unfold deleteF
    rw [if_pos hh, e1]
    simp only
    by_cases h3 : h.ty < 3
    · rw [if_pos h3, show T1.hcOf h = some (T1.high h) from if_pos ⟨ha1, Or.inl h3⟩]
      simp only
      -- loop over the positions
      have loop : ∀ (l : List Nat) (U : Topo), (∀ i ∈ l, i < (T1.high h).length) →
          PermEqH T1 U → Inv U S → (∀ x, U.hidden x = true → T1.hidden x = true ∨ Above T1 h x) →
          (∀ x, T1.hidden x = true → U.hidden x = true) →
          (∀ x y, U.hidden x = true → T1.hidden x = false → x.ty < 3 → y ∈ T1.high x →
            U.hidden y = true) →
          (∀ x, T1.hidden x = true → U.high x = T1.high x) →
          ∃ T', forEach (fun T i => match (T.high h)[i]? with
              | none => none
              | some u => if T.hidden u then some T else deleteF flip n T u) l U = some T' ∧
            PermEqH T1 T' ∧ (∀ x, T'.hidden x = true → T1.hidden x = true ∨ Above T1 h x) ∧
            (∀ x, U.hidden x = true → T'.hidden x = true) ∧
            (∀ i ∈ l, ∀ u, (T1.high h)[i]? = some u → T'.hidden u = true) ∧
            (∀ x y, T'.hidden x = true → T1.hidden x = false → x.ty < 3 → y ∈ T1.high x →
              T'.hidden y = true) ∧
            (∀ x, T1.hidden x = true → T'.high x = T1.high x) := by
        intro l
        induction l with
        | nil =>
          intro U _ PU IU hA hB hC hD
          exact ⟨U, rfl, PU, hA, fun x hx => hx, fun i hi => absurd hi (by simp), hC, hD⟩
        | cons i l ih =>
          intro U hl PU IU hA hB hC hD
          have hi : i < (T1.high h).length := hl i (by simp)
          generalize hu : (T1.high h)[i] = u
          have hum : u ∈ T1.high h := by rw [← hu]; exact List.getElem_mem hi
          have hUi : (U.high h)[i]? = some u := by
            rw [hD h hh1, List.getElem?_eq_getElem hi, hu]
          have huT1 := (I1.highTy hs hum).1 h3
          have hual := (I1.highLive hs hum).2
          have step : ∃ V, (match (U.high h)[i]? with
              | none => none
              | some u => if U.hidden u then some U else deleteF flip n U u) = some V ∧
              PermEqH T1 V ∧ Inv V S ∧ (∀ x, V.hidden x = true → T1.hidden x = true ∨ Above T1 h x) ∧
              (∀ x, U.hidden x = true → V.hidden x = true) ∧ V.hidden u = true ∧
              (∀ x y, V.hidden x = true → T1.hidden x = false → x.ty < 3 → y ∈ T1.high x →
                V.hidden y = true) ∧
              (∀ x, T1.hidden x = true → V.high x = T1.high x) := by
            rw [hUi]
            simp only
            by_cases huh : U.hidden u = true
            · rw [if_pos huh]
              exact ⟨U, rfl, PU, IU, hA, fun _ hx => hx, huh, hC, hD⟩
            · rw [if_neg huh]
              obtain ⟨V, eV, PV, vA, vB, vu, vC, vD⟩ := deleteHide_spec n U u IU
                (by rw [PU.hide, P1.hide]; exact hh) (by rw [PU.alive]; exact hual)
                (fun h' => by have := hS u h'; omega) (fun x hx => by have := hS x hx; omega) (by omega)
              have sub : ∀ y z, z ∈ U.high y → z ∈ T1.high y := fun y z hz => (PU.high y).mem_iff.1 hz
              refine ⟨V, eV, PU.trans PV, IU.permH PV ?_, ?_, vB, vu, ?_, ?_⟩
              · intro x hx
                cases h2 : V.hidden x with
                | false => rfl
                | true =>
                  rcases vA x h2 with h4 | h4
                  · rw [(IU.dead x hx).2.2] at h4; cases h4
                  · have := above_alive IU (h := u) (fun x hx => by have := hS x hx; omega)
                      (by rw [PU.alive]; exact hual) h4
                    rw [hx] at this; cases this
              · intro x hx
                rcases vA x hx with h4 | h4
                · exact hA x h4
                · right
                  exact above_trans (.step .refl h3 hum) (above_mono sub h4)
              · intro x y hx hx1 hxt hy
                by_cases hxu : U.hidden x = true
                · exact vB y (hC x y hxu hx1 hxt hy)
                · exact vC x y hx (Or.inl (by simpa using hxu)) hxt ((PU.high x).mem_iff.2 hy)
              · intro x hx
                rw [vD x (hB x hx), hD x hx]
          obtain ⟨V, eV, PV, IV, vA, vB, vu, vC, vD⟩ := step
          obtain ⟨W, eW, PW, wA, wB, wu, wC, wD⟩ := ih V (fun j hj => hl j (by simp [hj])) PV IV vA
            (fun x hx => vB x (hB x hx)) vC vD
          refine ⟨W, ?_, PW, wA, fun x hx => wB x (vB x hx), ?_, wC, wD⟩
          · rw [forEach_cons eV]; exact eW
          · intro j hj v hv
            rcases List.mem_cons.1 hj with rfl | hj
            · rw [List.getElem?_eq_getElem hi, hu] at hv
              cases hv
              exact wB _ vu
            · exact wu j hj v hv
      obtain ⟨T', e', P', hA, hB, hu, hC, hD⟩ := loop (List.range (T1.high h).length) T1
        (fun i hi => List.mem_range.1 hi) (.refl _) I1 (fun x hx => Or.inl hx) (fun _ hx => hx)
        (fun x y hx hx' => by rw [hx] at hx'; cases hx') (fun _ _ => rfl)
      have sub : ∀ y z, z ∈ T1.high y → z ∈ T.high y := fun y z hz => (P1.high y).mem_iff.1 hz
      refine ⟨T', e', P1.trans P', ?_, ?_, hB h hh1, ?_, ?_⟩
      · intro x hx
        rcases hA x hx with h4 | h4
        · rcases (hid1 x).1 h4 with h5 | rfl
          · exact Or.inl h5
          · exact Or.inr .refl
        · exact Or.inr (above_mono sub h4)
      · intro x hx
        exact hB x ((hid1 x).2 (Or.inl hx))
      · intro x y hx hx0 hxt hy
        have hy1 := (P1.high x).mem_iff.2 hy
        by_cases hxh : x = h
        · subst hxh
          obtain ⟨i, hi, he⟩ := List.getElem_of_mem hy1
          exact hu i (List.mem_range.2 hi) y (by rw [List.getElem?_eq_getElem hi, he])
        · refine hC x y hx ?_ hxt hy1
          cases h2 : T1.hidden x with
          | false => rfl
          | true =>
            rcases (hid1 x).1 h2 with h4 | h4
            · rcases hx0 with h5 | h5
              · rw [h5] at h4; cases h4
              · exact absurd h5 hxh
            · exact absurd h4 hxh
      · intro x hx
        rw [hD x ((hid1 x).2 (Or.inl hx)), hsame1 x hx]
    · rw [if_neg h3]
      refine ⟨T1, rfl, P1, ?_, fun x hx => (hid1 x).2 (Or.inl hx), hh1, ?_, hsame1⟩
      · intro x hx
        rcases (hid1 x).1 hx with h5 | rfl
        · exact Or.inl h5
        · exact Or.inr .refl
      · intro x y hx hx0 hxt
        rcases (hid1 x).1 hx with h5 | rfl
        · rcases hx0 with h6 | rfl
          · rw [h5] at h6; cases h6
          · exact absurd hxt h3
        · exact absurd hxt h3

/-! ## EndModification -/

/-- `Destroy` of a hidden element on which no hidden element is built removes only this element. -/
theorem destroyHidden_spec {h : El} {del : Topo → El → Option Topo} (I : Inv T (fun _ => False))
    (hh : T.hide = true) (ha : T.alive h = true) (hid : T.hidden h = true)
    (hup : h.ty < 3 → ∀ u ∈ T.high h, T.hidden u = false) :
    ∃ T', destroyWith flip del T h = some T' ∧ Removed T (fun _ => False) (fun x => x = h) T' := by
  obtain ⟨T', e, R⟩ := destroyWith_spec (flip := flip) (del := del) (h := h) (D := fun _ => False)
    I (fun h => h) ha (fun _ _ h => h) (fun h => h) (by
      intro h3 T0 P0 d vs hd hn hv
      have I0 := I.perm P0
      refine ⟨cutOff T0 h, ?_, Removed.rfl' (cutOff_inv I0 (fun h => h))⟩
      have hvis : (!(cutOff T0 h).hid h) = false := by
        show (!(T0.hide && T0.hidden h)) = false
        rw [P0.hide, P0.hidden, hh, hid]; rfl
      rw [hvis]
      have : ∀ (d : List Nat) (vs : List El), d.map ((T0.high h)[·]?) = vs.map some →
          (∀ u ∈ vs, u ∈ T0.high h) →
          forEach (delAt del h false) d (cutOff T0 h) = some (cutOff T0 h) := by
        intro d
        induction d with
        | nil => intro _ _ _; rfl
        | cons i d ih =>
          intro vs hd hv
          cases vs with
          | nil => simp at hd
          | cons u us =>
            simp only [List.map_cons, List.cons.injEq] at hd
            have h1 : delAt del h false (cutOff T0 h) i = some (cutOff T0 h) := by
              unfold delAt
              rw [show (cutOff T0 h).high h = T0.high h from rfl, hd.1]
              have hu : (cutOff T0 h).hid u = false := by
                show (T0.hide && T0.hidden u) = false
                rw [P0.hidden, hup h3 u ((P0.high h).mem_iff.1 (hv u (by simp)))]
                simp
              simp [hu]
            rw [forEach_cons h1]
            exact ih us hd.2 (fun v hv' => hv v (by simp [hv']))
      exact this d vs hd (fun u hu => (hv u).1 hu))
  exact ⟨T', e, R.congr fun x => by simp⟩

theorem endType_spec {ty : Nat} (I : Inv T (fun _ => False)) (hh : T.hide = true)
    (hup : ty < 3 → ∀ x, x.ty = ty + 1 → T.hidden x = false) :
    ∃ T', endType flip T ty = some T' ∧
      Removed T (fun _ => False) (fun x => x.ty = ty ∧ T.hidden x = true) T' := by
  have loop : ∀ (l : List Nat) (U : Topo), Inv U (fun _ => False) → U.hide = true →
      (ty < 3 → ∀ x, x.ty = ty + 1 → U.hidden x = false) →
      ∃ T', forEach (endStep flip ty) l U = some T' ∧
        Removed U (fun _ => False) (fun x => x.ty = ty ∧ x.id ∈ l ∧ U.hidden x = true) T' := by
    intro l
    induction l with
    | nil => intro U I _ _; exact ⟨U, rfl, (Removed.rfl' I).congr fun x => by simp⟩
    | cons i l ih =>
      intro U I hh hup
      have step : ∃ V, endStep flip ty U i = some V ∧
          Removed U (fun _ => False) (fun x => x = ⟨ty, i⟩ ∧ U.hidden x = true) V := by
        unfold endStep
        by_cases h : U.alive ⟨ty, i⟩ = true ∧ U.hidden ⟨ty, i⟩ = true
        · rw [if_pos (by simp [h])]
          obtain ⟨V, e, R⟩ := destroyHidden_spec (flip := flip) (del := deleteF flip 4) I hh h.1 h.2
            (fun h3 u hu => hup h3 u ((I.highTy (fun h => h) hu).1 h3))
          refine ⟨V, e, R.congr fun x => ⟨?_, fun h => h.1⟩⟩
          rintro rfl; exact ⟨rfl, h.2⟩
        · rw [if_neg (by simpa using h)]
          refine ⟨U, rfl, (Removed.rfl' I).congr fun x => ⟨False.elim, ?_⟩⟩
          rintro ⟨rfl, hx⟩
          apply h
          refine ⟨?_, hx⟩
          cases h2 : U.alive ⟨ty, i⟩ with
          | true => rfl
          | false => rw [(I.dead _ h2).2.2] at hx; cases hx
      obtain ⟨V, eV, RV⟩ := step
      have hVh : ∀ x, V.hidden x = true ↔ U.hidden x = true ∧ x ≠ ⟨ty, i⟩ := by
        intro x
        cases ha : V.alive x with
        | true =>
          rw [RV.hidden x ha]
          have := ((RV.alive x).1 ha).2
          constructor
          · intro h; exact ⟨h, fun h' => this ⟨h', h⟩⟩
          · exact fun h => h.1
        | false =>
          rw [(RV.inv.dead x ha).2.2]
          simp only [Bool.false_eq_true, false_iff, not_and, ne_eq, Decidable.not_not]
          intro hx
          have hxa : U.alive x = true := by
            cases h2 : U.alive x with
            | true => rfl
            | false => rw [(I.dead _ h2).2.2] at hx; cases hx
          have h3 : ¬ (U.alive x = true ∧ ¬ (x = ⟨ty, i⟩ ∧ U.hidden x = true)) := by
            rw [← RV.alive, ha]; simp
          refine Decidable.byContradiction fun h4 => h3 ⟨hxa, fun h5 => h4 h5.1⟩
      obtain ⟨W, eW, RW⟩ := ih V RV.inv (RV.hide.trans hh) (by
        intro h3 x hx
        cases h2 : V.hidden x with
        | false => rfl
        | true =>
          have := hup h3 x hx
          rw [((hVh x).1 h2).1] at this; cases this)
      refine ⟨W, by rw [forEach_cons eV]; exact eW, (RV.trans RW).congr fun x => ?_⟩
      simp only [hVh]
      constructor
      · rintro (⟨rfl, h2⟩ | ⟨h1, h2, h3, h4⟩)
        · exact ⟨rfl, by simp, h2⟩
        · exact ⟨h1, by simp [h2], h3⟩
      · rintro ⟨h1, h2, h3⟩
        by_cases hx : x = ⟨ty, i⟩
        · exact Or.inl ⟨hx, h3⟩
        · right
          refine ⟨h1, ?_, h3, hx⟩
          rcases List.mem_cons.1 h2 with h2 | h2
          · exfalso; apply hx; cases x; simp_all
          · exact h2
  obtain ⟨T', e, R⟩ := loop (List.range (T.last ty)) T I hh hup
  refine ⟨T', e, R.congr fun x => ⟨fun h => ⟨h.1, h.2.2⟩, fun h => ⟨h.1, ?_, h.2⟩⟩⟩
  rw [List.mem_range, ← h.1]
  apply I.lastLt
  cases h2 : T.alive x with
  | true => rfl
  | false => have := h.2; rw [(I.dead _ h2).2.2] at this; cases this

theorem removed_hidden {D : El → Prop} (I : Inv T S) (R : Removed T S D T') (x : El) :
    T'.hidden x = true ↔ T.hidden x = true ∧ ¬ D x := by
  have hal : T.hidden x = true → T.alive x = true := by
    intro h
    cases h2 : T.alive x with
    | true => rfl
    | false => rw [(I.dead _ h2).2.2] at h; cases h
  cases ha : T'.alive x with
  | true =>
    rw [R.hidden x ha]
    exact ⟨fun h => ⟨h, ((R.alive x).1 ha).2⟩, fun h => h.1⟩
  | false =>
    rw [(R.inv.dead x ha).2.2]
    simp only [Bool.false_eq_true, false_iff]
    rintro ⟨h1, h2⟩
    have := (R.alive x).2 ⟨hal h1, h2⟩
    rw [ha] at this; cases this

theorem hidden_ty (I : Inv T S) {x : El} (h : T.hidden x = true) : x.ty ≤ 3 := by
  apply I.tyLe
  cases h2 : T.alive x with
  | true => rfl
  | false => rw [(I.dead _ h2).2.2] at h; cases h

/-- `EndModification` removes exactly the hidden elements. -/
theorem endMod_spec (I : Inv T (fun _ => False)) (hh : T.hide = true) :
    ∃ T1 T', T.endMod flip = some T' ∧ T' = { T1 with hide := false } ∧
      Removed T (fun _ => False) (fun x => T.hidden x = true) T1 := by
  obtain ⟨A, eA, RA⟩ := endType_spec (flip := flip) (ty := 3) I hh (fun h => absurd h (by omega))
  have hA := removed_hidden I RA
  obtain ⟨B, eB, RB⟩ := endType_spec (flip := flip) (ty := 2) RA.inv (RA.hide.trans hh) (by
    intro _ x hx
    cases h2 : A.hidden x with
    | false => rfl
    | true => have := (hA x).1 h2; exact absurd ⟨hx, this.1⟩ this.2)
  have hB := removed_hidden RA.inv RB
  obtain ⟨C, eC, RC⟩ := endType_spec (flip := flip) (ty := 1) RB.inv (RB.hide.trans (RA.hide.trans hh)) (by
    intro _ x hx
    cases h2 : B.hidden x with
    | false => rfl
    | true => have := (hB x).1 h2; exact absurd ⟨hx, this.1⟩ this.2)
  have hC := removed_hidden RB.inv RC
  obtain ⟨E, eE, RE⟩ := endType_spec (flip := flip) (ty := 0) RC.inv
    (RC.hide.trans (RB.hide.trans (RA.hide.trans hh))) (by
    intro _ x hx
    cases h2 : C.hidden x with
    | false => rfl
    | true => have := (hC x).1 h2; exact absurd ⟨hx, this.1⟩ this.2)
  refine ⟨E, _, ?_, rfl, (((RA.trans RB).trans RC).trans RE).congr fun x => ?_⟩
  · unfold Topo.endMod
    rw [if_pos hh, forEach_cons eA, forEach_cons eB, forEach_cons eC, forEach_cons eE]
    simp only [forEach]
  · simp only [hC, hB, hA]
    constructor
    · rintro (((h | h) | h) | h)
      · exact h.2
      · exact h.2.1
      · exact h.2.1.1
      · exact h.2.1.1.1
    · intro h
      have := hidden_ty I h
      by_cases h3 : x.ty = 3
      · exact Or.inl (Or.inl (Or.inl ⟨h3, h⟩))
      by_cases h2 : x.ty = 2
      · exact Or.inl (Or.inl (Or.inr ⟨h2, h, fun h' => h3 h'.1⟩))
      by_cases h1 : x.ty = 1
      · exact Or.inl (Or.inr ⟨h1, ⟨h, fun h' => h3 h'.1⟩, fun h' => h2 h'.1⟩)
      · exact Or.inr ⟨by omega, ⟨⟨h, fun h' => h3 h'.1⟩, fun h' => h2 h'.1⟩, fun h' => h1 h'.1⟩

end Verif.Topology
