import Verif.Topology.ReachInv
import Mathlib.Data.List.Nodup

/-!
# Adjacency queries
-/

namespace Verif.Topology

variable {T T' : Topo} {S : El → Prop} {flip : Topo → El → Bool}

/-! ## The second invariant -/

/-- What histories with well-formed arguments keep. -/
structure Good (T : Topo) : Prop where
  nodup : ∀ x, (T.low x).Nodup
  hiddenUp : ∀ x y, T.hid x = true → x.ty < 3 → y ∈ T.high x → T.hid y = true
  cellNodes : T.cn = true → ∀ c, c.ty = 3 → T.alive c = true →
    ∀ n, n ∈ T.high c ↔ ∃ f ∈ T.low c, ∃ e ∈ T.low f, n ∈ T.low e

theorem Good.nodupHigh (G : Good T) (I : Inv T (fun _ => False)) (x : El) : (T.high x).Nodup := by
  rw [List.nodup_iff_count_le_one]
  intro a
  rw [← I.mirror x a (fun h => h)]
  exact List.nodup_iff_count_le_one.1 (G.nodup a) x

theorem Good.permH (G : Good T) (P : PermEqH T T')
    (hu : ∀ x y, T'.hid x = true → x.ty < 3 → y ∈ T'.high x → T'.hid y = true) : Good T' where
  nodup x := (P.low x).nodup_iff.2 (G.nodup x)
  hiddenUp := hu
  cellNodes hc c h3 ha n := by
    rw [(P.high c).mem_iff, G.cellNodes (by rw [← P.cn]; exact hc) c h3 (by rw [← P.alive]; exact ha) n]
    constructor
    · rintro ⟨f, hf, e, he, hn⟩
      exact ⟨f, (P.low c).mem_iff.2 hf, e, (P.low f).mem_iff.2 he, (P.low e).mem_iff.2 hn⟩
    · rintro ⟨f, hf, e, he, hn⟩
      exact ⟨f, (P.low c).mem_iff.1 hf, e, (P.low f).mem_iff.1 he, (P.low e).mem_iff.1 hn⟩

theorem Good.perm (G : Good T) (P : PermEq T T') : Good T' := by
  refine G.permH P.toH fun x y hx ht hy => ?_
  rw [P.hid] at hx ⊢
  exact G.hiddenUp x y hx ht ((P.high x).mem_iff.1 hy)

/-- Removal of an up-closed set. -/
theorem Good.removed {D : El → Prop} (G : Good T) (I : Inv T (fun _ => False))
    (R : Removed T (fun _ => False) D T') (hD : ∀ y z, D y → y.ty < 3 → z ∈ T.high y → D z) :
    Good T' := by
  have hlow : ∀ x, T'.alive x = true → x.ty ≠ 0 → ∀ y, y ∈ T'.low x ↔ y ∈ T.low x := by
    intro x hx h0 y
    rw [(R.low x hx).mem_iff, List.mem_filter]
    constructor
    · exact fun h => h.1
    · intro hy
      refine ⟨hy, (R.alive y).2 ⟨(I.lowLive hy).1, fun hd => ?_⟩⟩
      have ht := (I.lowTy x y hy).1 h0
      have := I.tyLe x (R.mono hx)
      exact ((R.alive x).1 hx).2 (hD y x hd (by omega) ((I.mem (fun h => h)).1 hy))
  refine ⟨fun x => ?_, fun x y hx ht hy => ?_, fun hc c h3 ha n => ?_⟩
  · cases hx : T'.alive x with
    | true => exact (R.low x hx).nodup_iff.2 ((G.nodup x).filter _)
    | false => rw [(R.inv.dead x hx).1]; exact List.nodup_nil
  · have hax := R.inv.highLive (fun h => h) hy
    have h1 : ∀ z, T'.alive z = true → T'.hid z = T.hid z := fun z hz => by
      unfold Topo.hid; rw [R.hide, R.hidden z hz]
    rw [h1 y hax.2]
    rw [h1 x hax.1] at hx
    exact G.hiddenUp x y hx ht (R.sub_high hy)
  · rw [R.mem_high ha (fun h => h), G.cellNodes (by rw [← R.cn]; exact hc) c h3 (R.mono ha) n]
    constructor
    · rintro ⟨⟨f, hf, e, he, hn⟩, hna⟩
      have hf' := (hlow c ha (by omega) f).2 hf
      have hft := (I.lowTy c f hf).1 (by omega)
      have he' := (hlow f (R.inv.lowLive hf').1 (by omega) e).2 he
      have het := (I.lowTy f e he).1 (by omega)
      exact ⟨f, hf', e, he', (hlow e (R.inv.lowLive he').1 (by omega) n).2 hn⟩
    · rintro ⟨f, hf, e, he, hn⟩
      have hft := (R.inv.lowTy c f hf).1 (by omega)
      have het := (R.inv.lowTy f e he).1 (by omega)
      exact ⟨⟨f, (hlow c ha (by omega) f).1 hf, e, (hlow f (R.inv.lowLive hf).1 (by omega) e).1 he,
        (hlow e (R.inv.lowLive he).1 (by omega) n).1 hn⟩, (R.inv.lowLive hn).1⟩

theorem Good.createUp {he : El} {elems nodes : List El} (G : Good T) (I : Inv T (fun _ => False))
    (hd : T.alive he = false) (A : GoodArgs T he.ty elems nodes)
    (e : T.createUp he elems nodes = some T') : Good T' := by
  have h0 : he.ty ≠ 0 := by rcases A.tyOk with h | h | h <;> omega
  have h3 : he.ty ≤ 3 := by rcases A.tyOk with h | h | h <;> omega
  have hel : he ∉ elems := fun h => by have := (A.elemsOk he h).2; omega
  have hnd : he ∉ nodes := fun h => by have := (A.nodesOk he h).2; omega
  obtain ⟨c1, c2, c3, c4, c5, c6, c7⟩ := createUp_some I hd h3 hel hnd h0 e
  obtain ⟨d1, d2, d3⟩ := I.dead he hd
  have hmem : ∀ b x, x ∈ T.low b → x ≠ he ∧ b ≠ he := by
    intro b x hx
    constructor
    · rintro rfl; rw [(I.lowLive hx).1] at hd; cases hd
    · rintro rfl; rw [d1] at hx; cases hx
  have hhid : ∀ x, T'.hid x = T.hid x := fun x => by unfold Topo.hid; rw [c3, c4]
  have hlow : ∀ x, x ≠ he → x.ty ≠ 0 → T'.low x = T.low x := by
    intro x hx ht
    rw [c6, if_neg hx]
    split
    · rw [List.count_eq_zero.2 (fun h => ht (A.nodesOk x h).2)]; simp
    · rfl
  refine ⟨fun x => ?_, fun x y hx ht hy => ?_, fun hc c hc3 ha n => ?_⟩
  · rw [c6]
    split
    · exact A.nodup
    · split
      · rw [List.nodup_iff_count_le_one]
        intro a
        rw [List.count_append, List.count_replicate]
        have h1 := List.nodup_iff_count_le_one.1 (G.nodup x) a
        have h2 := List.nodup_iff_count_le_one.1 A.nodesNodup x
        split
        · next ha =>
          have ha : he = a := by simpa using ha
          subst ha
          have : (T.low x).count he = 0 := List.count_eq_zero.2 fun h => (hmem x he h).1 rfl
          omega
        · omega
      · exact G.nodup x
  · rw [hhid] at hx ⊢
    rw [c7] at hy
    split at hy
    · next hxe =>
      subst hxe
      unfold Topo.hid at hx
      rw [d3] at hx
      simp at hx
    · rcases List.mem_append.1 hy with hy | hy
      · exact G.hiddenUp x y hx ht hy
      · have hxm : x ∈ elems := by
          rw [← List.count_pos_iff]
          rcases Nat.eq_zero_or_pos (elems.count x) with h | h
          · rw [h] at hy; simp at hy
          · exact h
        rw [A.visible x hxm] at hx; cases hx
  · rw [c1] at hc
    by_cases hch : c = he
    · subst hch
      rw [c7, if_pos rfl, if_pos ⟨hc3, hc⟩, A.nodesAre hc3 n, c6, if_pos rfl]
      constructor
      · rintro ⟨f, hf, e, he, hn⟩
        have hft := (A.elemsOk f hf).2
        have h1 : f ≠ c := fun h => by rw [h] at hft; omega
        have het := (I.lowTy f e he).1 (by omega)
        have h2 := (hmem f e he).1
        exact ⟨f, hf, e, by rw [hlow f h1 (by omega)]; exact he, by rw [hlow e h2 (by omega)]; exact hn⟩
      · rintro ⟨f, hf, e, he, hn⟩
        have hft := (A.elemsOk f hf).2
        have h1 : f ≠ c := fun h => by rw [h] at hft; omega
        rw [hlow f h1 (by omega)] at he
        have het := (I.lowTy f e he).1 (by omega)
        have h2 := (hmem f e he).1
        rw [hlow e h2 (by omega)] at hn
        exact ⟨f, hf, e, he, hn⟩
    · have hac : T.alive c = true := by rw [c2, set1_ne _ _ hch] at ha; exact ha
      have h1 : elems.count c = 0 := List.count_eq_zero.2 fun h => by
        have := (A.elemsOk c h).2; omega
      rw [c7, if_neg hch, h1, hlow c hch (by omega)]
      simp only [List.replicate_zero, List.append_nil]
      rw [G.cellNodes hc c hc3 hac n]
      constructor
      · rintro ⟨f, hf, e, he, hn⟩
        have hft := (I.lowTy c f hf).1 (by omega)
        have het := (I.lowTy f e he).1 (by omega)
        exact ⟨f, hf, e, by rw [hlow f (hmem c f hf).1 (by omega)]; exact he,
          by rw [hlow e (hmem f e he).1 (by omega)]; exact hn⟩
      · rintro ⟨f, hf, e, he, hn⟩
        have hft := (I.lowTy c f hf).1 (by omega)
        rw [hlow f (hmem c f hf).1 (by omega)] at he
        have het := (I.lowTy f e he).1 (by omega)
        rw [hlow e (hmem f e he).1 (by omega)] at hn
        exact ⟨f, hf, e, he, hn⟩

theorem Good.delete {h : El} (G : Good T) (I : Inv T (fun _ => False)) (ha : T.alive h = true)
    (e : T.delete flip h = some T') : Good T' := by
  unfold Topo.delete at e
  cases hh : T.hide with
  | false =>
    obtain ⟨T1, e1, R⟩ := delete_spec (flip := flip) 5 T _ h I hh ha (fun _ h => h.elim) (by omega)
    rw [e1] at e
    cases e
    exact G.removed I R fun y z hy ht hz => .step hy ht hz
  | true =>
    obtain ⟨T1, e1, P, hA, hB, hC, hD, -⟩ := deleteHide_spec (flip := flip) 5 T h I hh ha
      (fun h => h) (fun _ h => h.elim) (by omega)
    rw [e1] at e
    cases e
    refine G.permH P fun x y hx ht hy => ?_
    have hy := (P.high x).mem_iff.1 hy
    have hh' : T'.hide = true := P.hide.trans hh
    unfold Topo.hid at hx ⊢
    rw [hh'] at hx ⊢
    have hx : T'.hidden x = true := by simpa using hx
    have : T'.hidden y = true := by
      cases hx0 : T.hidden x with
      | true =>
        apply hB
        have := G.hiddenUp x y (by unfold Topo.hid; rw [hh, hx0]; rfl) ht hy
        unfold Topo.hid at this
        rw [hh] at this
        simpa using this
      | false => exact hD x y hx (Or.inl hx0) ht hy
    rw [this]; rfl

theorem goodReach {cn : Bool} (r : GoodReach cn T) :
    Inv T (fun _ => False) ∧ T.cn = cn ∧ Good T := by
  induction r with
  | init =>
    refine ⟨init_inv cn, rfl, fun _ => List.nodup_nil, fun _ _ h => ?_, fun _ _ _ h => ?_⟩
    · simp [Topo.hid, Topo.init] at h
    · simp [Topo.init] at h
  | @createNode T T' id _ e ih =>
    obtain ⟨I, hc, G⟩ := ih
    obtain ⟨I', hc'⟩ := createNode_inv I e
    refine ⟨I', hc'.trans hc, ?_⟩
    unfold Topo.createNode at e
    split at e
    · cases e
    · next h =>
      cases e
      have h : T.alive ⟨0, id⟩ = false := by simpa using h
      obtain ⟨_, e1, e2, e3⟩ := tie_inv I h (by simp)
      have hhid : ∀ x, (T.tie ⟨0, id⟩).hid x = T.hid x := fun x => by
        unfold Topo.hid; rw [e3]; rfl
      refine ⟨fun x => by rw [e1]; exact G.nodup x, fun x y hx ht hy => ?_, fun hc c h3 ha n => ?_⟩
      · rw [hhid] at hx ⊢; rw [e2] at hy; exact G.hiddenUp x y hx ht hy
      · rw [e1, e2]
        refine G.cellNodes hc c h3 ?_ n
        have hne : c ≠ ⟨0, id⟩ := by rintro rfl; simp at h3
        simpa [Topo.tie, set1, hne] using ha
  | @create T T' r dup ty id elems nodes _ A e ih =>
    obtain ⟨I, hc, G⟩ := ih
    obtain ⟨I', hc'⟩ := create_inv I A.toCreateArgs e
    refine ⟨I', hc'.trans hc, ?_⟩
    unfold Topo.create at e
    split at e
    · cases e; exact G
    · split at e
      · cases e
      · cases e; exact G
      · split at e
        · cases e
        · next hd =>
          split at e
          · cases e
          · next T1 h1 =>
            cases e
            exact G.createUp I (by simpa using hd) A h1
  | delete flip h _ ha e ih =>
    obtain ⟨I, hc, G⟩ := ih
    obtain ⟨I', hc'⟩ := delete_inv I ha e
    exact ⟨I', hc'.trans hc, G.delete I ha e⟩
  | @destroy T T' flip h _ e ih =>
    obtain ⟨I, hc, G⟩ := ih
    obtain ⟨I', hc'⟩ := destroy_inv I e
    refine ⟨I', hc'.trans hc, ?_⟩
    have hh : T.hide = false := by
      unfold Topo.destroy at e
      split at e
      · cases e
      · next h => simpa using h
    have ha : T.alive h = true := by
      unfold Topo.destroy destroyWith at e
      rw [if_neg (by rw [hh]; simp)] at e
      split at e
      · assumption
      · cases e
    obtain ⟨T1, e1, R⟩ := destroy_removed (flip := flip) I ha hh
    rw [e1] at e
    cases e
    exact G.removed I R fun y z hy ht hz => .step hy ht hz
  | beginMod _ e ih =>
    obtain ⟨I, hc, G⟩ := ih
    obtain ⟨I', hc'⟩ := beginMod_inv I e
    refine ⟨I', hc'.trans hc, ?_⟩
    unfold Topo.beginMod at e
    split at e
    · cases e
    · cases e
      exact ⟨G.nodup, fun x y hx => by simp [Topo.hid] at hx, G.cellNodes⟩
  | @endMod T T' flip _ e ih =>
    obtain ⟨I, hc, G⟩ := ih
    obtain ⟨I', hc'⟩ := endMod_inv I e
    refine ⟨I', hc'.trans hc, ?_⟩
    have hh : T.hide = true := by
      unfold Topo.endMod at e
      split at e
      · assumption
      · cases e
    obtain ⟨T1, T2, e1, rfl, R⟩ := endMod_spec (flip := flip) I hh
    rw [e1] at e
    cases e
    have G1 : Good T1 := G.removed I R fun y z hy ht hz => by
      have := G.hiddenUp y z (by unfold Topo.hid; rw [hh, hy]; rfl) ht hz
      unfold Topo.hid at this
      rw [hh] at this
      simpa using this
    exact ⟨G1.nodup, fun x y hx => by simp [Topo.hid] at hx, G1.cellNodes⟩
  | fixNormal flip f _ e ih =>
    obtain ⟨I, hc, G⟩ := ih
    have P := fixNormal_perm e
    exact ⟨I.perm P, P.cn.trans hc, G.perm P⟩
  | permLow x l _ hl e ih =>
    obtain ⟨I, hc, G⟩ := ih
    have P := permLow_perm hl e
    exact ⟨I.perm P, P.cn.trans hc, G.perm P⟩

/-! ## Collecting -/

theorem mem_collect {y : El} : ∀ (l acc : List El),
    y ∈ T.collect acc l ↔ y ∈ acc ∨ y ∈ l ∧ T.hid y = false
  | [], acc => by simp [Topo.collect]
  | x :: xs, acc => by
    unfold Topo.collect
    split
    · next h =>
      rw [mem_collect xs acc]
      constructor
      · rintro (h1 | h1)
        · exact Or.inl h1
        · exact Or.inr ⟨by simp [h1.1], h1.2⟩
      · rintro (h1 | ⟨h1, h2⟩)
        · exact Or.inl h1
        · rcases List.mem_cons.1 h1 with rfl | h1
          · rw [h] at h2; cases h2
          · exact Or.inr ⟨h1, h2⟩
    · next h =>
      split
      · next hx =>
        rw [mem_collect xs acc]
        constructor
        · rintro (h1 | h1)
          · exact Or.inl h1
          · exact Or.inr ⟨by simp [h1.1], h1.2⟩
        · rintro (h1 | ⟨h1, h2⟩)
          · exact Or.inl h1
          · rcases List.mem_cons.1 h1 with rfl | h1
            · exact Or.inl hx
            · exact Or.inr ⟨h1, h2⟩
      · rw [mem_collect xs _]
        simp only [List.mem_append, List.mem_singleton, List.mem_cons]
        constructor
        · rintro ((h1 | h1) | h1)
          · exact Or.inl h1
          · rcases h1 with rfl | h1
            · exact Or.inr ⟨Or.inl rfl, by simpa using h⟩
            · cases h1
          · exact Or.inr ⟨Or.inr h1.1, h1.2⟩
        · rintro (h1 | ⟨rfl | h1, h2⟩)
          · exact Or.inl (Or.inl h1)
          · exact Or.inl (Or.inr (Or.inl rfl))
          · exact Or.inr ⟨h1, h2⟩

theorem nodup_collect : ∀ (l acc : List El), acc.Nodup → (T.collect acc l).Nodup
  | [], _, h => h
  | x :: xs, acc, h => by
    unfold Topo.collect
    split
    · exact nodup_collect xs acc h
    · split
      · exact nodup_collect xs acc h
      · next hx =>
        refine nodup_collect xs _ ?_
        rw [List.nodup_append]
        refine ⟨h, by simp, ?_⟩
        intro a ha b hb
        rw [List.mem_singleton] at hb
        subst hb
        rintro rfl
        exact hx ha

theorem collectVia_spec {conn : El → Option (List El)} {cl : El → List El} : ∀ (ys acc : List El),
    acc.Nodup → (∀ y ∈ ys, conn y = some (cl y)) →
    ∃ r, T.collectVia conn acc ys = some r ∧ r.Nodup ∧
      ∀ y, y ∈ r ↔ y ∈ acc ∨ ∃ z ∈ ys, T.hid z = false ∧ y ∈ cl z ∧ T.hid y = false
  | [], acc, h, _ => ⟨acc, rfl, h, by simp⟩
  | z :: zs, acc, h, hc => by
    unfold Topo.collectVia
    split
    · next hz =>
      obtain ⟨r, e, hn, hm⟩ := collectVia_spec zs acc h (fun y hy => hc y (by simp [hy]))
      refine ⟨r, e, hn, fun y => ?_⟩
      rw [hm]
      constructor
      · rintro (h1 | ⟨w, h1, h2⟩)
        · exact Or.inl h1
        · exact Or.inr ⟨w, by simp [h1], h2⟩
      · rintro (h1 | ⟨w, h1, h2⟩)
        · exact Or.inl h1
        · rcases List.mem_cons.1 h1 with rfl | h1
          · rw [hz] at h2; cases h2.1
          · exact Or.inr ⟨w, h1, h2⟩
    · next hz =>
      rw [hc z (by simp)]
      simp only
      obtain ⟨r, e, hn, hm⟩ := collectVia_spec zs (T.collect acc (cl z)) (nodup_collect _ _ h)
        (fun y hy => hc y (by simp [hy]))
      refine ⟨r, e, hn, fun y => ?_⟩
      rw [hm, mem_collect]
      constructor
      · rintro ((h1 | h1) | ⟨w, h1, h2⟩)
        · exact Or.inl h1
        · exact Or.inr ⟨z, by simp, by simpa using hz, h1⟩
        · exact Or.inr ⟨w, by simp [h1], h2⟩
      · rintro (h1 | ⟨w, h1, h2⟩)
        · exact Or.inl (Or.inl h1)
        · rcases List.mem_cons.1 h1 with rfl | h1
          · exact Or.inl (Or.inr h2.2)
          · exact Or.inr ⟨w, h1, h2⟩

theorem collectVia2_spec {conn : El → Option (List El)} {cl : El → List El} : ∀ (ys acc : List El),
    acc.Nodup → (∀ y ∈ ys, conn y = some (cl y) ∧ ∀ z ∈ cl y, conn z = some (cl z)) →
    ∃ r, T.collectVia2 conn acc ys = some r ∧ r.Nodup ∧
      ∀ y, y ∈ r ↔ y ∈ acc ∨ ∃ z ∈ ys, T.hid z = false ∧ ∃ w ∈ cl z, T.hid w = false ∧
        y ∈ cl w ∧ T.hid y = false
  | [], acc, h, _ => ⟨acc, rfl, h, by simp⟩
  | z :: zs, acc, h, hc => by
    unfold Topo.collectVia2
    split
    · next hz =>
      obtain ⟨r, e, hn, hm⟩ := collectVia2_spec zs acc h (fun y hy => hc y (by simp [hy]))
      refine ⟨r, e, hn, fun y => ?_⟩
      rw [hm]
      constructor
      · rintro (h1 | ⟨w, h1, h2⟩)
        · exact Or.inl h1
        · exact Or.inr ⟨w, by simp [h1], h2⟩
      · rintro (h1 | ⟨w, h1, h2⟩)
        · exact Or.inl h1
        · rcases List.mem_cons.1 h1 with rfl | h1
          · rw [hz] at h2; cases h2.1
          · exact Or.inr ⟨w, h1, h2⟩
    · next hz =>
      rw [(hc z (by simp)).1]
      simp only
      obtain ⟨a, ea, hna, hma⟩ := collectVia_spec (T := T) (cl z) acc h (hc z (by simp)).2
      rw [ea]
      simp only
      obtain ⟨r, e, hn, hm⟩ := collectVia2_spec zs a hna (fun y hy => hc y (by simp [hy]))
      refine ⟨r, e, hn, fun y => ?_⟩
      rw [hm, hma]
      constructor
      · rintro ((h1 | h1) | ⟨w, h1, h2⟩)
        · exact Or.inl h1
        · exact Or.inr ⟨z, by simp, by simpa using hz, h1⟩
        · exact Or.inr ⟨w, by simp [h1], h2⟩
      · rintro (h1 | ⟨w, h1, h2⟩)
        · exact Or.inl (Or.inl h1)
        · rcases List.mem_cons.1 h1 with rfl | h1
          · exact Or.inl (Or.inr h2.2)
          · exact Or.inr ⟨w, h1, h2⟩

/-! ## Paths -/

theorem below_vis {a b : El} (h : Below T a b) : T.hid a = false ∧ T.hid b = false := by
  induction h with
  | refl h => exact ⟨h, h⟩
  | step _ _ _ h ih => exact ⟨ih.1, h⟩

theorem below_ty {a b : El} (I : Inv T S) (h : Below T a b) : a.ty ≤ b.ty := by
  induction h with
  | refl => exact Nat.le_refl _
  | @step b c _ hm h0 _ ih =>
    have := (I.lowTy c b hm).1 (by omega)
    omega

theorem incident_alive {x y : El} (I : Inv T S) (hx : T.alive x = true) :
    Below T y x ∨ Below T x y → T.alive y = true := by
  rintro (h | h)
  · induction h with
    | refl => exact hx
    | step _ hm _ _ ih => exact ih (I.lowLive hm).1
  · cases h with
    | refl => exact hx
    | step _ hm _ _ => exact (I.lowLive hm).2

theorem below0 {a b : El} (I : Inv T S) (ht : b.ty ≤ a.ty) :
    Below T a b ↔ a = b ∧ T.hid a = false := by
  constructor
  · intro h
    cases h with
    | refl h => exact ⟨rfl, h⟩
    | @step c _ hb hm h0 hv =>
      have := (I.lowTy b c hm).1 (by omega)
      have := below_ty I hb
      omega
  · rintro ⟨rfl, h⟩; exact .refl h

theorem below_last {a b : El} (I : Inv T S) (ht : a.ty < b.ty) :
    Below T a b ↔ T.hid b = false ∧ ∃ c ∈ T.low b, Below T a c := by
  constructor
  · intro h
    cases h with
    | refl h => omega
    | step hb hm h0 hv => exact ⟨hv, _, hm, hb⟩
  · rintro ⟨hv, c, hm, hb⟩
    exact .step hb hm (by omega) hv

theorem below1 {a b : El} (I : Inv T S) (ht : a.ty + 1 = b.ty) :
    Below T a b ↔ T.hid b = false ∧ a ∈ T.low b ∧ T.hid a = false := by
  rw [below_last I (by omega)]
  constructor
  · rintro ⟨hv, c, hm, hb⟩
    have := (I.lowTy b c hm).1 (by omega)
    obtain ⟨rfl, h⟩ := (below0 I (by omega)).1 hb
    exact ⟨hv, hm, h⟩
  · rintro ⟨hv, hm, h⟩
    exact ⟨hv, a, hm, .refl h⟩

theorem below2 {a b : El} (I : Inv T S) (ht : a.ty + 2 = b.ty) :
    Below T a b ↔ T.hid b = false ∧ ∃ c ∈ T.low b, T.hid c = false ∧ a ∈ T.low c ∧ T.hid a = false := by
  rw [below_last I (by omega)]
  constructor
  · rintro ⟨hv, c, hm, hb⟩
    have := (I.lowTy b c hm).1 (by omega)
    exact ⟨hv, c, hm, (below1 I (by omega)).1 hb⟩
  · rintro ⟨hv, c, hm, hb⟩
    have := (I.lowTy b c hm).1 (by omega)
    exact ⟨hv, c, hm, (below1 I (by omega)).2 hb⟩

theorem below3 {a b : El} (I : Inv T S) (ht : a.ty + 3 = b.ty) :
    Below T a b ↔ T.hid b = false ∧ ∃ c ∈ T.low b, T.hid c = false ∧ ∃ d ∈ T.low c, T.hid d = false ∧
      a ∈ T.low d ∧ T.hid a = false := by
  rw [below_last I (by omega)]
  constructor
  · rintro ⟨hv, c, hm, hb⟩
    have := (I.lowTy b c hm).1 (by omega)
    exact ⟨hv, c, hm, (below2 I (by omega)).1 hb⟩
  · rintro ⟨hv, c, hm, hb⟩
    have := (I.lowTy b c hm).1 (by omega)
    exact ⟨hv, c, hm, (below2 I (by omega)).2 hb⟩

/-- Outside of what is hidden, the hidden set being up-closed, a path between visible ends is visible. -/
theorem Good.visDown (G : Good T) (I : Inv T (fun _ => False)) {b c : El} (hb : b ∈ T.low c) (h0 : 0 < c.ty)
    (hv : T.hid c = false) : T.hid b = false := by
  cases h : T.hid b with
  | false => rfl
  | true =>
    have ht := (I.lowTy c b hb).1 (by omega)
    have := I.tyLe c (I.lowLive hb).2
    rw [G.hiddenUp b c h (by omega) ((I.mem (fun h => h)).1 hb)] at hv
    cases hv

/-- One type. -/
theorem adj1_spec (I : Inv T (fun _ => False)) (G : Good T) {x : El} (ha : T.alive x = true)
    (hx : T.hid x = false) {i : Nat} (hi : i ≤ 3) :
    ∃ l, T.adj1 x i = some l ∧ l.Nodup ∧ T.nb1 x i = some l.length ∧
      ∀ y, y ∈ l ↔ y.ty = i ∧ (Below T y x ∨ Below T x y) := by
  have hx3 := I.tyLe x ha
  have no : (fun _ : El => False) x = False := rfl
  have M : ∀ {a b : El}, a ∈ T.low b ↔ b ∈ T.high a := fun {a b} => I.mem (fun h => h)
  have lcx : (0 < x.ty ∨ T.cn = true) → T.lcOf x = some (T.low x) := fun h => if_pos ⟨ha, h⟩
  have hcx : (x.ty < 3 ∨ T.cn = true) → T.hcOf x = some (T.high x) := fun h => if_pos ⟨ha, h⟩
  have vis : ∀ l : List El, ∀ y, y ∈ (l.filter fun y => !T.hid y) ↔ y ∈ l ∧ T.hid y = false := by
    intro l y; simp
  have cv : ∀ l : List El, T.countVis l = (l.filter fun y => !T.hid y).length := countVis_eq T
  unfold Topo.adj1 Topo.nb1
  by_cases h1 : i = x.ty
  · rw [if_pos h1, if_pos h1, hx]
    refine ⟨[x], rfl, by simp, rfl, fun y => ?_⟩
    rw [List.mem_singleton]
    constructor
    · rintro rfl; exact ⟨h1.symm, Or.inl (.refl hx)⟩
    · rintro ⟨ht, h | h⟩
      · exact ((below0 I (by omega)).1 h).1
      · exact ((below0 I (by omega)).1 h).1.symm
  rw [if_neg h1, if_neg h1]
  by_cases h2 : i = x.ty + 1
  · rw [if_pos h2, if_pos h2, hcx (Or.inl (by omega))]
    refine ⟨_, rfl, (G.nodupHigh I x).filter _, by simp [cv], fun y => ?_⟩
    rw [vis]
    constructor
    · rintro ⟨hy, hv⟩
      have ht := (I.highTy (fun h => h) hy).1 (by omega)
      exact ⟨by omega, Or.inr ((below1 I (by omega)).2 ⟨hv, M.2 hy, hx⟩)⟩
    · rintro ⟨ht, h | h⟩
      · have := below_ty I h; omega
      · obtain ⟨hv, hm, _⟩ := (below1 I (by omega)).1 h
        exact ⟨M.1 hm, hv⟩
  rw [if_neg h2, if_neg h2]
  by_cases h3 : i + 1 = x.ty
  · rw [if_pos h3, if_pos h3, lcx (Or.inl (by omega))]
    refine ⟨_, rfl, (G.nodup x).filter _, by simp [cv], fun y => ?_⟩
    rw [vis]
    constructor
    · rintro ⟨hy, hv⟩
      have ht := (I.lowTy x y hy).1 (by omega)
      exact ⟨by omega, Or.inl ((below1 I (by omega)).2 ⟨hx, hy, hv⟩)⟩
    · rintro ⟨ht, h | h⟩
      · exact ((below1 I (by omega)).1 h).2
      · have := below_ty I h; omega
  rw [if_neg h3, if_neg h3]
  by_cases h4 : i = x.ty + 2
  · rw [if_pos h4, if_pos h4, hcx (Or.inl (by omega))]
    simp only
    obtain ⟨r, e, hn, hm⟩ := collectVia_spec (T := T) (conn := T.hcOf) (cl := T.high) (T.high x) []
      List.nodup_nil (by
        intro y hy
        have ht := (I.highTy (fun h => h) hy).1 (by omega)
        exact if_pos ⟨(I.highLive (fun h => h) hy).2, Or.inl (by omega)⟩)
    refine ⟨r, e, hn, by rw [e]; rfl, fun y => ?_⟩
    rw [hm]
    constructor
    · rintro (h | ⟨z, hz, hzv, hy, hv⟩)
      · cases h
      · have ht := (I.highTy (fun h => h) hz).1 (by omega)
        have ht' := (I.highTy (fun h => h) hy).1 (by omega)
        exact ⟨by omega, Or.inr ((below2 I (by omega)).2 ⟨hv, z, M.2 hy, hzv, M.2 hz, hx⟩)⟩
    · rintro ⟨ht, h | h⟩
      · have := below_ty I h; omega
      · obtain ⟨hv, z, hy, hzv, hz, _⟩ := (below2 I (by omega)).1 h
        exact Or.inr ⟨z, M.1 hz, hzv, M.1 hy, hv⟩
  rw [if_neg h4, if_neg h4]
  by_cases h5 : i + 2 = x.ty
  · rw [if_pos h5, if_pos h5, lcx (Or.inl (by omega))]
    simp only
    obtain ⟨r, e, hn, hm⟩ := collectVia_spec (T := T) (conn := T.lcOf) (cl := T.low) (T.low x) []
      List.nodup_nil (by
        intro y hy
        have ht := (I.lowTy x y hy).1 (by omega)
        exact if_pos ⟨(I.lowLive hy).1, Or.inl (by omega)⟩)
    refine ⟨r, e, hn, by rw [e]; rfl, fun y => ?_⟩
    rw [hm]
    constructor
    · rintro (h | ⟨z, hz, hzv, hy, hv⟩)
      · cases h
      · have ht := (I.lowTy x z hz).1 (by omega)
        have ht' := (I.lowTy z y hy).1 (by omega)
        exact ⟨by omega, Or.inl ((below2 I (by omega)).2 ⟨hx, z, hz, hzv, hy, hv⟩)⟩
    · rintro ⟨ht, h | h⟩
      · obtain ⟨_, z, hz, hzv, hy, hv⟩ := (below2 I (by omega)).1 h
        exact Or.inr ⟨z, hz, hzv, hy, hv⟩
      · have := below_ty I h; omega
  rw [if_neg h5, if_neg h5]
  by_cases h6 : i = x.ty + 3
  · rw [if_pos h6, if_pos h6]
    cases hcn : T.cn with
    | true =>
      rw [if_pos rfl, if_pos rfl, lcx (Or.inr hcn)]
      refine ⟨_, rfl, (G.nodup x).filter _, by simp [cv], fun y => ?_⟩
      rw [vis]
      constructor
      · rintro ⟨hy, hv⟩
        have ht := ((I.lowTy x y hy).2 (by omega)).2
        refine ⟨by omega, Or.inr ((below3 I (by omega)).2 ⟨hv, ?_⟩)⟩
        obtain ⟨f, hf, e, he, hn⟩ := (G.cellNodes hcn y ht (I.lowLive hy).1 x).1 (M.1 hy)
        have hft := (I.lowTy y f hf).1 (by omega)
        have hfv := G.visDown I hf (by omega) hv
        have hev := G.visDown I he (by omega) hfv
        exact ⟨f, hf, hfv, e, he, hev, hn, hx⟩
      · rintro ⟨ht, h | h⟩
        · have := below_ty I h; omega
        · obtain ⟨hv, f, hf, hfv, e, he, hev, hn, _⟩ := (below3 I (by omega)).1 h
          refine ⟨M.2 ?_, hv⟩
          exact (G.cellNodes hcn y (by omega) (I.lowLive hf).2 x).2 ⟨f, hf, e, he, hn⟩
    | false =>
      rw [if_neg (by simp), if_neg (by simp), hcx (Or.inl (by omega))]
      simp only
      obtain ⟨r, e, hn, hm⟩ := collectVia2_spec (T := T) (conn := T.hcOf) (cl := T.high) (T.high x) []
        List.nodup_nil (by
          intro y hy
          have ht := (I.highTy (fun h => h) hy).1 (by omega)
          refine ⟨if_pos ⟨(I.highLive (fun h => h) hy).2, Or.inl (by omega)⟩, fun z hz => ?_⟩
          have ht' := (I.highTy (fun h => h) hz).1 (by omega)
          exact if_pos ⟨(I.highLive (fun h => h) hz).2, Or.inl (by omega)⟩)
      refine ⟨r, e, hn, by rw [e]; rfl, fun y => ?_⟩
      rw [hm]
      constructor
      · rintro (h | ⟨z, hz, hzv, w, hw, hwv, hy, hv⟩)
        · cases h
        · have ht := (I.highTy (fun h => h) hz).1 (by omega)
          have ht' := (I.highTy (fun h => h) hw).1 (by omega)
          have ht'' := (I.highTy (fun h => h) hy).1 (by omega)
          exact ⟨by omega, Or.inr ((below3 I (by omega)).2
            ⟨hv, w, M.2 hy, hwv, z, M.2 hw, hzv, M.2 hz, hx⟩)⟩
      · rintro ⟨ht, h | h⟩
        · have := below_ty I h; omega
        · obtain ⟨hv, w, hy, hwv, z, hw, hzv, hz, _⟩ := (below3 I (by omega)).1 h
          exact Or.inr ⟨z, M.1 hz, hzv, w, M.1 hw, hwv, M.1 hy, hv⟩
  rw [if_neg h6, if_neg h6]
  have h7 : i + 3 = x.ty := by omega
  cases hcn : T.cn with
  | true =>
    rw [if_pos rfl, if_pos rfl, hcx (Or.inr hcn)]
    refine ⟨_, rfl, (G.nodupHigh I x).filter _, by simp [cv], fun y => ?_⟩
    rw [vis, G.cellNodes hcn x (by omega) ha y]
    constructor
    · rintro ⟨⟨f, hf, e, he, hn⟩, hv⟩
      have hft := (I.lowTy x f hf).1 (by omega)
      have het := (I.lowTy f e he).1 (by omega)
      have hnt := (I.lowTy e y hn).1 (by omega)
      have hfv := G.visDown I hf (by omega) hx
      have hev := G.visDown I he (by omega) hfv
      exact ⟨by omega, Or.inl ((below3 I (by omega)).2 ⟨hx, f, hf, hfv, e, he, hev, hn, hv⟩)⟩
    · rintro ⟨ht, h | h⟩
      · obtain ⟨_, f, hf, hfv, e, he, hev, hn, hv⟩ := (below3 I (by omega)).1 h
        exact ⟨⟨f, hf, e, he, hn⟩, hv⟩
      · have := below_ty I h; omega
  | false =>
    rw [if_neg (by simp), if_neg (by simp), lcx (Or.inl (by omega))]
    simp only
    obtain ⟨r, e, hn, hm⟩ := collectVia2_spec (T := T) (conn := T.lcOf) (cl := T.low) (T.low x) []
      List.nodup_nil (by
        intro y hy
        have ht := (I.lowTy x y hy).1 (by omega)
        refine ⟨if_pos ⟨(I.lowLive hy).1, Or.inl (by omega)⟩, fun z hz => ?_⟩
        have ht' := (I.lowTy y z hz).1 (by omega)
        exact if_pos ⟨(I.lowLive hz).1, Or.inl (by omega)⟩)
    refine ⟨r, e, hn, by rw [e]; rfl, fun y => ?_⟩
    rw [hm]
    constructor
    · rintro (h | ⟨z, hz, hzv, w, hw, hwv, hy, hv⟩)
      · cases h
      · have ht := (I.lowTy x z hz).1 (by omega)
        have ht' := (I.lowTy z w hw).1 (by omega)
        have ht'' := (I.lowTy w y hy).1 (by omega)
        exact ⟨by omega, Or.inl ((below3 I (by omega)).2 ⟨hx, z, hz, hzv, w, hw, hwv, hy, hv⟩)⟩
    · rintro ⟨ht, h | h⟩
      · obtain ⟨_, z, hz, hzv, w, hw, hwv, hy, hv⟩ := (below3 I (by omega)).1 h
        exact Or.inr ⟨z, hz, hzv, w, hw, hwv, hy, hv⟩
      · have := below_ty I h; omega

/-- Several types. -/
theorem getAdj_spec (I : Inv T (fun _ => False)) (G : Good T) {x : El} (ha : T.alive x = true)
    (hx : T.hid x = false) (mask : Nat → Bool) : ∀ is : List Nat, (∀ i ∈ is, i ≤ 3) → is.Nodup →
    ∃ l, T.getAdj x mask is = some l ∧ l.Nodup ∧ T.nbAdj x mask is = some l.length ∧
      ∀ y, y ∈ l ↔ y.ty ∈ is ∧ mask y.ty = true ∧ (Below T y x ∨ Below T x y)
  | [], _, _ => ⟨[], rfl, List.nodup_nil, rfl, by simp⟩
  | i :: is, hi, hn => by
    obtain ⟨hni, hn'⟩ := List.nodup_cons.1 hn
    obtain ⟨ls, es, hs, hb, hm⟩ := getAdj_spec I G ha hx mask is (fun j hj => hi j (by simp [hj])) hn'
    unfold Topo.getAdj Topo.nbAdj
    by_cases hmi : mask i = true
    · rw [if_pos hmi, if_pos hmi]
      obtain ⟨l, e, hl, hbl, hml⟩ := adj1_spec I G ha hx (hi i (by simp))
      rw [e, es, hbl, hb]
      refine ⟨l ++ ls, rfl, ?_, by simp, fun y => ?_⟩
      · rw [List.nodup_append]
        refine ⟨hl, hs, ?_⟩
        rintro a h1 b h2 rfl
        have := ((hml a).1 h1).1
        have h3 := ((hm a).1 h2).1
        rw [this] at h3
        exact hni h3
      · rw [List.mem_append, hm, hml, List.mem_cons]
        constructor
        · rintro (⟨h1, h2⟩ | ⟨h1, h2⟩)
          · exact ⟨Or.inl h1, by rw [h1]; exact hmi, h2⟩
          · exact ⟨Or.inr h1, h2⟩
        · rintro ⟨h1 | h1, h2⟩
          · exact Or.inl ⟨h1, h2.2⟩
          · exact Or.inr ⟨h1, h2⟩
    · rw [if_neg hmi, if_neg hmi]
      refine ⟨ls, es, hs, hb, fun y => ?_⟩
      rw [hm, List.mem_cons]
      constructor
      · rintro ⟨h1, h2⟩; exact ⟨Or.inr h1, h2⟩
      · rintro ⟨h1 | h1, h2⟩
        · rw [h1] at h2; exact absurd h2.1 hmi
        · exact ⟨h1, h2⟩

/-! ## FindSharedAdjacency -/

theorem sharedIn_iff {c : El} {hide : El → Bool} (hc : hide c = false) : ∀ ls : List (List El),
    sharedIn c hide ls = true ↔ ∀ l ∈ ls, c ∈ l
  | [] => by simp [sharedIn]
  | l :: ls => by
    unfold sharedIn
    rw [Bool.and_eq_true, sharedIn_iff hc ls]
    simp only [List.any_eq_true, Bool.and_eq_true, decide_eq_true_eq, List.mem_cons, forall_eq_or_imp]
    constructor
    · rintro ⟨⟨y, hy, _, rfl⟩, h2⟩; exact ⟨hy, h2⟩
    · rintro ⟨h1, h2⟩; exact ⟨⟨c, h1, by simp [hc], rfl⟩, h2⟩

theorem hcs_spec : ∀ (arr : List El), (∀ x ∈ arr, T.hcOf x = some (T.high x)) →
    T.hcs arr = some (arr.map T.high)
  | [], _ => rfl
  | x :: xs, h => by
    unfold Topo.hcs
    rw [h x (by simp), hcs_spec xs (fun y hy => h y (by simp [hy]))]
    rfl

theorem findShared_spec {arr : List El} (hne : ∃ x ∈ arr, T.hid x = false)
    (hok : ∀ x ∈ arr, T.alive x = true ∧ x.ty < 3) :
    ∃ r, T.findShared arr = some r ∧
      (∀ e, r = some e → T.hid e = false ∧ ∀ x ∈ arr, T.hid x = false → e ∈ T.high x) ∧
      (r = none → ¬ ∃ e, T.hid e = false ∧ ∀ x ∈ arr, T.hid x = false → e ∈ T.high x) := by
  unfold Topo.findShared
  rw [if_neg (by rintro rfl; simp at hne)]
  have hmem : ∀ x, x ∈ arr.filter (fun x => !T.hid x) ↔ x ∈ arr ∧ T.hid x = false := by
    intro x; simp
  cases hf : arr.filter fun x => !T.hid x with
  | nil =>
    obtain ⟨x, hx, hv⟩ := hne
    have := (hmem x).2 ⟨hx, hv⟩
    rw [hf] at this; cases this
  | cons x0 xs =>
    rw [hf] at hmem
    have hc : ∀ x ∈ x0 :: xs, T.hcOf x = some (T.high x) := fun x hx =>
      if_pos ⟨(hok x ((hmem x).1 hx).1).1, Or.inl (hok x ((hmem x).1 hx).1).2⟩
    simp only [hc x0 (by simp)]
    have hall : ∀ e, (∀ x ∈ arr, T.hid x = false → e ∈ T.high x) ↔ ∀ x ∈ x0 :: xs, e ∈ T.high x := by
      intro e
      constructor
      · intro h x hx; exact h x ((hmem x).1 hx).1 ((hmem x).1 hx).2
      · intro h x hx hv; exact h x ((hmem x).2 ⟨hx, hv⟩)
    cases hh : T.high x0 with
    | nil =>
      refine ⟨none, by rfl, fun e h => absurd h (by simp), fun _ => ?_⟩
      rintro ⟨e, _, h⟩
      have := (hall e).1 h x0 (by simp)
      rw [hh] at this; cases this
    | cons y ys =>
      simp only
      rw [hcs_spec xs (fun x hx => hc x (by simp [hx]))]
      simp only
      rw [← hh]
      have hp : ∀ e, (!T.hid e && sharedIn e T.hid (xs.map T.high)) = true ↔
          T.hid e = false ∧ ∀ x ∈ xs, e ∈ T.high x := by
        intro e
        rw [Bool.and_eq_true]
        constructor
        · rintro ⟨h1, h2⟩
          have h1 : T.hid e = false := by simpa using h1
          rw [sharedIn_iff h1] at h2
          exact ⟨h1, fun x hx => h2 _ (List.mem_map_of_mem hx)⟩
        · rintro ⟨h1, h2⟩
          refine ⟨by simp [h1], (sharedIn_iff h1 _).2 fun l hl => ?_⟩
          obtain ⟨x, hx, rfl⟩ := List.mem_map.1 hl
          exact h2 x hx
      refine ⟨_, rfl, fun e h => ?_, fun h => ?_⟩
      · have h1 := List.find?_some h
        have h2 := List.mem_of_find?_eq_some h
        obtain ⟨h3, h4⟩ := (hp e).1 h1
        refine ⟨h3, (hall e).2 fun x hx => ?_⟩
        rcases List.mem_cons.1 hx with rfl | hx
        · exact h2
        · exact h4 x hx
      · rintro ⟨e, he, h'⟩
        have h' := (hall e).1 h'
        have := List.find?_eq_none.1 h e (h' x0 (by simp))
        exact this ((hp e).2 ⟨he, fun x hx => h' x (by simp [hx])⟩)

end Verif.Topology
