import Verif.Topology.SplitFace
import Verif.Topology.SplitInv

/-! Splitting a face keeps the connections mutual. -/

namespace Verif.Topology

variable {T T' : Topo} {flip : Topo → El → Bool}

/-! ## Removal of the face -/

/-- Erasing the first occurrence `n` times. -/
def eraseN (f : El) : Nat → List El → List El
  | 0, l => l
  | n + 1, l => eraseN f n (l.erase f)

theorem erase_iter (f : El) : ∀ (n : Nat) (l : List El), l.count f ≤ n → eraseN f n l = eraseAll f l
  | 0, l, h => by
    rw [eraseAll_none]
    · rfl
    · exact List.count_eq_zero.1 (Nat.le_zero.1 h)
  | n + 1, l, h => by
    unfold eraseN
    rw [erase_iter f n _ (by rw [List.count_erase_self]; omega)]
    clear h
    induction l with
    | nil => rfl
    | cons x xs ih =>
      by_cases hx : x = f
      · subst hx
        rw [List.erase_cons_head]
        simp only [eraseAll, if_true]
      · rw [List.erase_cons_tail (by simpa using hx)]
        simp only [eraseAll, if_neg hx, ih]

theorem erases_spec (f : El) : ∀ (l : List El) (T T' : Topo),
    forEach (fun T c => T.modLow c (·.erase f)) l T = some T' →
    T' = { T with low := fun x => eraseN f (l.count x) (T.low x) }
  | [], T, T', h => by
    simp only [forEach, Option.some.injEq] at h
    subst h; simp [eraseN]
  | c :: cs, T, T', h => by
    unfold forEach at h
    split at h
    · cases h
    next T1 h1 =>
    obtain ⟨-, rfl⟩ := modLow_some h1
    rw [erases_spec f cs _ T' h]
    congr 1
    funext x
    by_cases hx : x = c
    · subst hx
      simp only [set1_same, List.count_cons_self, eraseN]
    · simp only [set1_ne _ _ hx, List.count_cons_of_ne (Ne.symm hx)]

theorem count_one {l : List El} {x : El} (hn : l.Nodup) (hx : x ∈ l) : l.count x = 1 := by
  have h1 := List.nodup_iff_count.1 hn x
  have h2 := List.count_pos_iff.2 hx
  omega

theorem dropFace_spec (I : Inv T (fun _ => False)) {f : El} (ht : f.ty = 2)
    (h : T.dropFace flip f (T.cellsOf f) = some T') : T.alive f = true ∧
    ((T.hide = true ∧ T' = { T with hidden := set1 T.hidden f true }) ∨
     (T.hide = false ∧ Dropped T f T')) := by
  unfold Topo.dropFace at h
  split at h
  · next hh =>
    obtain ⟨ha, h'⟩ := hideEl_spec0 (by omega) h
    exact ⟨ha, Or.inl ⟨hh, h'⟩⟩
  next hh =>
  have hh' : T.hide = false := by simpa using hh
  have hc : T.cellsOf f = T.high f := by
    unfold Topo.cellsOf
    refine List.filter_eq_self.2 fun x _ => ?_
    unfold Topo.hid; rw [hh']; rfl
  rw [hc] at h
  split at h
  · cases h
  next T1 h2 =>
  split at h
  · cases h
  next T2 h3 =>
  have e1 : T1 = { T with low := fun x => eraseAll f (T.low x) } := by
    rw [erases_spec f _ _ _ h2]
    congr 1
    funext x
    exact erase_iter f _ _ (Nat.le_of_eq (I.mirror f x fun h => h))
  subst e1
  obtain ⟨ha, -, rfl⟩ := modHigh_some h3
  have M : ∀ {a b : El}, a ∈ T.low b ↔ b ∈ T.high a := fun {a b} => I.mem (fun h => h)
  have hee : f ∉ T.low f := fun h => by have := (I.lowTy f f h).1 (by omega); omega
  have heh : f ∉ T.high f := fun h => hee (M.2 h)
  obtain ⟨g1, g2, g3, g4, g5, g6, g7, g8, g9⟩ := destroy_bare (by omega) (by simp only [set1_same])
    (by simp only [eraseAll_none hee]; exact hee) h
  refine ⟨ha, Or.inr ⟨hh', g3, g4, g5, g6, g7, fun x => ?_, fun x => ?_⟩⟩
  · rw [g8]
    by_cases hx : x = f
    · subst hx; simp only [set1_same, if_true]
    · simp only [set1_ne _ _ hx, if_neg hx]
  · rw [g9]
    simp only [eraseAll_none hee, show 0 < f.ty by omega, true_or, and_true]
    by_cases hx : x = f
    · subst hx; simp only [set1_same, if_true, if_neg hee]
    · simp only [set1_ne _ _ hx, if_neg hx]
      split
      · rfl
      · next hn => rw [eraseAll_none (fun h => hn (M.2 h))]

theorem dropFace_inv (I : Inv T (fun _ => False)) {f : El} (ht : f.ty = 2)
    (h : T.dropFace flip f (T.cellsOf f) = some T') : Inv T' (fun _ => False) ∧ T'.cn = T.cn ∧
      ∀ x, x ≠ f → T'.alive x = T.alive x := by
  obtain ⟨ha, ⟨-, rfl⟩ | ⟨-, D⟩⟩ := dropFace_spec I ht h
  · exact ⟨hidden_inv I ha true, rfl, fun _ _ => rfl⟩
  · exact ⟨D.inv I, D.cn, fun x hx => by rw [D.alive, set1_ne _ _ hx]⟩

/-! ## Creation of faces -/

/-- What `CreateFace` does. -/
theorem createFace_cases {dup new : Bool} {id : Nat} {l : List El} {r : El} (hl : l ≠ [])
    (h : T.create dup 2 id l [] = some (T', some r, new)) :
    (new = false ∧ dup = true ∧ T' = T ∧ T.findShared l = some (some r)) ∨
    (new = true ∧ r = ⟨2, id⟩ ∧ T.alive r = false ∧ (∀ x ∈ l, (T.tie r).alive x = true) ∧
      (dup = true → T.findShared l = some none) ∧
      T' = { T.tie r with
        high := fun x => (T.tie r).high x ++ List.replicate (l.count x) r
        low := set1 T.low r l }) := by
  unfold Topo.create at h
  rw [if_neg hl] at h
  split at h
  · cases h
  · next hf =>
    cases h
    cases dup with
    | false => simp at hf
    | true => exact Or.inl ⟨rfl, rfl, rfl, by simpa using hf⟩
  · next hf =>
    split at h
    · cases h
    next hd =>
    split at h
    · cases h
    next T1 h1 =>
    cases h
    refine Or.inr ⟨rfl, rfl, by simpa using hd, ?_⟩
    unfold Topo.createUp at h1
    split at h1
    · cases h1
    next U1 u1 =>
    obtain ⟨ha, rfl⟩ := appHigh_spec _ _ _ _ u1
    split at h1
    · cases h1
    next U2 u2 =>
    obtain ⟨-, rfl⟩ := modLow_some u2
    rw [if_neg (by simp)] at h1
    cases h1
    refine ⟨ha, by rintro rfl; simpa using hf, ?_⟩
    congr 1
    funext x
    by_cases hx : x = ⟨2, id⟩
    · subst hx; simp [Topo.tie, set1]
    · simp [Topo.tie, set1, hx]

theorem addNew_fresh : ∀ (cs l : List El), cs.Nodup → (∀ c ∈ cs, c ∉ l) → addNew cs l = l ++ cs
  | [], l, _, _ => by simp [addNew]
  | c :: cs, l, hn, h => by
    rw [List.nodup_cons] at hn
    unfold addNew
    rw [if_neg (h c (by simp)), addNew_fresh cs _ hn.2]
    · simp
    · intro x hx
      rw [List.mem_append, not_or]
      refine ⟨h x (by simp [hx]), ?_⟩
      simp only [List.mem_singleton]
      rintro rfl
      exact hn.1 hx

/-- `S` is `T` in which the cells have the further faces `acc`. -/
structure Behind (cells acc : List El) (T S : Topo) : Prop where
  frame : Frame T S
  high : S.high = T.high
  low : ∀ x, S.low x = T.low x ++ if x ∈ cells then acc else []

/-- What the creation of the faces does besides the connections. -/
structure Made (T : Topo) (ret : List El) (T' : Topo) : Prop where
  cn : T'.cn = T.cn
  hide : T'.hide = T.hide
  hidden : ∀ x, T.alive x = true → T'.hidden x = T.hidden x
  mono : ∀ x, T.alive x = true → T'.alive x = true
  kinds : ∀ x, T'.alive x = true → T.alive x = true ∨ (x ∈ ret ∧ x.ty = 2)
  low : ∀ x, T.alive x = true → T'.low x = T.low x
  high : ∀ x, T.alive x = true → x.ty ≠ 1 → x ∉ ret → T'.high x = T.high x
  ret : ∀ x ∈ ret, T'.alive x = true ∧ x.ty = 2 ∧ T'.hid x = false

theorem Made.refl (T : Topo) : Made T [] T :=
  ⟨rfl, rfl, fun _ _ => rfl, fun _ h => h, fun _ h => Or.inl h, fun _ _ => rfl, fun _ _ _ _ => rfl, by simp⟩

theorem Made.trans {T1 T2 T3 : Topo} {r1 r2 : List El} (h : Made T1 r1 T2) (h' : Made T2 r2 T3) :
    Made T1 (r1 ++ r2) T3 where
  cn := h'.cn.trans h.cn
  hide := h'.hide.trans h.hide
  hidden x hx := (h'.hidden x (h.mono x hx)).trans (h.hidden x hx)
  mono x hx := h'.mono x (h.mono x hx)
  kinds x hx := by
    rcases h'.kinds x hx with h1 | h1
    · rcases h.kinds x h1 with h2 | h2
      · exact Or.inl h2
      · exact Or.inr ⟨by simp [h2.1], h2.2⟩
    · exact Or.inr ⟨by simp [h1.1], h1.2⟩
  low x hx := (h'.low x (h.mono x hx)).trans (h.low x hx)
  high x hx h1 h2 := by
    rw [List.mem_append, not_or] at h2
    exact (h'.high x (h.mono x hx) h1 h2.2).trans (h.high x hx h1 h2.1)
  ret x hx := by
    rcases List.mem_append.1 hx with hx | hx
    · obtain ⟨a, b, c⟩ := h.ret x hx
      refine ⟨h'.mono x a, b, ?_⟩
      unfold Topo.hid at c ⊢
      rw [h'.hide, h'.hidden x a]; exact c
    · exact h'.ret x hx

theorem findShared_vis {arr : List El} {r : El} (h : T.findShared arr = some (some r)) : T.hid r = false := by
  unfold Topo.findShared at h
  split at h
  · cases h
  split at h
  · cases h
  split at h
  · cases h
  · cases h
  split at h
  · cases h
  simp only [Option.some.injEq] at h
  have := List.find?_some h
  simp at this
  exact this.1

/-- One loop: a face is created or found, and connected with the cells. -/
theorem faceStep {cells acc l : List El} {dup new : Bool} {id : Nat} {r : El} {S T1 T2 : Topo}
    (B : Behind cells acc T S) (I : Inv S (fun _ => False)) (hcell : ∀ c ∈ cells, T.alive c = true ∧ c.ty = 3)
    (hn : cells.Nodup) (hne : l ≠ []) (hl : ∀ e ∈ l, T.alive e = true ∧ e.ty = 1)
    (h : T.create dup 2 id l [] = some (T1, some r, new)) (hacc : r ∉ acc) (hlow : ∀ c ∈ cells, r ∉ T.low c)
    (h2 : T1.modHigh r (if new then fun _ => cells else addNew cells) = some T2) :
    (∃ S2, Behind cells (acc ++ [r]) T2 S2 ∧ Inv S2 (fun _ => False)) ∧ Made T [r] T2 := by
  obtain ⟨-, -, hT2⟩ := modHigh_some h2
  rcases createFace_cases hne h with ⟨rfl, -, rfl, hf⟩ | ⟨rfl, rfl, hd, -, -, rfl⟩
  · -- an existing face
    obtain ⟨z, hz, hr⟩ := findShared_mem hf
    rw [← B.high] at hr
    have hz1 := (hl z hz).2
    have hrl := I.highLive (fun h => h) hr
    have hrt := (I.highTy (fun h => h) hr).1 (by omega)
    have hra : T1.alive r = true := by rw [← B.frame.alive]; exact hrl.2
    have hr2 : r.ty = 2 := by omega
    have hrc : ∀ c ∈ cells, c ∉ T1.high r := by
      intro c hc hm
      rw [← B.high] at hm
      have := (I.mem (fun h => h)).2 hm
      rw [B.low, if_pos hc] at this
      rcases List.mem_append.1 this with h | h
      · exact hlow c hc h
      · exact hacc h
    simp only [Bool.false_eq_true, if_false, addNew_fresh cells _ hn hrc] at hT2
    subst hT2
    refine ⟨⟨{ S with
      high := set1 T1.high r (T1.high r ++ cells)
      low := fun x => T1.low x ++ if x ∈ cells then acc ++ [r] else [] },
      ⟨⟨B.frame.cn, B.frame.alive, B.frame.last, B.frame.hide, B.frame.hidden⟩, rfl, fun _ => rfl⟩, ?_⟩, ?_⟩
    · refine I.link (A := [r]) (B := cells) ⟨rfl, rfl, rfl, rfl, rfl⟩ ?_ ?_ ?_ ?_ ?_
      · intro x hx; rw [List.mem_singleton.1 hx]; exact hrl.2
      · intro x hx; rw [B.frame.alive]; exact (hcell x hx).1
      · intro a ha b hb
        have := (hcell b hb).2
        rw [List.mem_singleton.1 ha]
        exact ⟨fun _ => by omega, fun _ => by omega⟩
      · intro x z
        show (T1.low x ++ _).count z = _
        rw [B.low]
        by_cases hx : x ∈ cells
        · rw [if_pos hx, if_pos hx, count_one hn hx]
          simp only [List.count_append]; omega
        · rw [if_neg hx, if_neg hx, List.count_eq_zero.2 hx]; simp
      · intro x z
        show (set1 T1.high r _ x).count z = _
        rw [B.high]
        by_cases hx : x = r
        · subst hx; rw [set1_same]; simp
        · rw [set1_ne _ _ hx]; simp [hx]
          simp [List.count_eq_zero.2 (fun h => hx (List.mem_singleton.1 h))]
    · refine ⟨rfl, rfl, fun _ _ => rfl, fun _ h => h, fun _ h => Or.inl h, fun _ _ => rfl, fun x hx h1 h2 => ?_, ?_⟩
      · exact set1_ne _ _ (fun h => h2 (by simp [h]))
      · intro x hx
        rw [List.mem_singleton.1 hx]
        exact ⟨hra, hr2, (findShared_vis hf : T1.hid r = false)⟩
  · -- a new face
    generalize hr : (⟨2, id⟩ : El) = r at *
    have hr2 : r.ty = 2 := by rw [← hr]
    have hSd : S.alive r = false := by rw [B.frame.alive]; exact hd
    obtain ⟨It, el, eh, ehid⟩ := tie_inv I hSd (by omega)
    obtain ⟨d1, d2, d3⟩ := I.dead r hSd
    have hTh : T.high r = [] := by rw [← B.high]; exact d2
    have hTl : T.low r = [] := by
      have := B.low r
      rw [d1] at this
      exact (List.append_eq_nil_iff.1 this.symm).1
    have hne' : ∀ x, T.alive x = true → x ≠ r := by rintro x hx rfl; rw [hd] at hx; cases hx
    have hrc : r ∉ cells := fun h => hne' r (hcell r h).1 rfl
    have hrl : r ∉ l := fun h => hne' r (hl r h).1 rfl
    simp only [if_true] at hT2
    have hT2' : T2 = { T.tie r with
        low := set1 T.low r l
        high := fun x => if x = r then cells else T.high x ++ List.replicate (l.count x) r } := by
      rw [hT2]
      congr 1
      funext x
      by_cases hx : x = r
      · subst hx; simp [set1]
      · simp [set1, hx, Topo.tie]
    clear hT2; subst hT2'
    have hlast : (S.tie r).last = (T.tie r).last := by simp only [Topo.tie, B.frame.last]
    have halive : (S.tie r).alive = (T.tie r).alive := by simp only [Topo.tie, B.frame.alive]
    have hhid : (S.tie r).hidden = (T.tie r).hidden := by simp only [Topo.tie, B.frame.hidden]
    refine ⟨⟨{ S.tie r with
      high := fun x => if x = r then cells else T.high x ++ List.replicate (l.count x) r
      low := fun x => set1 T.low r l x ++ if x ∈ cells then acc ++ [r] else [] },
      ⟨⟨B.frame.cn, halive, hlast, B.frame.hide, hhid⟩, rfl, fun _ => rfl⟩, ?_⟩, ?_⟩
    · have I1 : Inv ({ S.tie r with
          high := fun x => S.high x ++ List.replicate (l.count x) r
          low := fun x => if x = r then l else S.low x } : Topo) (fun _ => False) := by
        refine It.link (A := l) (B := [r]) ⟨rfl, rfl, rfl, rfl, rfl⟩ ?_ ?_ ?_ ?_ ?_
        · intro x hx
          show set1 S.alive r true x = true
          rw [set1_ne _ _ (hne' x (hl x hx).1), B.frame.alive]; exact (hl x hx).1
        · intro x hx; rw [List.mem_singleton.1 hx]; exact set1_same _ _ _
        · intro a ha b hb
          have := (hl a ha).2
          rw [List.mem_singleton.1 hb]
          exact ⟨fun _ => by omega, fun _ => by omega⟩
        · intro x z
          show (if x = r then l else S.low x).count z = _
          rw [el]
          by_cases hx : x = r
          · subst hx; rw [if_pos rfl, d1]; simp
          · rw [if_neg hx, List.count_eq_zero.2 (fun h => hx (List.mem_singleton.1 h))]; simp
        · intro x z
          show (S.high x ++ _).count z = _
          rw [eh, List.count_append, List.count_replicate, List.count_singleton]
          simp only [beq_iff_eq]
          split <;> simp
      refine I1.link (A := [r]) (B := cells) ⟨rfl, rfl, rfl, rfl, rfl⟩ ?_ ?_ ?_ ?_ ?_
      · intro x hx; rw [List.mem_singleton.1 hx]; exact set1_same _ _ _
      · intro x hx
        show set1 S.alive r true x = true
        rw [set1_ne _ _ (hne' x (hcell x hx).1), B.frame.alive]; exact (hcell x hx).1
      · intro a ha b hb
        have := (hcell b hb).2
        rw [List.mem_singleton.1 ha]
        exact ⟨fun _ => by omega, fun _ => by omega⟩
      · intro x z
        show (set1 T.low r l x ++ _).count z = (if x = r then l else S.low x).count z + _
        by_cases hx : x = r
        · subst hx; rw [set1_same, if_neg hrc, if_pos rfl, List.count_eq_zero.2 hrc]; simp
        · rw [set1_ne _ _ hx, if_neg hx, B.low]
          by_cases hc : x ∈ cells
          · rw [if_pos hc, if_pos hc, count_one hn hc]
            simp only [List.count_append]; omega
          · rw [if_neg hc, if_neg hc, List.count_eq_zero.2 hc]; simp
      · intro x z
        show (if x = r then cells else _).count z = (S.high x ++ _).count z + _
        rw [B.high]
        by_cases hx : x = r
        · subst hx; rw [if_pos rfl, hTh, List.count_eq_zero.2 hrl]; simp
        · rw [if_neg hx, List.count_eq_zero.2 (fun h => hx (List.mem_singleton.1 h))]; simp
    · refine ⟨rfl, rfl, fun x hx => set1_ne _ _ (hne' x hx), fun x hx => ?_, fun x hx => ?_, fun x hx => ?_,
        fun x hx h1 h2 => ?_, ?_⟩
      · show set1 T.alive r true x = true
        rw [set1_ne _ _ (hne' x hx)]; exact hx
      · by_cases h : x = r
        · exact Or.inr ⟨by simp [h], by rw [h]; exact hr2⟩
        · replace hx : set1 T.alive r true x = true := hx
          rw [set1_ne _ _ h] at hx; exact Or.inl hx
      · exact set1_ne _ _ (hne' x hx)
      · show (if x = r then cells else _) = _
        rw [if_neg (hne' x hx), List.count_eq_zero.2 (fun h => h1 (hl x h).2)]
        simp
      · intro x hx
        rw [List.mem_singleton.1 hx]
        refine ⟨set1_same _ _ _, hr2, ?_⟩
        show (T.hide && set1 T.hidden r false r) = false
        rw [set1_same, Bool.and_false]

theorem makeFaces_inv {cells : List El} {dup : Bool} (hn : cells.Nodup) : ∀ (loops : List (List El)) (ids : List Nat)
    (acc : List El) (T S T' : Topo) (ret : List El), Behind cells acc T S → Inv S (fun _ => False) →
    (∀ c ∈ cells, T.alive c = true ∧ c.ty = 3) → (∀ l ∈ loops, ∀ e ∈ l, T.alive e = true ∧ e.ty = 1) →
    (acc ++ ret).Nodup → (∀ c ∈ cells, ∀ g ∈ ret, g ∉ T.low c) →
    Topo.makeFaces dup cells loops ids T = some (T', ret) →
    (∃ S', Behind cells (acc ++ ret) T' S' ∧ Inv S' (fun _ => False)) ∧ Made T ret T'
  | [], ids, acc, T, S, T', ret, B, I, hc, hl, ha, hg, h => by
    cases h
    exact ⟨⟨S, by simpa using B, I⟩, .refl _⟩
  | l :: ls, ids, acc, T, S, T', ret, B, I, hc, hl, ha, hg, h => by
    unfold Topo.makeFaces at h
    split at h
    · exact makeFaces_inv hn ls ids acc T S T' ret B I hc (fun l h => hl l (by simp [h])) ha hg h
    next hlen =>
    split at h
    · cases h
    next id ids' =>
    split at h
    case h_2 => cases h
    next T1 r new h1 =>
    split at h
    · cases h
    next T2 h2 =>
    split at h
    · cases h
    next T3 rs h3 =>
    cases h
    have hacc : r ∉ acc := fun hm => (List.nodup_append.1 ha).2.2 r hm r (by simp) rfl
    obtain ⟨⟨S2, B2, I2⟩, M⟩ := faceStep B I hc hn (by rintro rfl; simp at hlen) (hl l (by simp)) h1 hacc
      (fun c hc => hg c hc r (by simp)) h2
    obtain ⟨hS, M'⟩ := makeFaces_inv hn ls ids' (acc ++ [r]) T2 S2 T' rs B2 I2
      (fun c h => ⟨M.mono c (hc c h).1, (hc c h).2⟩)
      (fun l' h e he => ⟨M.mono e (hl l' (by simp [h]) e he).1, (hl l' (by simp [h]) e he).2⟩)
      (by simpa using ha) (fun c h g hg' => by rw [M.low c (hc c h).1]; exact hg c h g (by simp [hg'])) h3
    exact ⟨by simpa using hS, M.trans M'⟩

/-! ## Connection with the cells -/

theorem addNews_spec (c : El) : ∀ (l : List El) (T T' : Topo), l.Nodup → (∀ n ∈ l, c ∉ T.low n) →
    forEach (fun T n => T.modLow n (addNew [c])) l T = some T' →
    (∀ x ∈ l, T.alive x = true) ∧
    T' = { T with low := fun x => T.low x ++ if x ∈ l then [c] else [] }
  | [], T, T', _, _, e => by
    simp only [forEach, Option.some.injEq] at e
    subst e; simp
  | n :: ns, T, T', hn, hc, e => by
    rw [List.nodup_cons] at hn
    unfold forEach at e
    split at e
    · cases e
    next T1 h1 =>
    obtain ⟨ha, rfl⟩ := modLow_some h1
    have hnn : ∀ m ∈ ns, m ≠ n := by rintro m hm rfl; exact hn.1 hm
    obtain ⟨ha', rfl⟩ := addNews_spec c ns _ T' hn.2 (by
      intro m hm
      simp only [set1_ne _ _ (hnn m hm)]
      exact hc m (by simp [hm])) e
    refine ⟨fun y hy => ?_, ?_⟩
    · rcases List.mem_cons.1 hy with rfl | hy
      · exact ha
      · exact ha' y hy
    · congr 1
      funext y
      by_cases hy : y = n
      · subst hy
        simp only [set1_same, addNew, if_neg (hc y (by simp)), if_neg hn.1, List.append_nil, List.mem_cons,
          true_or, if_true]
      · simp only [set1_ne _ _ hy, List.mem_cons, hy, false_or]

theorem cellLinks_spec {ret cnodes : List El} {c : El} (hn : cnodes.Nodup) (hcn : T.cn = true → ∀ n ∈ cnodes, c ∉ T.low n)
    (hty : c ∉ cnodes) (h : Topo.cellLinks ret cnodes T c = some T') : T.alive c = true ∧
      (T.cn = true → ∀ n ∈ cnodes, T.alive n = true) ∧ Frame T T' ∧
      (∀ x, T'.low x = T.low x ++ (if x = c then ret else []) ++ if T.cn = true ∧ x ∈ cnodes then [c] else []) ∧
      (∀ x, T'.high x = T.high x ++ if T.cn = true ∧ x = c then cnodes else []) := by
  unfold Topo.cellLinks at h
  split at h
  · cases h
  next T1 h1 =>
  obtain ⟨ha, rfl⟩ := modLow_some h1
  split at h
  · next hcn' =>
    split at h
    · cases h
    next T2 h2 =>
    obtain ⟨-, -, rfl⟩ := modHigh_some h2
    obtain ⟨hal, rfl⟩ := addNews_spec c cnodes _ _ hn (by
      intro n hn'
      have : n ≠ c := by rintro rfl; exact hty hn'
      simp only [set1_ne _ _ this]
      exact hcn hcn' n hn') h
    refine ⟨ha, fun _ => hal, ⟨rfl, rfl, rfl, rfl, rfl⟩, fun x => ?_, fun x => ?_⟩
    · by_cases hx : x = c
      · subst hx; simp [set1, hcn', hty]
      · simp [set1, hcn', hx]
    · by_cases hx : x = c
      · subst hx; simp [set1, hcn']
      · simp [set1, hx]
  · next hcn' =>
    cases h
    refine ⟨ha, fun h => absurd h hcn', ⟨rfl, rfl, rfl, rfl, rfl⟩, fun x => ?_, fun x => ?_⟩
    · by_cases hx : x = c
      · subst hx; simp [set1, hcn']
      · simp [set1, hx, hcn']
    · simp [hcn']

theorem linksLoop_spec {ret cnodes : List El} (hn : cnodes.Nodup) : ∀ (cells : List El) (T T' : Topo), cells.Nodup →
    (∀ c ∈ cells, c ∉ cnodes) → (T.cn = true → ∀ c ∈ cells, ∀ n ∈ cnodes, c ∉ T.low n) →
    forEach (Topo.cellLinks ret cnodes) cells T = some T' →
      (∀ c ∈ cells, T.alive c = true) ∧ (T.cn = true → cells ≠ [] → ∀ n ∈ cnodes, T.alive n = true) ∧ Frame T T' ∧
      (∀ x, T'.low x = T.low x ++ (if x ∈ cells then ret else []) ++ if T.cn = true ∧ x ∈ cnodes then cells else []) ∧
      (∀ x, T'.high x = T.high x ++ if T.cn = true ∧ x ∈ cells then cnodes else [])
  | [], T, T', _, _, _, h => by
    cases h
    refine ⟨by simp, by simp, .refl _, by simp, by simp⟩
  | c :: cs, T, T', hc, hty, hfr, h => by
    rw [List.nodup_cons] at hc
    unfold forEach at h
    split at h
    · cases h
    next T1 h1 =>
    obtain ⟨a1, a2, F, l1, u1⟩ := cellLinks_spec hn (fun h n hn => hfr h c (by simp) n hn) (hty c (by simp)) h1
    have hne : ∀ x ∈ cs, x ≠ c := by rintro x hx rfl; exact hc.1 hx
    obtain ⟨b1, b2, F', l2, u2⟩ := linksLoop_spec hn cs T1 T' hc.2 (fun c h => hty c (by simp [h])) (by
      intro h d hd n hn'
      rw [F.cn] at h
      have hnc : n ≠ c := by rintro rfl; exact hty n (by simp) hn'
      rw [l1, if_neg hnc, if_pos ⟨h, hn'⟩]
      simp only [List.append_nil, List.mem_append, List.mem_singleton, not_or]
      exact ⟨hfr h d (by simp [hd]) n hn', hne d hd⟩) h
    refine ⟨fun x hx => ?_, fun h _ => a2 h, F.trans F', fun x => ?_, fun x => ?_⟩
    · rcases List.mem_cons.1 hx with rfl | hx
      · exact a1
      · rw [← F.alive]; exact b1 x hx
    · rw [l2, l1, F.cn]
      by_cases hx : x = c
      · subst hx
        simp [hc.1, hty x (by simp)]
      · by_cases hxn : x ∈ cnodes
        · have : x ∉ cs := fun h => hty x (by simp [h]) hxn
          by_cases hT : T.cn = true <;> simp [hx, hxn, this, hT]
        · simp [hx, hxn]
    · rw [u2, u1, F.cn]
      by_cases hx : x = c
      · subst hx
        simp [hc.1]
      · simp [hx]

/-! ## All together -/

theorem splitFaceRun_parts {dup : Bool} {f : El} {cnodes ret : List El} {loops : List (List El)} {ids : List Nat}
    (h : T.splitFaceRun flip dup f cnodes loops ids = some (T', ret)) :
    ∃ T1 T2, T.dropFace flip f (T.cellsOf f) = some T1 ∧
      Topo.makeFaces dup (T.cellsOf f) loops ids T1 = some (T2, ret) ∧
      forEach (Topo.cellLinks ret cnodes) (T.cellsOf f) T2 = some T' := by
  unfold Topo.splitFaceRun at h
  split at h
  · cases h
  next T1 h1 =>
  split at h
  · cases h
  next T2 r h2 =>
  split at h
  · cases h
  next T3 h3 =>
  cases h
  exact ⟨T1, T2, h1, h2, h3⟩

/-- A face that was not there before, or one that is not hidden. -/
theorem makeFaces_old {cells : List El} {dup : Bool} : ∀ (loops : List (List El)) (ids : List Nat) (T T' : Topo)
    (ret : List El), Topo.makeFaces dup cells loops ids T = some (T', ret) →
    T'.hide = T.hide ∧ (∀ x, T.alive x = true → T'.alive x = true ∧ T'.hidden x = T.hidden x) ∧
      ∀ r ∈ ret, T.alive r = true → T.hid r = false
  | [], ids, T, T', ret, h => by cases h; simp
  | l :: ls, ids, T, T', ret, h => by
    unfold Topo.makeFaces at h
    split at h
    · exact makeFaces_old ls ids T T' ret h
    next hlen =>
    split at h
    · cases h
    next id ids' =>
    split at h
    case h_2 => cases h
    next T1 r new h1 =>
    split at h
    · cases h
    next T2 h2 =>
    split at h
    · cases h
    next T3 rs h3 =>
    cases h
    obtain ⟨-, -, rfl⟩ := modHigh_some h2
    obtain ⟨g1, g2, g3⟩ := makeFaces_old ls ids' _ T' rs h3
    rcases createFace_cases (by rintro rfl; simp at hlen) h1 with ⟨-, -, rfl, hf⟩ | ⟨-, rfl, hd, -, -, rfl⟩
    · refine ⟨g1, g2, fun x hx ha => ?_⟩
      rcases List.mem_cons.1 hx with rfl | hx
      · exact findShared_vis hf
      · exact g3 x hx ha
    · have hne : ∀ x, T.alive x = true → x ≠ ⟨2, id⟩ := by rintro x hx rfl; rw [hd] at hx; cases hx
      have hal : ∀ x, T.alive x = true → set1 T.alive ⟨2, id⟩ true x = true := fun x hx => by
        rw [set1_ne _ _ (hne x hx)]; exact hx
      refine ⟨g1, fun x hx => ?_, fun x hx ha => ?_⟩
      · obtain ⟨k1, k2⟩ := g2 x (hal x hx)
        exact ⟨k1, k2.trans (set1_ne _ _ (hne x hx))⟩
      · rcases List.mem_cons.1 hx with rfl | hx
        · rw [hd] at ha; cases ha
        · have := g3 x hx (hal x ha)
          unfold Topo.hid at this ⊢
          have e : (T.tie ⟨2, id⟩).hidden x = T.hidden x := set1_ne _ _ (hne x ha)
          exact (congrArg (T.hide && ·) e).symm.trans this

theorem splitFaceRun_inv {dup : Bool} {f : El} {cnodes ret : List El} {loops : List (List El)} {ids : List Nat}
    (I : Inv T (fun _ => False)) (A : SplitFaceOk T f cnodes loops ret)
    (h : T.splitFaceRun flip dup f cnodes loops ids = some (T', ret)) :
    Inv T' (fun _ => False) ∧ T'.cn = T.cn := by
  obtain ⟨T1, T2, h1, h2, h3⟩ := splitFaceRun_parts h
  obtain ⟨I1, c1, al⟩ := dropFace_inv I A.ty h1
  have hcell : ∀ c ∈ T.cellsOf f, c ∈ T.high f := fun c hc => (List.mem_filter.1 hc).1
  have hct : ∀ c ∈ T.cellsOf f, c.ty = 3 := by
    intro c hc
    have := (I.highTy (fun h => h) (hcell c hc)).1 (by have := A.ty; omega)
    have := A.ty
    omega
  have hca : ∀ c ∈ T.cellsOf f, T.alive c = true := fun c hc => (I.highLive (fun h => h) (hcell c hc)).2
  have hcf : ∀ c ∈ T.cellsOf f, c ≠ f := by
    rintro c hc rfl
    have := hct c hc; have := A.ty; omega
  have hlow1 : ∀ c ∈ T.cellsOf f, ∀ g ∈ ret, g ∉ T1.low c := by
    intro c hc g hg hm
    obtain ⟨ha, ⟨hh, rfl⟩ | ⟨hh, D⟩⟩ := dropFace_spec I A.ty h1
    · have hgf : g ≠ f := by
        rintro rfl
        have := (makeFaces_old _ _ _ _ _ h2).2.2 g hg ha
        unfold Topo.hid at this
        simp [hh, set1] at this
      exact A.other c hc g hg hgf hm
    · rw [D.low, if_neg (hcf c hc)] at hm
      obtain ⟨hm, hgf⟩ := mem_eraseAll.1 hm
      exact A.other c hc g hg hgf hm
  obtain ⟨⟨S, B, IS⟩, M⟩ := makeFaces_inv (cells := T.cellsOf f) A.once loops ids [] T1 T1 T2 ret
    ⟨.refl _, rfl, by simp⟩ I1 (fun c hc => ⟨by rw [al c (hcf c hc)]; exact hca c hc, hct c hc⟩)
    (fun l hl e he => by
      obtain ⟨k1, k2⟩ := A.edges l hl e he
      refine ⟨?_, k2⟩
      rw [al e (by rintro rfl; have := A.ty; omega)]; exact k1)
    (by simpa using A.nodup) hlow1 h2
  rw [List.nil_append] at B
  have hlown : ∀ n ∈ cnodes, T2.low n = T.low n := by
    intro n hn
    obtain ⟨k1, k2⟩ := A.nodes n hn
    have hnf : n ≠ f := by rintro rfl; have := A.ty; omega
    rw [M.low n (by rw [al n hnf]; exact k1)]
    obtain ⟨ha, ⟨hh, rfl⟩ | ⟨hh, D⟩⟩ := dropFace_spec I A.ty h1
    · rfl
    · rw [D.low, if_neg hnf, eraseAll_none]
      intro hm
      have := ((I.lowTy n f hm).2 k2).2
      have := A.ty; omega
  have hcn2 : T2.cn = T.cn := M.cn.trans c1
  obtain ⟨b1, b2, F, l3, u3⟩ := linksLoop_spec A.nodesOnce (T.cellsOf f) T2 T' A.once
    (fun c hc hm => by have := hct c hc; have := (A.nodes c hm).2; omega)
    (fun hcn c hc n hn hm => by
      rw [hlown n hn] at hm
      exact A.fresh (by rw [← hcn2]; exact hcn) c hc n hn ((I.mem (fun h => h)).1 hm)) h3
  refine ⟨?_, F.cn.trans hcn2⟩
  have FS : Frame S T' := ⟨F.cn.trans B.frame.cn.symm, F.alive.trans B.frame.alive.symm,
    F.last.trans B.frame.last.symm, F.hide.trans B.frame.hide.symm, F.hidden.trans B.frame.hidden.symm⟩
  by_cases hcn : T2.cn = true
  · refine IS.link (A := T.cellsOf f) (B := cnodes) FS ?_ ?_ ?_ ?_ ?_
    · intro x hx; rw [B.frame.alive]; exact b1 x hx
    · intro x hx
      rw [B.frame.alive]
      exact M.mono x (by rw [al x (by rintro rfl; have := (A.nodes x hx).2; have := A.ty; omega)]; exact (A.nodes x hx).1)
    · intro a ha b hb
      have := hct a ha; have := (A.nodes b hb).2
      exact ⟨fun _ => by omega, fun _ => ⟨by rw [B.frame.cn]; exact hcn, by omega⟩⟩
    · intro x z
      rw [l3, B.low]
      simp only [List.count_append, hcn, true_and]
      by_cases hx : x ∈ cnodes
      · rw [if_pos hx, count_one A.nodesOnce hx]; omega
      · rw [if_neg hx, List.count_eq_zero.2 hx]; simp
    · intro x z
      rw [u3, B.high]
      simp only [List.count_append, hcn, true_and]
      by_cases hx : x ∈ T.cellsOf f
      · rw [if_pos hx, count_one A.once hx]; omega
      · rw [if_neg hx, List.count_eq_zero.2 hx]; simp
  · refine IS.link (A := []) (B := []) FS (by simp) (by simp) (by simp) ?_ ?_
    · intro x z; rw [l3, B.low]; simp [hcn]
    · intro x z; rw [u3, B.high]; simp [hcn]

end Verif.Topology
