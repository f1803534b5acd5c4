import Verif.Iterators.Lemmas
import Mathlib.Data.List.Nodup

/-!
# Lemmas on element counts and on handle stepping
-/

namespace Verif.Iterators

open Verif.Handles

/-- Hidden slots. -/
def hidSlot : Slot → Bool
  | .dead => false
  | .live hid _ => hid

theorem count_split (l : List Slot) :
    (l.countP fun s => !skipSlot s) + l.countP deadSlot + l.countP hidSlot = l.length := by
  induction l with
  | nil => simp
  | cons s l ih =>
    simp only [List.countP_cons, List.length_cons]
    cases s with
    | dead =>
      simp only [show skipSlot .dead = true from rfl, show deadSlot .dead = true from rfl,
        show hidSlot .dead = false from rfl, Bool.not_true, Bool.false_eq_true, if_true, if_false]
      omega
    | live a b =>
      simp only [show skipSlot (.live a b) = a from rfl, show deadSlot (.live a b) = false from rfl,
        show hidSlot (.live a b) = a from rfl]
      cases a <;> simp only [Bool.not_true, Bool.not_false, Bool.false_eq_true, if_true, if_false] <;>
        omega

theorem filter_range_vis (skip) (l : List Slot) :
    ((List.range l.length).filter (vis skip l)).length = l.countP fun s => !skip s := by
  induction l with
  | nil => simp
  | cons s l ih =>
    rw [List.length_cons, List.range_succ_eq_map, List.filter_cons, List.countP_cons,
      List.filter_map]
    have e : (vis skip (s :: l) ∘ Nat.succ) = vis skip l := by
      funext i; simp [vis]
    have e0 : vis skip (s :: l) 0 = !skip s := by simp [vis]
    rw [e, e0, ← ih]
    cases skip s <;> simp

theorem visibleOf_length (p : Pop) (q : Nat) (hq : q ≠ 5) :
    (visibleOf p q).length = (p.links q).countP fun s => !skipSlot s := by
  rw [visibleOf_eff, fromN, eff, if_neg hq, Nat.sub_zero, ← List.range_eq_range', filter_range_vis]

theorem bit_and : ∀ types : BitVec 8, ∀ m : Fin 6,
    (types &&& (1#8 <<< (m : Nat)) ≠ 0) ↔ types.getLsbD m = true := by decide +kernel

/-- `empty_links` lists exactly the dead numbers, each once. -/
def EOk (p : Pop) : Prop :=
  ∀ q, (p.emptyLinks q).Nodup ∧ (∀ i ∈ p.emptyLinks q, (p.links q)[i]? = some .dead) ∧
    (p.emptyLinks q).length = (p.links q).countP deadSlot

/-- Consistency of the population. -/
structure Ok (p : Pop) : Prop where
  e : EOk p
  h : ∀ q, p.hiddenCount q = ((p.links q).countP hidSlot : Nat)
  out : ∀ q, 5 ≤ q → p.links q = []
  unmod : p.modified = false → ∀ q, (p.links q).countP hidSlot = 0

theorem numberOf_ok (p : Pop) (hp : Ok p) (types : BitVec 8) :
    numberOf p types = (expected p types).length := by
  have hone : ∀ m : Fin 5,
      (if types &&& (1#8 <<< (m : Nat)) ≠ 0 then
        ((p.links m).length : Int) - (p.emptyLinks m).length - p.hiddenCount m else 0) =
      ((if types.getLsbD m then (visibleOf p m).map (fun i : Nat => ((m : Nat), (i : Int)))
        else []).length : Nat) := by
    intro m
    have hb := bit_and types ⟨m, by omega⟩
    simp only at hb
    by_cases h : types.getLsbD m = true
    · rw [if_pos (hb.2 h), if_pos h, List.length_map, visibleOf_length _ _ (by omega),
        (hp.e m).2.2, hp.h m]
      have := count_split (p.links m)
      omega
    · rw [if_neg (fun hc => h (hb.1 hc)), if_neg h]; simp
  have h5 := bit_and types ⟨5, by omega⟩
  simp only at h5
  have hM : (1#8 <<< 5) = MESH := rfl
  rw [hM] at h5
  have e := fun (m : Nat) (hm : m < 5) => hone ⟨m, hm⟩
  simp only at e
  rw [numberOf]
  simp only [e 0 (by omega), e 1 (by omega), e 2 (by omega), e 3 (by omega), e 4 (by omega)]
  have hex : (expected p types).length =
      (if types.getLsbD 0 then (visibleOf p 0).map (fun i : Nat => ((0 : Nat), (i : Int))) else []).length +
      (if types.getLsbD 1 then (visibleOf p 1).map (fun i : Nat => ((1 : Nat), (i : Int))) else []).length +
      (if types.getLsbD 2 then (visibleOf p 2).map (fun i : Nat => ((2 : Nat), (i : Int))) else []).length +
      (if types.getLsbD 3 then (visibleOf p 3).map (fun i : Nat => ((3 : Nat), (i : Int))) else []).length +
      (if types.getLsbD 4 then (visibleOf p 4).map (fun i : Nat => ((4 : Nat), (i : Int))) else []).length +
      (if types.getLsbD 5 then (visibleOf p 5).map (fun i : Nat => ((5 : Nat), (i : Int))) else []).length := by
    unfold expected
    rw [show List.range 6 = [0, 1, 2, 3, 4, 5] from rfl]
    simp only [List.flatMap_cons, List.flatMap_nil, List.length_append, List.length_nil]
    omega
  rw [hex]
  have hv5 : visibleOf p 5 = [0] := by simp [visibleOf]
  by_cases h : types.getLsbD 5 = true
  · rw [if_pos (h5.2 h), if_pos h, hv5]; simp only [List.length_map, List.length_singleton]; omega
  · rw [if_neg (fun hc => h (h5.1 hc)), if_neg h]; simp only [List.length_nil]; omega

theorem untie_e (p : Pop) (hp : EOk p) (q i : Nat) (a b : Bool)
    (h : (p.links q)[i]? = some (.live a b)) : EOk (untie p q i) := by
  intro j
  obtain ⟨h1, h2, h3⟩ := hp j
  unfold untie
  by_cases hj : j = q
  · subst hj
    simp only [upd, if_true]
    have hi : i < (p.links j).length := by
      rw [List.getElem?_eq_some_iff] at h; exact h.1
    have hni : i ∉ p.emptyLinks j := by
      intro hm; rw [h2 i hm] at h; simp at h
    refine ⟨?_, ?_, ?_⟩
    · rw [List.nodup_append]
      exact ⟨h1, by simp, by intro x hx y hy; simp at hy; rintro rfl; exact hni (hy ▸ hx)⟩
    · intro k hk
      rw [List.mem_append, List.mem_singleton] at hk
      rcases hk with hk | hk
      · have : i ≠ k := by rintro rfl; exact hni hk
        rw [List.getElem?_set_ne this]; exact h2 k hk
      · subst hk; rw [List.getElem?_set_self hi]
    · rw [List.countP_set hi, List.length_append, h3]
      have : (p.links j)[i] = .live a b := by
        rw [List.getElem?_eq_some_iff] at h; exact h.2
      simp [this, deadSlot]
  · simp only [upd, if_neg hj]; exact ⟨h1, h2, h3⟩

theorem endOne_e (q : Nat) (p : Pop) (i : Nat) (hp : EOk p) : EOk (endOne q p i) := by
  unfold endOne
  split
  · rename_i a b h
    split
    · exact untie_e p hp q i a b h
    · exact hp
  · exact hp

theorem foldl_inv {α β : Type} (P : β → Prop) (f : β → α → β) (hf : ∀ b a, P b → P (f b a)) :
    ∀ (l : List α) (b : β), P b → P (l.foldl f b) := by
  intro l
  induction l with
  | nil => intro b hb; exact hb
  | cons x l ih => intro b hb; exact ih _ (hf _ _ hb)

theorem endType_e (p : Pop) (q : Nat) (hp : EOk p) : EOk (endType p q) :=
  foldl_inv EOk _ (fun b i hb => endOne_e q b i hb) _ _ hp

theorem clearMarks_dead (l : List Slot) : (l.map clearMarks).countP deadSlot = l.countP deadSlot := by
  rw [List.countP_map]; congr 1; funext s; cases s <;> rfl

theorem endMod_e (p : Pop) (hp : EOk p) : EOk (endMod p) := by
  have h : EOk ([4, 3, 2, 1, 0].foldl endType p) :=
    foldl_inv EOk _ (fun b q hb => endType_e b q hb) _ _ hp
  unfold endMod
  generalize [4, 3, 2, 1, 0].foldl endType p = p' at h
  intro q
  obtain ⟨h1, h2, h3⟩ := h q
  refine ⟨h1, ?_, ?_⟩
  · intro i hi
    simp only [List.getElem?_map, h2 i hi]; rfl
  · show _ = (List.map clearMarks _).countP deadSlot
    rw [clearMarks_dead]; exact h3

theorem endOne_links (q : Nat) (p : Pop) (i j k : Nat) :
    ((endOne q p i).links j)[k]? =
      if j = q ∧ k = i ∧ (∃ b, (p.links q)[i]? = some (.live true b)) then some .dead
      else (p.links j)[k]? := by
  unfold endOne
  rcases h : (p.links q)[i]? with _ | s
  · simp
  · cases s with
    | dead => simp
    | live a b =>
      cases a
      · simp
      · simp only [if_true, untie, upd]
        by_cases hj : j = q
        · subst hj
          have hi : i < (p.links j).length := by rw [List.getElem?_eq_some_iff] at h; exact h.1
          by_cases hk : k = i
          · subst hk; simp [List.getElem?_set_self hi]
          · simp [hk, List.getElem?_set_ne (Ne.symm hk)]
        · simp [hj]

/-- After the loop over numbers `< n` of type `q`. -/
theorem endFold_links (q : Nat) (p : Pop) (n j k : Nat) :
    (((List.range n).foldl (endOne q) p).links j)[k]? =
      if j = q ∧ k < n ∧ (∃ b, (p.links q)[k]? = some (.live true b)) then some .dead
      else (p.links j)[k]? := by
  induction n with
  | zero => simp
  | succ n ih =>
    rw [List.range_succ, List.foldl_append, List.foldl_cons, List.foldl_nil, endOne_links]
    by_cases hj : j = q
    · subst hj
      by_cases hk : k = n
      · subst hk
        rw [ih]; simp
      · rw [ih]
        have : k < n + 1 ↔ k < n := by omega
        simp [hk, this]
    · rw [ih]; simp [hj]

theorem endType_links (p : Pop) (q j k : Nat) :
    ((endType p q).links j)[k]? =
      if j = q ∧ (∃ b, (p.links q)[k]? = some (.live true b)) then some .dead
      else (p.links j)[k]? := by
  rw [endType, endFold_links]
  by_cases hj : j = q
  · subst hj
    by_cases h : ∃ b, (p.links j)[k]? = some (.live true b)
    · have : k < (p.links j).length := by
        obtain ⟨b, hb⟩ := h; rw [List.getElem?_eq_some_iff] at hb; exact hb.1
      simp [this]
    · simp [h]
  · simp [hj]

/-- Which elements survive the end of a modification epoch. -/
theorem endMod_links (p : Pop) (q k : Nat) (hq : q < 5) :
    ((endMod p).links q)[k]? = match (p.links q)[k]? with
      | some (.live false _) => some (.live false false)
      | some _ => some .dead
      | none => none := by
  have key : (([4, 3, 2, 1, 0].foldl endType p).links q)[k]? =
      if (∃ b, (p.links q)[k]? = some (.live true b)) then some .dead else (p.links q)[k]? := by
    have hq' : q = 0 ∨ q = 1 ∨ q = 2 ∨ q = 3 ∨ q = 4 := by omega
    simp only [List.foldl_cons, List.foldl_nil]
    rcases hq' with rfl | rfl | rfl | rfl | rfl <;>
      simp [endType_links]
  simp only [endMod, List.getElem?_map, key]
  rcases h : (p.links q)[k]? with _ | s
  · simp
  · cases s with
    | dead => simp [clearMarks]
    | live a b => cases a <;> simp [clearMarks]

theorem untie_len (p : Pop) (q i j : Nat) : ((untie p q i).links j).length = (p.links j).length := by
  unfold untie upd; dsimp only; split
  · rename_i h; subst h; simp
  · rfl

theorem endOne_len (q : Nat) (p : Pop) (i j : Nat) :
    ((endOne q p i).links j).length = (p.links j).length := by
  unfold endOne; split
  · split
    · exact untie_len _ _ _ _
    · rfl
  · rfl

theorem endType_len (p : Pop) (q j : Nat) : ((endType p q).links j).length = (p.links j).length :=
  foldl_inv (fun b => (b.links j).length = (p.links j).length) _
    (fun b i hb => (endOne_len q b i j).trans hb) _ _ rfl

theorem endMod_len (p : Pop) (j : Nat) : ((endMod p).links j).length = (p.links j).length := by
  unfold endMod
  simp only [List.length_map]
  exact foldl_inv (fun b => (b.links j).length = (p.links j).length) _
    (fun b i hb => (endType_len b i j).trans hb) _ _ rfl

theorem clearMarks_hid (l : List Slot) : (l.map clearMarks).countP hidSlot = 0 := by
  induction l with
  | nil => rfl
  | cons s l ih => cases s <;> simp [clearMarks, hidSlot] at ih ⊢ <;> exact ih

theorem create_ok (p : Pop) (hp : Ok p) (q : Nat) (hq : q < 5) : Ok (create p q) := by
  unfold create
  rcases hg : (p.emptyLinks q).getLast? with _ | id
  · -- appended
    refine ⟨?_, ?_, ?_, ?_⟩
    · intro j
      obtain ⟨h1, h2, h3⟩ := hp.e j
      by_cases hj : j = q
      · subst hj
        simp only [upd, if_true]
        refine ⟨h1, ?_, ?_⟩
        · intro i hi
          have := h2 i hi
          rw [List.getElem?_append_left (by rw [List.getElem?_eq_some_iff] at this; exact this.1)]
          exact this
        · rw [h3, List.countP_append]; simp [deadSlot]
      · simp only [upd, if_neg hj]; exact ⟨h1, h2, h3⟩
    · intro j
      by_cases hj : j = q
      · subst hj; simp only [upd, if_true, List.countP_append, hp.h j]; simp [hidSlot]
      · simp only [upd, if_neg hj]; exact hp.h j
    · intro j hj; simp only [upd, if_neg (show ¬ j = q by omega)]; exact hp.out j hj
    · intro hm j
      by_cases hj : j = q
      · subst hj; simp only [upd, if_true, List.countP_append, hp.unmod hm j]; simp [hidSlot]
      · simp only [upd, if_neg hj]; exact hp.unmod hm j
  · have hd : (p.links q)[id]? = some .dead := (hp.e q).2.1 id (List.mem_of_getLast? hg)
    have hi : id < (p.links q).length := by rw [List.getElem?_eq_some_iff] at hd; exact hd.1
    have hd' : (p.links q)[id] = .dead := by rw [List.getElem?_eq_some_iff] at hd; exact hd.2
    have hcnt : ((p.links q).set id (.live false p.modified)).countP hidSlot =
        (p.links q).countP hidSlot := by
      rw [List.countP_set hi, hd']; simp [hidSlot]
    refine ⟨?_, ?_, ?_, ?_⟩
    · intro j
      obtain ⟨h1, h2, h3⟩ := hp.e j
      by_cases hj : j = q
      · subst hj
        simp only [upd, if_true]
        have hsplit : p.emptyLinks j = (p.emptyLinks j).dropLast ++ [id] := by
          rw [List.getLast?_eq_some_iff] at hg
          obtain ⟨ys, hys⟩ := hg
          rw [hys]; simp
        have hnd : id ∉ (p.emptyLinks j).dropLast := by
          rw [hsplit, List.nodup_append] at h1
          intro hm
          exact h1.2.2 id hm id (by simp) rfl
        refine ⟨h1.sublist (List.dropLast_sublist _), ?_, ?_⟩
        · intro i hi'
          have hne : id ≠ i := by rintro rfl; exact hnd hi'
          rw [List.getElem?_set_ne hne]
          exact h2 i ((List.dropLast_sublist _).subset hi')
        · rw [List.countP_set hi, hd', List.length_dropLast, h3]; simp [deadSlot]
      · simp only [upd, if_neg hj]; exact ⟨h1, h2, h3⟩
    · intro j
      by_cases hj : j = q
      · subst hj; simp only [upd, if_true, hcnt]; exact hp.h j
      · simp only [upd, if_neg hj]; exact hp.h j
    · intro j hj; simp only [upd, if_neg (show ¬ j = q by omega)]; exact hp.out j hj
    · intro hm j
      by_cases hj : j = q
      · subst hj; simp only [upd, if_true, hcnt]; exact hp.unmod hm j
      · simp only [upd, if_neg hj]; exact hp.unmod hm j

/-- Changing the hide mark of a live slot. -/
theorem mark_ok (p : Pop) (hp : Ok p) (hm : p.modified = true) (q i : Nat) (a a' b : Bool)
    (h : (p.links q)[i]? = some (.live a b)) (c : Int)
    (hc : c = p.hiddenCount q - (if a then 1 else 0) + (if a' then 1 else 0)) :
    Ok { p with links := upd p.links q ((p.links q).set i (.live a' b))
                hiddenCount := upd p.hiddenCount q c } := by
  have hi : i < (p.links q).length := by rw [List.getElem?_eq_some_iff] at h; exact h.1
  have h' : (p.links q)[i] = .live a b := by rw [List.getElem?_eq_some_iff] at h; exact h.2
  refine ⟨?_, ?_, ?_, ?_⟩
  · intro j
    obtain ⟨h1, h2, h3⟩ := hp.e j
    by_cases hj : j = q
    · subst hj
      simp only [upd, if_true]
      refine ⟨h1, ?_, ?_⟩
      · intro k hk
        have hne : i ≠ k := by rintro rfl; rw [h2 i hk] at h; simp at h
        rw [List.getElem?_set_ne hne]; exact h2 k hk
      · rw [List.countP_set hi, h', h3]; simp [deadSlot]
    · simp only [upd, if_neg hj]; exact ⟨h1, h2, h3⟩
  · intro j
    by_cases hj : j = q
    · subst hj
      simp only [upd, if_true]
      rw [hc, List.countP_set hi, h', hp.h j]
      have hpos : a = true → 0 < (p.links j).countP hidSlot := by
        intro ha
        rw [List.countP_pos_iff]
        exact ⟨(p.links j)[i], List.getElem_mem hi, by rw [h', ha]; rfl⟩
      simp only [show hidSlot (.live a b) = a from rfl, show hidSlot (.live a' b) = a' from rfl]
      cases a <;> cases a' <;>
        simp only [Bool.false_eq_true, if_true, if_false, forall_const] at hpos ⊢ <;> omega
    · simp only [upd, if_neg hj]; exact hp.h j
  · intro j hj
    have : j ≠ q := by
      rintro rfl; rw [hp.out j hj] at hi; simp at hi
    simp only [upd, if_neg this]; exact hp.out j hj
  · intro hm'; simp only at hm'; rw [hm] at hm'; cases hm'

theorem step_ok (p p' : Pop) (o : Op) (ho : o ≠ .swapModification) (hp : Ok p)
    (h : step p o = some p') : Ok p' := by
  cases o with
  | create q =>
    simp only [step] at h
    split at h
    · rename_i hq; injection h with h; subst h; exact create_ok p hp q hq
    · cases h
  | destroy q i =>
    simp only [step] at h
    split at h
    · rename_i a b hs
      split at h
      · cases h
      · rename_i hm
        injection h with h; subst h
        have hm : p.modified = false := by simpa using hm
        have hi : i < (p.links q).length := by rw [List.getElem?_eq_some_iff] at hs; exact hs.1
        have hs' : (p.links q)[i] = .live a b := by rw [List.getElem?_eq_some_iff] at hs; exact hs.2
        have hu := hp.unmod hm
        have hz : ∀ j, ((untie p q i).links j).countP hidSlot = 0 := by
          intro j
          by_cases hj : j = q
          · subst hj
            simp only [untie, upd, if_true]
            rw [List.countP_set hi, hu j]; simp [hidSlot]
          · simp only [untie, upd, if_neg hj]; exact hu j
        refine ⟨untie_e p hp.e q i a b hs, ?_, ?_, fun _ => hz⟩
        · intro j; rw [hz j]; have := hp.h j; rw [hu j] at this; exact this
        · intro j hj
          have := untie_len p q i j
          rw [hp.out j hj] at this
          exact List.eq_nil_of_length_eq_zero this
    · cases h
  | hide q i =>
    simp only [step, hide] at h
    split at h
    · rename_i a b hs
      split at h
      · rename_i hm
        split at h
        · injection h with h; subst h; exact hp
        · rename_i ha
          injection h with h; subst h
          exact mark_ok p hp hm q i a true b hs _ (by simp [ha])
      · injection h with h; subst h; exact hp
    · cases h
  | unhide q i =>
    simp only [step, unhide] at h
    split at h
    · rename_i a b hs
      split at h
      · rename_i hm
        split at h
        · rename_i ha
          injection h with h; subst h
          exact mark_ok p hp hm q i a false b hs _ (by simp [ha])
        · injection h with h; subst h; exact hp
      · injection h with h; subst h; exact hp
    · cases h
  | beginModification =>
    simp only [step] at h
    split at h
    · cases h
    · rename_i hm
      injection h with h; subst h
      refine ⟨?_, ?_, ?_, by intro hc; cases hc⟩
      · intro q
        obtain ⟨h1, h2, h3⟩ := hp.e q
        refine ⟨h1, ?_, by simp only [clearMarks_dead, h3]⟩
        intro i hi; simp only [List.getElem?_map, h2 i hi]; rfl
      · intro q
        simp only [clearMarks_hid]
        have hm : p.modified = false := by simpa using hm
        rw [hp.h q, hp.unmod hm q]
      · intro q hq; simp only [hp.out q hq, List.map_nil]
  | swapModification => exact absurd rfl ho
  | endModification =>
    simp only [step] at h
    split at h
    · injection h with h; subst h
      refine ⟨endMod_e p hp.e, ?_, ?_, ?_⟩
      · intro q; simp only [endMod, clearMarks_hid]; rfl
      · intro q hq
        have := endMod_len p q
        rw [hp.out q hq] at this
        exact List.eq_nil_of_length_eq_zero this
      · intro _ q; simp only [endMod, clearMarks_hid]
    · cases h

theorem init_ok : Ok init :=
  ⟨fun _ => ⟨by simp [init], by simp [init], by simp [init]⟩, by simp [init], by simp [init], by simp [init]⟩

theorem run_ok : ∀ (ops : List Op) (p p' : Pop), NoSwap ops → Ok p → run p ops = some p' → Ok p' := by
  intro ops
  induction ops with
  | nil => intro p p' _ hp h; simp only [run] at h; injection h with h; subst h; exact hp
  | cons o os ih =>
    intro p p' hs hp h
    simp only [run] at h
    split at h
    · rename_i p1 h1
      have hs' : o ≠ .swapModification ∧ NoSwap os := by
        unfold NoSwap at hs ⊢; simp only [List.mem_cons, not_or] at hs
        exact ⟨fun hh => hs.1 hh.symm, hs.2⟩
      exact ih p1 p' hs'.2 (step_ok p p1 o hs'.1 hp h1) h
    · cases h

/-! Every history keeps the mesh slot list empty. -/

theorem step_out (p p' : Pop) (o : Op) (hp : ∀ q, 5 ≤ q → p.links q = []) (h : step p o = some p') :
    ∀ q, 5 ≤ q → p'.links q = [] := by
  intro q hq
  have hpq := hp q hq
  cases o with
  | create r =>
    simp only [step] at h
    split at h
    · injection h with h; subst h
      unfold create
      split <;> simp only [upd, if_neg (show ¬ q = r by omega), hpq]
    · cases h
  | destroy r i =>
    simp only [step] at h
    split at h
    · split at h
      · cases h
      · injection h with h; subst h
        have := untie_len p r i q; rw [hpq] at this; exact List.eq_nil_of_length_eq_zero this
    · cases h
  | hide r i =>
    simp only [step, hide] at h
    split at h
    · split at h
      · split at h
        · injection h with h; subst h; exact hpq
        · injection h with h; subst h
          simp only [upd]; split
          · rename_i e; subst e; simp [hpq]
          · exact hpq
      · injection h with h; subst h; exact hpq
    · cases h
  | unhide r i =>
    simp only [step, unhide] at h
    split at h
    · split at h
      · split at h
        · injection h with h; subst h
          simp only [upd]; split
          · rename_i e; subst e; simp [hpq]
          · exact hpq
        · injection h with h; subst h; exact hpq
      · injection h with h; subst h; exact hpq
    · cases h
  | beginModification =>
    simp only [step] at h
    split at h
    · cases h
    · injection h with h; subst h; simp only [hpq, List.map_nil]
  | swapModification =>
    simp only [step] at h
    split at h
    · injection h with h; subst h; simp only [hpq, List.map_nil]
    · cases h
  | endModification =>
    simp only [step] at h
    split at h
    · injection h with h; subst h
      have := endMod_len p q; rw [hpq] at this; exact List.eq_nil_of_length_eq_zero this
    · cases h

theorem run_out : ∀ (ops : List Op) (p p' : Pop), (∀ q, 5 ≤ q → p.links q = []) →
    run p ops = some p' → ∀ q, 5 ≤ q → p'.links q = [] := by
  intro ops
  induction ops with
  | nil => intro p p' hp h; simp only [run] at h; injection h with h; subst h; exact hp
  | cons o os ih =>
    intro p p' hp h
    simp only [run] at h
    split at h
    · rename_i p1 h1
      exact ih p1 p' (step_out p p1 o hp h1) h
    · cases h

/-! ## Handle stepping -/

theorem skipUp_elem (skip) (l : List Slot) (n : Nat) (hn : n ≤ l.length) :
    n ≤ skipUp skip l n ∧ skipUp skip l n ≤ l.length ∧
    (∀ i, n ≤ i → i < skipUp skip l n → vis skip l i = false) ∧
    (skipUp skip l n < l.length → vis skip l (skipUp skip l n) = true) := by
  generalize hd : l.length - n = d
  induction d generalizing n with
  | zero =>
    have : n = l.length := by omega
    subst this
    rw [skipUp]; simp; omega
  | succ d ih =>
    have hlt : n < l.length := by omega
    rw [skipUp, dif_pos hlt]
    cases hs : skip l[n]
    · simp only [Bool.false_eq_true, if_false]
      refine ⟨Nat.le_refl _, by omega, by omega, fun _ => by simp [vis, hlt, hs]⟩
    · simp only [if_true]
      obtain ⟨h1, h2, h3, h4⟩ := ih (n + 1) (by omega) (by omega)
      refine ⟨by omega, h2, ?_, h4⟩
      intro i hi hi2
      rcases Nat.lt_or_ge n i with h | h
      · exact h3 i (by omega) hi2
      · have : i = n := by omega
        subst this; simp [vis, hlt, hs]

theorem skipDownAll_elem (skip) (l : List Slot) (n : Nat) (hn : n ≤ l.length) :
    skipDownAll skip l n ≤ n ∧ (∀ i, skipDownAll skip l n ≤ i → i < n → vis skip l i = false) ∧
    (∀ k, skipDownAll skip l n = k + 1 → vis skip l k = true) := by
  induction n with
  | zero => simp [skipDownAll]
  | succ n ih =>
    rw [skipDownAll, List.getElem?_eq_getElem (show n < l.length by omega)]
    simp only
    have hv : vis skip l n = !skip l[n] := by simp [vis, show n < l.length by omega]
    cases hs : skip l[n]
    · simp only [Bool.false_eq_true, if_false]
      refine ⟨Nat.le_refl _, by omega, ?_⟩
      intro k hk
      have : k = n := by omega
      subst this; rw [hv, hs]; rfl
    · simp only [if_true]
      obtain ⟨h1, h2, h3⟩ := ih (by omega)
      refine ⟨by omega, ?_, h3⟩
      intro i hi hi2
      rcases Nat.lt_or_ge i n with h | h
      · exact h2 i hi h
      · have : i = n := by omega
        subst this; rw [hv, hs]; rfl

end Verif.Iterators
