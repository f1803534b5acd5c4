import Verif.Matching.Model
import Verif.Heap.Lemmas
/-
What the matching keeps up, whatever the arithmetic is.
-/

namespace Verif.Matching

open Verif.Heap (put put_eq put_ne Linked)

variable {R : Type}

/-- Columns are in range. -/
def WfCsr (m : Csr R) : Prop := ∀ k, k < m.n → ∀ q ∈ m.row k, m.col q < m.n

/-- `perm` and `iperm` are inverse to each other, and every pair is an entry of the matrix. -/
structure Pairs (m : Csr R) (perm iperm colPos : Nat → Option Nat) : Prop where
  inv : ∀ c r, perm c = some r ↔ iperm r = some c
  row : ∀ r c, iperm r = some c → r < m.n
  pos : ∀ r c, iperm r = some c → ∃ q, colPos r = some q ∧ q ∈ m.row r ∧ m.col q = c

theorem pairs_start (a : Arith R) (m : Csr R) (U V : Nat → R) :
    Pairs m (start a m.n U V).perm (start a m.n U V).iperm (start a m.n U V).colPos :=
  ⟨by simp [start], by simp [start], by simp [start]⟩

theorem put_apply {α : Type} (f : Nat → α) (i : Nat) (v : α) (j : Nat) :
    put f i v j = if j = i then v else f j := rfl

theorem pairs_pair {m : Csr R} {s : St R} (h : Pairs m s.perm s.iperm s.colPos) {k q : Nat}
    (hk : k < m.n) (hq : q ∈ m.row k) (hc : s.perm (m.col q) = none) (hr : s.iperm k = none) :
    Pairs m (pair m s k q).perm (pair m s k q).iperm (pair m s k q).colPos := by
  obtain ⟨h1, h2, h3⟩ := h
  refine ⟨?_, ?_, ?_⟩
  · intro c r
    simp only [pair, put_apply]
    grind
  · intro r c
    simp only [pair, put_apply]
    grind
  · intro r c
    simp only [pair, put_apply]
    grind

theorem pairs_pair2 {m : Csr R} {s : St R} (h : Pairs m s.perm s.iperm s.colPos) {k q li p : Nat}
    (hk : k < m.n) (hq : q ∈ m.row k) (hc : s.perm (m.col q) = some li) (hr : s.iperm k = none)
    (hp : p ∈ m.row li) (hpc : s.perm (m.col p) = none) :
    Pairs m (pair m (pair m s k q) li p).perm (pair m (pair m s k q) li p).iperm
      (pair m (pair m s k q) li p).colPos := by
  obtain ⟨h1, h2, h3⟩ := h
  refine ⟨?_, ?_, ?_⟩
  · intro c r
    simp only [pair, put_apply]
    grind
  · intro r c
    simp only [pair, put_apply]
    grind
  · intro r c
    simp only [pair, put_apply]
    grind

/-- What the first two stages leave alone. -/
structure Early (s t : St R) : Prop where
  parent : t.parent = s.parent
  augPos : t.augPos = s.augPos
  colList : t.colList = s.colList
  U : t.U = s.U
  V : t.V = s.V
  heap : t.heap = s.heap
  more : ∀ c, (s.perm c).isSome → (t.perm c).isSome

theorem Early.refl (s : St R) : Early s s := ⟨rfl, rfl, rfl, rfl, rfl, rfl, fun _ h => h⟩

theorem Early.trans {s t u : St R} (x : Early s t) (y : Early t u) : Early s u :=
  ⟨y.1.trans x.1, y.2.trans x.2, y.3.trans x.3, y.4.trans x.4, y.5.trans x.5, y.6.trans x.6,
    fun c h => y.more c (x.more c h)⟩

theorem early_pair (m : Csr R) (s : St R) (k q : Nat) : Early s (pair m s k q) :=
  ⟨rfl, rfl, rfl, rfl, rfl, rfl, fun c h => by
    simp only [pair, put_apply]; split <;> simp_all⟩

/-- An entry of an unmatched row that counts as tight is in a matched column. -/
def Covered (a : Arith R) (m : Csr R) (s : St R) (k : Nat) : Prop :=
  s.iperm k = none → ∀ q ∈ m.row k, a.lt (gap a m s k q) a.tiny = true →
    (s.perm (m.col q)).isSome

/-- A property of pairs that holds for tight entries, kept up by the first two stages. -/
theorem matchRow_spec (a : Arith R) (m : Csr R) (P : Nat → Nat → Prop) (k : Nat) (hk : k < m.n) :
    ∀ (l : List Nat) (s : St R), (∀ q ∈ l, q ∈ m.row k) →
    Pairs m s.perm s.iperm s.colPos →
    (∀ q ∈ m.row k, a.lt (gap a m s k q) a.tiny = true → P k q) →
    (∀ r q, s.colPos r = some q → P r q) →
    ∃ t, t = matchRow a m k l s ∧ Pairs m t.perm t.iperm t.colPos ∧ Early s t ∧
      (∀ r q, t.colPos r = some q → P r q) ∧
      (∀ r, r ≠ k → t.iperm r = s.iperm r) ∧
      (∀ q ∈ l, t.iperm k = none → a.lt (gap a m s k q) a.tiny = true →
        (t.perm (m.col q)).isSome) ∧
      (t.iperm k = none → s.iperm k = none) := by
  intro l
  induction l with
  | nil => intro s _ h1 _ h3; exact ⟨s, rfl, h1, Early.refl s, h3, fun _ _ => rfl, by simp, id⟩
  | cons q l ih =>
    intro s hl h1 h2 h3
    rw [matchRow]
    by_cases hb : (a.lt (gap a m s k q) a.tiny && (s.perm (m.col q)).isNone &&
        (s.iperm k).isNone) = true
    · rw [if_pos hb]
      simp only [Bool.and_eq_true, Option.isNone_iff_eq_none] at hb
      have e1 := early_pair m s k q
      obtain ⟨t, a1, a2, a3, a4, a5, a6, a7⟩ := ih (pair m s k q) (fun x hx => hl x (by simp [hx]))
        (pairs_pair h1 hk (hl q (by simp)) hb.1.2 hb.2)
        (fun x hx hg => h2 x hx hg)
        (by
          intro r x hx
          simp only [pair, put_apply] at hx
          split at hx
          · rename_i e
            rw [← Option.some.inj hx, e]
            exact h2 q (hl q (by simp)) hb.1.1
          · exact h3 r x hx)
      refine ⟨t, a1, a2, e1.trans a3, a4, ?_, ?_, ?_⟩
      · intro r hr; rw [a5 r hr]; simp [pair, put_apply, hr]
      · intro x hx hn
        have := a7 hn
        simp [pair, put_apply] at this
      · intro hn
        have := a7 hn
        simp [pair, put_apply] at this
    · rw [if_neg hb]
      obtain ⟨t, a1, a2, a3, a4, a5, a6, a7⟩ := ih s (fun x hx => hl x (by simp [hx])) h1 h2 h3
      refine ⟨t, a1, a2, a3, a4, a5, ?_, a7⟩
      intro x hx hn hg
      rcases List.mem_cons.1 hx with e | hx
      · subst e
        have hk' := a7 hn
        apply a3.more
        cases hp : s.perm (m.col x) with
        | some _ => rfl
        | none => exact absurd (by simp [hg, hp, hk']) hb
      · exact a6 x hx hn hg

theorem gap_early (a : Arith R) (m : Csr R) {s t : St R} (h : Early s t) (k q : Nat) :
    gap a m t k q = gap a m s k q := by
  unfold gap; rw [h.U, h.V]

theorem matchAll_spec (a : Arith R) (m : Csr R) (P : Nat → Nat → Prop) :
    ∀ (l : List Nat) (s : St R), (∀ k ∈ l, k < m.n) → l.Nodup →
    Pairs m s.perm s.iperm s.colPos →
    (∀ k, k < m.n → ∀ q ∈ m.row k, a.lt (gap a m s k q) a.tiny = true → P k q) →
    (∀ r q, s.colPos r = some q → P r q) →
    ∃ t, t = matchAll a m l s ∧ Pairs m t.perm t.iperm t.colPos ∧ Early s t ∧
      (∀ r q, t.colPos r = some q → P r q) ∧
      (∀ r, r ∉ l → t.iperm r = s.iperm r) ∧
      (∀ k ∈ l, Covered a m t k) := by
  intro l
  induction l with
  | nil => intro s _ _ h1 _ h3; exact ⟨s, rfl, h1, Early.refl s, h3, fun _ _ => rfl, by simp⟩
  | cons k l ih =>
    intro s hl hnd h1 h2 h3
    obtain ⟨t1, a1, a2, a3, a4, a5, a6, a7⟩ := matchRow_spec a m P k (hl k (by simp)) (m.row k) s
      (fun _ h => h) h1 (h2 k (hl k (by simp))) h3
    rw [matchAll, ← a1]
    obtain ⟨t, b1, b2, b3, b4, b5, b6⟩ := ih t1 (fun x hx => hl x (by simp [hx]))
      (List.nodup_cons.1 hnd).2 a2
      (fun x hx q hq hg => h2 x hx q hq (by rw [gap_early a m a3] at hg; exact hg)) a4
    refine ⟨t, b1, b2, a3.trans b3, b4, ?_, ?_⟩
    · intro r hr
      simp only [List.mem_cons, not_or] at hr
      rw [b5 r hr.2, a5 r hr.1]
    · intro x hx
      rcases List.mem_cons.1 hx with e | hx
      · subst e
        intro hn q hq hg
        rw [b5 x (List.nodup_cons.1 hnd).1] at hn
        rw [gap_early a m (a3.trans b3)] at hg
        exact b3.more _ (a6 q hq hn hg)
      · exact b6 x hx

theorem stepRow_spec (a : Arith R) (m : Csr R) (P : Nat → Nat → Prop) {k q li : Nat}
    (hk : k < m.n) (hq : q ∈ m.row k) : ∀ (l : List Nat) (s : St R), (∀ p ∈ l, p ∈ m.row li) →
    Pairs m s.perm s.iperm s.colPos → s.perm (m.col q) = some li → s.iperm k = none → P k q →
    (∀ p ∈ m.row li, a.le (gap a m s li p) a.tiny = true → P li p) →
    (∀ r q, s.colPos r = some q → P r q) →
    ∃ t, t = stepRow a m k q li l s ∧ Pairs m t.perm t.iperm t.colPos ∧ Early s t ∧
      (∀ r q, t.colPos r = some q → P r q) ∧
      (∀ r, t.iperm r = none → s.iperm r = none) ∧
      (∀ r, r ≠ k → s.iperm r = none → t.iperm r = none) := by
  intro l
  induction l with
  | nil =>
    intro s _ h1 _ _ _ _ h3
    exact ⟨s, rfl, h1, Early.refl s, h3, fun _ h => h, fun _ _ h => h⟩
  | cons p l ih =>
    intro s hl h1 hc hr hP h2 h3
    rw [stepRow]
    by_cases hb : (a.le (gap a m s li p) a.tiny && (s.perm (m.col p)).isNone) = true
    · rw [if_pos hb]
      simp only [Bool.and_eq_true, Option.isNone_iff_eq_none] at hb
      refine ⟨_, rfl, pairs_pair2 h1 hk hq hc hr (hl p (by simp)) hb.2,
        (early_pair m s k q).trans (early_pair m _ li p), ?_, ?_, ?_⟩
      · intro r x hx
        simp only [pair, put_apply] at hx
        split at hx
        · rename_i e
          rw [← Option.some.inj hx, e]
          exact h2 p (hl p (by simp)) hb.1
        · split at hx
          · rename_i e
            rw [← Option.some.inj hx, e]; exact hP
          · exact h3 r x hx
      · intro r hn
        simp only [pair, put_apply] at hn
        split at hn
        · simp at hn
        · split at hn
          · simp at hn
          · exact hn
      · intro r hr1 hr2
        have : r ≠ li := by
          intro e; rw [e] at hr2
          have := (h1.inv _ _).1 hc
          rw [hr2] at this; simp at this
        simp [pair, put_apply, this, hr1, hr2]
    · rw [if_neg hb]
      exact ih s (fun x hx => hl x (by simp [hx])) h1 hc hr hP h2 h3

theorem stepEntries_spec (a : Arith R) (m : Csr R) (P : Nat → Nat → Prop) {k : Nat}
    (hk : k < m.n) (s0 : St R)
    (hex : ∀ q ∈ m.row k, a.le (gap a m s0 k q) a.tiny = true →
      a.lt (gap a m s0 k q) a.tiny = true)
    (hP : ∀ r, r < m.n → ∀ p ∈ m.row r, a.le (gap a m s0 r p) a.tiny = true → P r p) :
    ∀ (l : List Nat) (s : St R), (∀ p ∈ l, p ∈ m.row k) → Early s0 s →
    Pairs m s.perm s.iperm s.colPos → Covered a m s k →
    (∀ r q, s.colPos r = some q → P r q) →
    ∃ t, stepEntries a m k l s = some t ∧ Pairs m t.perm t.iperm t.colPos ∧ Early s0 t ∧
      (∀ r q, t.colPos r = some q → P r q) ∧ (∀ c, (s.perm c).isSome → (t.perm c).isSome) ∧
      (∀ r, t.iperm r = none → s.iperm r = none) ∧
      (∀ r, r ≠ k → s.iperm r = none → t.iperm r = none) := by
  intro l
  induction l with
  | nil =>
    intro s _ h0 h1 _ h3
    exact ⟨s, rfl, h1, h0, h3, fun _ h => h, fun _ h => h, fun _ _ h => h⟩
  | cons q l ih =>
    intro s hl h0 h1 hcov h3
    rw [stepEntries]
    by_cases hb : (s.iperm k).isSome = true
    · rw [if_pos hb]
      exact ⟨s, rfl, h1, h0, h3, fun _ h => h, fun _ h => h, fun _ _ h => h⟩
    · rw [if_neg hb]
      have hkn : s.iperm k = none := by simpa using hb
      by_cases hg : a.le (gap a m s k q) a.tiny = true
      · rw [if_pos hg]
        have hg' : a.lt (gap a m s k q) a.tiny = true := by
          rw [gap_early a m h0] at hg ⊢
          exact hex q (hl q (by simp)) hg
        obtain ⟨li, hli⟩ := Option.isSome_iff_exists.1 (hcov hkn q (hl q (by simp)) hg')
        simp only [hli]
        have hlin := h1.row _ _ ((h1.inv _ _).1 hli)
        obtain ⟨t1, a1, a2, a3, a4, a5, a6⟩ := stepRow_spec a m P hk (hl q (by simp)) (m.row li) s
          (fun _ h => h) h1 hli hkn
          (hP k hk q (hl q (by simp)) (by rw [gap_early a m h0] at hg; exact hg))
          (fun p hp h => hP li hlin p hp (by rw [gap_early a m h0] at h; exact h)) h3
        rw [← a1]
        obtain ⟨t, b1, b2, b3, b4, b5, b6, b7⟩ := ih t1 (fun x hx => hl x (by simp [hx]))
          (h0.trans a3) a2
          (by
            intro hn x hx hgx
            rw [gap_early a m a3] at hgx
            exact a3.more _ (hcov (a5 k hn) x hx hgx)) a4
        exact ⟨t, b1, b2, b3, b4, fun c hc => b5 c (a3.more c hc), fun r h => a5 r (b6 r h),
          fun r hr h => b7 r hr (a6 r hr h)⟩
      · rw [if_neg hg]
        exact ih s (fun x hx => hl x (by simp [hx])) h0 h1 hcov h3

theorem stepAll_spec (a : Arith R) (m : Csr R) (P : Nat → Nat → Prop) (s0 : St R)
    (hex : ∀ k, k < m.n → ∀ q ∈ m.row k, a.le (gap a m s0 k q) a.tiny = true →
      a.lt (gap a m s0 k q) a.tiny = true)
    (hP : ∀ r, r < m.n → ∀ p ∈ m.row r, a.le (gap a m s0 r p) a.tiny = true → P r p) :
    ∀ (l : List Nat) (s : St R), (∀ k ∈ l, k < m.n) → Early s0 s →
    Pairs m s.perm s.iperm s.colPos → (∀ k ∈ l, Covered a m s k) →
    (∀ r q, s.colPos r = some q → P r q) →
    ∃ t, stepAll a m l s = some t ∧ Pairs m t.perm t.iperm t.colPos ∧ Early s0 t ∧
      (∀ r q, t.colPos r = some q → P r q) := by
  intro l
  induction l with
  | nil => intro s _ h0 h1 _ h3; exact ⟨s, rfl, h1, h0, h3⟩
  | cons k l ih =>
    intro s hl h0 h1 hcov h3
    rw [stepAll]
    by_cases hb : (s.iperm k).isNone = true
    · rw [if_pos hb]
      obtain ⟨t1, a1, a2, a3, a4, a5, a6, a7⟩ := stepEntries_spec a m P (hl k (by simp)) s0
        (hex k (hl k (by simp))) hP (m.row k) s (fun _ h => h) h0 h1 (hcov k (by simp)) h3
      rw [a1]
      apply ih t1 (fun x hx => hl x (by simp [hx])) a3 a2 _ a4
      intro x hx hn q hq hg
      rw [gap_early a m a3, ← gap_early a m h0] at hg
      exact a5 _ (hcov x (by simp [hx]) (a6 x hn) q hq hg)
    · rw [if_neg hb]
      exact ih s (fun x hx => hl x (by simp [hx])) h0 h1 (fun x hx => hcov x (by simp [hx])) h3

end Verif.Matching
