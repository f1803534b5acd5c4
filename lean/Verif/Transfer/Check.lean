import Verif.Transfer.Call
import Verif.Topology.Build

/-! # Deciding that processors hold parts of a mesh, for examples -/

namespace Verif.Transfer

open Verif.Topology

variable {V : Type} {n : Nat} {cn : Bool} {G : Whole}

/-- All elements. -/
def alls (T : Topo) : List El := (List.range 4).flatMap (elemsOf T)

theorem mem_alls {T : Topo} (r : Reach cn T) (e : El) : e ∈ alls T ↔ T.alive e = true := by
  unfold alls
  simp only [List.mem_flatMap, List.mem_range, mem_elemsOf r]
  constructor
  · rintro ⟨t, _, h, _⟩; exact h
  · intro h
    have := tyLe r h
    exact ⟨e.ty, by omega, h, rfl⟩

/-- `Has`. -/
def hasB (S : Side V) (g : El) : Bool := (alls S.T).any fun e => name S.num e == g

theorem hasB_iff {S : Side V} (r : Reach cn S.T) (g : El) : hasB S g = true ↔ Has S g := by
  unfold hasB Has
  simp only [List.any_eq_true, mem_alls r, beq_iff_eq]

/-- What is required of one element. -/
def elemCheck (n : Nat) (G : Whole) (W : Nat → Side V) (p : Nat) (e : El) : Bool :=
  let S := W p
  let g := name S.num e
  ((alls S.T).all fun b => decide (name S.num b = g → b = e)) &&
  (e.ty == 0 || (((S.T.low e).map (name S.num)).isPerm (G.low g) && !(S.T.low e).isEmpty)) &&
  (e.ty != 3 || !S.T.cn || ((S.T.high e).map (name S.num)).isPerm (G.nodes g)) &&
  (S.owner e == (G.owner g : Int)) &&
  decide ((S.procs e).Pairwise (· < ·)) &&
  ((S.procs e).all fun q => decide (q < n) && hasB (W q) g) &&
  ((List.range n).all fun q => !hasB (W q) g || (S.procs e).contains q) &&
  decide (G.owner g < n) && hasB (W (G.owner g)) g &&
  (if S.owner e = (p : Int) then
    (S.status e == .shared && (S.procs e).any fun q => q != p) || (S.status e == .owned && (S.procs e).all fun q => q == p)
  else S.status e == .ghost)

/-- What is required of all processors. -/
def spreadCheck (n : Nat) (G : Whole) (W : Nat → Side V) : Bool :=
  (List.range n).all fun p => !(W p).T.hide && (alls (W p).T).all (elemCheck n G W p)

/-- The stored lists computed. -/
def stored (n : Nat) (D : Nat → Side V) (p : Nat) : Side V := (recompute n p (D p)).getD (D p)

theorem spread_store {D : Nat → Side V} (R : Ready n cn G D)
    (hs : ∀ p, p < n → ∀ e, (D p).T.alive e = true → ((D p).procs e).Pairwise (· < ·))
    (hp : ∀ p, p < n → ∀ e, (D p).T.alive e = true → ∀ q, q ∈ (D p).procs e ↔ q < n ∧ Has (D q) (name (D p).num e)) :
    Spread n cn G (stored n D) := by
  have key : ∀ p, p < n → (stored n D p).T = (D p).T ∧ (stored n D p).num = (D p).num ∧ (stored n D p).owner = (D p).owner ∧
      (stored n D p).val = (D p).val ∧ (stored n D p).status = (D p).status ∧ (stored n D p).procs = (D p).procs ∧
      (∀ q t, ((stored n D p).sh q t).Pairwise (fun a b => (D p).num a < (D p).num b) ∧ ∀ x, x ∈ (stored n D p).sh q t ↔
        (D p).T.alive x = true ∧ x.ty = t ∧ (D p).owner x = (p : Int) ∧ q ≠ p ∧ q ∈ (D p).procs x) ∧
      ∀ o t, ((stored n D p).gh o t).Pairwise (fun a b => (D p).num a < (D p).num b) ∧ ∀ x, x ∈ (stored n D p).gh o t ↔
        (D p).T.alive x = true ∧ x.ty = t ∧ (D p).owner x = o ∧ o ≠ (p : Int) := by
    intro p hp
    obtain ⟨E, h1, h2⟩ := R.recompute hp
    have : stored n D p = E := by unfold stored; rw [h1]; rfl
    rw [this]; exact h2
  have hhas : ∀ p, p < n → ∀ g, Has (stored n D p) g ↔ Has (D p) g := by
    intro p hp g
    obtain ⟨a1, a2, -⟩ := key p hp
    unfold Has; rw [a1, a2]
  refine ⟨?_, ?_, ?_, ?_, ?_, ?_, ?_, ?_⟩ <;> intro p hpn <;> obtain ⟨a1, a2, a3, a4, a5, a6, a7, a8⟩ := key p hpn
  · have P := R.piece p hpn
    exact ⟨by rw [a1]; exact P.reach, by rw [a1]; exact P.plain, by rw [a1, a2]; exact P.fits,
      by rw [a1, a2, a3]; exact P.owner⟩
  · rw [a1, a6]; exact hs p hpn
  · rw [a1, a2, a6]
    intro e he q
    rw [hp p hpn e he q]
    exact ⟨fun ⟨h, k⟩ => ⟨h, (hhas q h _).2 k⟩, fun ⟨h, k⟩ => ⟨h, (hhas q h _).1 k⟩⟩
  · rw [a1, a2]
    intro e he
    obtain ⟨h, k⟩ := R.home p hpn e he
    exact ⟨h, (hhas _ h _).2 k⟩
  · rw [a1, a3, a5]; exact (R.ok p hpn).ghost
  · rw [a1, a3, a5, a6]; exact (R.ok p hpn).status
  · rw [a1, a2, a3, a6]; exact a7
  · rw [a1, a2, a3]; exact a8

theorem spread_check {D : Nat → Side V} (hr : ∀ p, p < n → Reach cn (D p).T) (h : spreadCheck n G D = true) :
    Spread n cn G (stored n D) := by
  unfold spreadCheck at h
  simp only [List.all_eq_true, List.mem_range, Bool.and_eq_true, Bool.not_eq_true'] at h
  have hel : ∀ p, p < n → ∀ e, (D p).T.alive e = true → elemCheck n G D p e = true :=
    fun p hp e he => (h p hp).2 e ((mem_alls (hr p hp) e).2 he)
  have hhas : ∀ q, q < n → ∀ g, hasB (D q) g = true ↔ Has (D q) g := fun q hq g => hasB_iff (hr q hq) g
  have facts : ∀ p, p < n → ∀ e, (D p).T.alive e = true →
      (∀ b, (D p).T.alive b = true → name (D p).num b = name (D p).num e → b = e) ∧
      (0 < e.ty → (((D p).T.low e).map (name (D p).num)).Perm (G.low (name (D p).num e)) ∧ (D p).T.low e ≠ []) ∧
      (e.ty = 3 → (D p).T.cn = true → (((D p).T.high e).map (name (D p).num)).Perm (G.nodes (name (D p).num e))) ∧
      (D p).owner e = (G.owner (name (D p).num e) : Int) ∧ ((D p).procs e).Pairwise (· < ·) ∧
      (∀ q, q ∈ (D p).procs e ↔ q < n ∧ Has (D q) (name (D p).num e)) ∧
      (G.owner (name (D p).num e) < n ∧ Has (D (G.owner (name (D p).num e))) (name (D p).num e)) ∧
      ((D p).owner e = (p : Int) → (D p).status e = .shared ∧ (∃ q ∈ (D p).procs e, q ≠ p) ∨
        (D p).status e = .owned ∧ ∀ q ∈ (D p).procs e, q = p) ∧
      ((D p).owner e ≠ (p : Int) → (D p).status e = .ghost) := by
    intro p hp e he
    have hc := hel p hp e he
    unfold elemCheck at hc
    simp only [Bool.and_eq_true, List.all_eq_true, decide_eq_true_eq, beq_iff_eq, List.mem_range] at hc
    obtain ⟨⟨⟨⟨⟨⟨⟨⟨⟨c1, c2⟩, c3⟩, c4⟩, c5⟩, c6⟩, c7⟩, c8⟩, c9⟩, c10⟩ := hc
    refine ⟨fun b hb => c1 b ((mem_alls (hr p hp) b).2 hb), ?_, ?_, c4, c5, ?_, ⟨c8, (hhas _ c8 _).1 c9⟩, ?_, ?_⟩
    · intro h0
      simp only [Bool.or_eq_true, beq_iff_eq, Bool.and_eq_true, List.isPerm_iff, Bool.not_eq_true',
        List.isEmpty_eq_false_iff] at c2
      rcases c2 with c2 | c2
      · omega
      · exact c2
    · intro h3 hcn
      simp only [Bool.or_eq_true, bne_iff_ne, Bool.not_eq_true', List.isPerm_iff] at c3
      rcases c3 with (c3 | c3) | c3
      · exact absurd h3 c3
      · rw [hcn] at c3; cases c3
      · exact c3
    · intro q
      constructor
      · intro hq
        obtain ⟨a, b⟩ := c6 q hq
        exact ⟨a, (hhas q a _).1 b⟩
      · rintro ⟨a, b⟩
        have := c7 q a
        rw [(hhas q a _).2 b] at this
        simpa using this
    · intro ho
      rw [if_pos ho] at c10
      simp only [Bool.or_eq_true, Bool.and_eq_true, beq_iff_eq, List.any_eq_true, bne_iff_ne, List.all_eq_true] at c10
      exact c10
    · intro ho
      rw [if_neg ho] at c10
      simpa using c10
  refine spread_store ⟨?_, ?_, ?_, ?_⟩ (fun p hp e he => (facts p hp e he).2.2.2.2.1)
    (fun p hp e he => (facts p hp e he).2.2.2.2.2.1)
  · intro p hp
    refine ⟨hr p hp, (h p hp).1, ⟨?_, ?_, ?_, ?_⟩, ?_⟩
    · exact fun a b ha hb hn => (facts p hp b hb).1 a ha hn
    · exact fun e he h0 => ((facts p hp e he).2.1 h0).1
    · exact fun e he h0 => ((facts p hp e he).2.1 h0).2
    · exact fun e he => (facts p hp e he).2.2.1
    · exact fun e he => (facts p hp e he).2.2.2.1
  · intro p hp
    exact ⟨fun e he _ => (facts p hp e he).2.2.2.2.1, fun e he _ r hr => (((facts p hp e he).2.2.2.2.2.1 r).1 hr).1,
      fun e he => (facts p hp e he).2.2.2.2.2.2.2.1, fun e he => (facts p hp e he).2.2.2.2.2.2.2.2⟩
  · exact fun p hp e he _ => (facts p hp e he).2.2.2.2.2.1
  · exact fun p hp e he => (facts p hp e he).2.2.2.2.2.2.1

/-! ## Meshes given by tables -/

/-- A mesh given by a list of elements with what they are built of, nodes of cells and owners. -/
structure Row where
  e : El
  low : List El
  nodes : List El
  owner : Nat

/-- The mesh. -/
def ofRows (l : List Row) : Whole where
  low := fun g => (l.find? fun r => r.e == g).elim [] Row.low
  nodes := fun g => (l.find? fun r => r.e == g).elim [] Row.nodes
  owner := fun g => (l.find? fun r => r.e == g).elim 0 Row.owner

/-- `Whole.Ok` for a table. -/
def okCheck (l : List Row) : Bool :=
  l.all fun a => l.all fun b => decide (a.e.ty = b.e.ty → 0 < a.e.ty → (ofRows l).low a.e ≠ [] →
    (∀ x ∈ (ofRows l).low a.e, x ∈ (ofRows l).low b.e) → a.e = b.e)

theorem ofRows_mem {l : List Row} {g : El} (h : (ofRows l).low g ≠ []) : ∃ r ∈ l, r.e = g := by
  unfold ofRows at h
  simp only at h
  cases hf : l.find? fun r => r.e == g with
  | none => rw [hf] at h; exact absurd rfl h
  | some r => exact ⟨r, List.mem_of_find?_eq_some hf, by simpa using List.find?_some hf⟩

theorem ok_check {l : List Row} (h : okCheck l = true) : (ofRows l).Ok := by
  intro a b hab h0 ha hs
  have hb : (ofRows l).low b ≠ [] := by
    intro hb
    cases hl : (ofRows l).low a with
    | nil => exact ha hl
    | cons x t => have := hs x (by rw [hl]; simp); rw [hb] at this; cases this
  obtain ⟨ra, hra, rfl⟩ := ofRows_mem ha
  obtain ⟨rb, hrb, rfl⟩ := ofRows_mem hb
  unfold okCheck at h
  simp only [List.all_eq_true, decide_eq_true_eq] at h
  exact h ra hra rb hrb hab h0 ha hs

/-- New elements at the end. -/
def endPick (T : Topo) (t : Nat) : Nat := T.last t

theorem endPick_fresh : Fresh cn endPick := by
  intro T r t
  cases h : T.alive ⟨t, endPick T t⟩ with
  | false => rfl
  | true => exact absurd ((reach_inv r).1.lastLt _ h) (Nat.lt_irrefl _)

end Verif.Transfer
