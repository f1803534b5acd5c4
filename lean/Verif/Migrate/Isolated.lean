import Verif.Migrate.Props

/-! # C100: a face without cells -/

namespace Verif.Migrate

open Verif.Topology Verif.Transfer Verif.Layers

/-- A triangle without cells and a tetrahedron. -/
def isoRows : List Row := [
  ⟨⟨0, 0⟩, [], [], 0⟩, ⟨⟨0, 1⟩, [], [], 0⟩, ⟨⟨0, 2⟩, [], [], 0⟩, ⟨⟨0, 3⟩, [], [], 0⟩, ⟨⟨0, 4⟩, [], [], 0⟩,
  ⟨⟨0, 5⟩, [], [], 0⟩, ⟨⟨0, 6⟩, [], [], 0⟩,
  ⟨⟨1, 0⟩, [⟨0, 0⟩, ⟨0, 1⟩], [], 0⟩, ⟨⟨1, 1⟩, [⟨0, 0⟩, ⟨0, 2⟩], [], 0⟩, ⟨⟨1, 2⟩, [⟨0, 1⟩, ⟨0, 2⟩], [], 0⟩,
  ⟨⟨2, 0⟩, [⟨1, 0⟩, ⟨1, 1⟩, ⟨1, 2⟩], [], 0⟩,
  ⟨⟨1, 3⟩, [⟨0, 3⟩, ⟨0, 4⟩], [], 0⟩, ⟨⟨1, 4⟩, [⟨0, 3⟩, ⟨0, 5⟩], [], 0⟩, ⟨⟨1, 5⟩, [⟨0, 3⟩, ⟨0, 6⟩], [], 0⟩,
  ⟨⟨1, 6⟩, [⟨0, 4⟩, ⟨0, 5⟩], [], 0⟩, ⟨⟨1, 7⟩, [⟨0, 4⟩, ⟨0, 6⟩], [], 0⟩, ⟨⟨1, 8⟩, [⟨0, 5⟩, ⟨0, 6⟩], [], 0⟩,
  ⟨⟨2, 1⟩, [⟨1, 3⟩, ⟨1, 4⟩, ⟨1, 6⟩], [], 0⟩, ⟨⟨2, 2⟩, [⟨1, 3⟩, ⟨1, 5⟩, ⟨1, 7⟩], [], 0⟩,
  ⟨⟨2, 3⟩, [⟨1, 4⟩, ⟨1, 5⟩, ⟨1, 8⟩], [], 0⟩, ⟨⟨2, 4⟩, [⟨1, 6⟩, ⟨1, 7⟩, ⟨1, 8⟩], [], 0⟩,
  ⟨⟨3, 0⟩, [⟨2, 1⟩, ⟨2, 2⟩, ⟨2, 3⟩, ⟨2, 4⟩], [⟨0, 3⟩, ⟨0, 4⟩, ⟨0, 5⟩, ⟨0, 6⟩], 0⟩]

def isoT : Topo := (build (Topo.init true) (isoRows.map fun r => (r.e.ty, r.e.id, r.low, r.nodes))).get (by decide +kernel)

theorem reach_isoT : Reach true isoT := build_reach _ _ _ .init (getEq _)

def isoBare (p : Nat) : Side Nat where
  T := if p = 0 then isoT else Topo.init true
  num := fun e => e.id
  owner := fun _ => 0
  procs := fun _ => [0]
  status := fun _ => .owned
  val := fun e => e.id
  sh := fun _ _ => []
  gh := fun _ _ => []

/-- Processor 0 has everything, processor 1 nothing. -/
def iso : Nat → Side Nat := stored 2 isoBare

theorem iso_reach0 (p : Nat) (_ : p < 2) : Reach true (isoBare p).T := by
  show Reach true (if p = 0 then isoT else Topo.init true)
  split
  · exact reach_isoT
  · exact .init

theorem iso_spread : Spread 2 true (ofRows isoRows) iso := spread_check iso_reach0 (by decide +kernel)

theorem iso_ok : (ofRows isoRows).Ok := ok_check (by decide +kernel)

theorem iso_reg : Regular true (ofRows isoRows) := reg_check (by decide +kernel)

theorem iso_reach (p : Nat) (_ : p < 2) : Reach true (iso p).T := (iso_spread.piece p ‹_›).reach

theorem iso_empty {p : Nat} (hp : p < 2) {e : El} (he : (iso p).T.alive e = true) : p = 0 := by
  by_cases h0 : p = 0
  · exact h0
  · have key : ∀ p, p < 2 → p ≠ 0 → alls (iso p).T = [] := by decide +kernel
    have := (mem_alls (iso_reach p hp) e).2 he
    rw [key p hp h0] at this
    cases this

theorem iso_swap (mask : Nat → Bool) (a : Nat → El → Nat) : Swap 2 mask iso a a := by
  obtain ⟨b, h⟩ := swap_exists iso_spread mask a
  obtain ⟨h1, h2⟩ := swap_spec iso_spread h
  obtain ⟨G1, k1, k2⟩ := h
  refine ⟨G1, k1, fun p hp e he => ?_⟩
  rw [k2 p hp e he]
  have hb : b p e = a p e := by
    cases hm : mask e.ty with
    | false => exact h1 p hp e he hm
    | true =>
      obtain ⟨o1, e', he', hn⟩ := iso_spread.home p hp e he
      have hq := iso_empty o1 he'
      have hp0 := iso_empty hp he
      rw [h2 p _ hp o1 e e' he he' hn rfl hm]
      rw [hq] at he' hn ⊢
      subst hp0
      rw [(iso_spread.piece 0 hp).fits.inj e' e he' he hn]
  rw [hb]

theorem iso_merge (mask : Nat → Bool) (a : Nat → El → List Nat) (ha : Sorted 2 iso a) : Merge 2 mask iso a a := by
  obtain ⟨b, h⟩ := merge_exists (mask := mask) iso_spread ha
  obtain ⟨h0, h1, h2⟩ := merge_spec iso_spread ha h
  obtain ⟨G1, G2, k1, k2, k3⟩ := h
  refine ⟨G1, G2, k1, k2, fun p hp e he => ?_⟩
  rw [k3 p hp e he]
  have hb : b p e = a p e := by
    cases hm : mask e.ty with
    | false => exact h2 p hp e he hm
    | true =>
      refine Parallel.sorted_ext (h0 p hp e he) (ha p hp e he) fun r => ?_
      rw [h1 p hp e he hm]
      constructor
      · rintro ⟨q, hq, e', he', hn, hr⟩
        have hq0 := iso_empty hq he'
        have hp0 := iso_empty hp he
        subst hp0; subst hq0
        rw [(iso_spread.piece 0 hp).fits.inj e' e he' he hn] at hr
        exact hr
      · intro hr; exact ⟨p, hp, e, he, rfl, hr⟩
  rw [hb]

/-- The cell goes to processor 1. -/
def isoNew (_ : Nat) (_ : El) : Nat := 1

/-- The tags after the two passes. -/
def iso1 (p : Nat) : Tags := pass p true (iso p) ⟨isoNew p, startNp (iso p) (isoNew p), []⟩
def iso2 (p : Nat) : Tags := pass p false (iso p) (iso1 p)

theorem iso_sorted (X : Nat → Tags) (h : ∀ e ∈ alls (iso 0).T, ((X 0).np e).Pairwise (· < ·)) : Sorted 2 iso (fun p => (X p).np) := by
  intro p hp e he
  have := iso_empty hp he
  subst this
  exact h e ((mem_alls (iso_reach 0 hp) e).2 he)

theorem iso_plan : Plan 2 4 0 iso isoNew (fun p => (iso1 p).own) (fun p => (iso2 p).np) := by
  have s1 : Sorted 2 iso (fun p => (iso1 p).np) := iso_sorted iso1 (by decide +kernel)
  have s2 : Sorted 2 iso (fun p => (iso2 p).np) := iso_sorted iso2 (by decide +kernel)
  refine ⟨isoNew, iso1, fun p => (iso1 p).np, iso_swap _ _, iso_swap _ _, ?_, iso_merge _ _ s1, iso_merge _ _ s2⟩
  unfold Widen
  rw [if_pos (Or.inr rfl)]
  exact ⟨fun p => (iso1 p).np, iso_merge _ _ s1, fun _ _ => rfl⟩

def isoIn (p : Nat) : Side (Pay Nat) := load (iso p) (iso1 p).own (iso2 p).np

def isoSend (p : Nat) : Option (Side (Pay Nat) × List (Nat × Msg (Pay Nat))) :=
  sendMarked 2 p (fun _ => false) (sendNew p (isoIn p)) (isoIn p)

def isoSent (p : Nat) : Side (Pay Nat) × List (Nat × Msg (Pay Nat)) := (isoSend p).getD (isoIn p, [])
def isoLeft (p : Nat) : Side (Pay Nat) := (drop (fun _ _ => false) p (isoSent p).1).getD (isoIn p)
def isoBox (q : Nat) : List (Nat × Msg (Pay Nat)) := mail 2 (fun p => (isoSent p).2) q
def isoGot (q : Nat) : Side (Pay Nat) := (takeMoved q true endPick (isoBox q) (isoLeft q)).getD (isoIn q)
def isoOut (p : Nat) : Side (Pay Nat) := (recompute 2 p (assign p (isoGot p))).getD (isoIn p)

theorem getD_eq {A : Type} {o : Option A} {d : A} (h : o.isSome = true) : o = some (o.getD d) := by
  cases o with
  | none => cases h
  | some a => rfl

theorem iso_sent (p : Nat) (hp : p < 2) : sendMarked 2 p (fun _ => false) (sendNew p (isoIn p)) (isoIn p) = some (isoSent p) := by
  have k1 : ∀ p, p < 2 → (isoSend p).isSome = true := by decide +kernel
  exact getD_eq (k1 p hp)

theorem iso_left (p : Nat) (hp : p < 2) : drop (fun _ _ => false) p (isoSent p).1 = some (isoLeft p) := by
  have k2 : ∀ p, p < 2 → (drop (fun _ _ => false) p (isoSent p).1).isSome = true := by decide +kernel
  exact getD_eq (k2 p hp)

theorem iso_got (p : Nat) (hp : p < 2) : takeMoved p true endPick (isoBox p) (isoLeft p) = some (isoGot p) := by
  have k3 : ∀ p, p < 2 → (takeMoved p true endPick (isoBox p) (isoLeft p)).isSome = true := by decide +kernel
  exact getD_eq (k3 p hp)

theorem iso_out (p : Nat) (hp : p < 2) : recompute 2 p (assign p (isoGot p)) = some (isoOut p) := by
  have k4 : ∀ p, p < 2 → (recompute 2 p (assign p (isoGot p))).isSome = true := by decide +kernel
  exact getD_eq (k4 p hp)

theorem iso_box (q : Nat) : (isoBox q).Perm (mail 2 (fun p => (isoSent p).2) q) := .refl _

attribute [local irreducible] isoSent isoLeft isoBox isoGot isoOut

theorem iso_move : MoveMarked 2 true endPick (fun _ _ => false) (fun p => sendNew p (isoIn p)) isoIn isoOut
    ⟨fun p => (isoSent p).1, fun p => (isoSent p).2, isoLeft, isoBox, isoGot⟩ :=
  ⟨iso_sent, iso_left, fun q _ => iso_box q, iso_got, iso_out⟩

theorem touch_T {V : Type} (me dest : Nat) (l : List El) (S : Side V) : (l.foldl (touch me dest) S).T = S.T := by
  induction l generalizing S with
  | nil => rfl
  | cons e l ih =>
    rw [List.foldl_cons, ih]
    unfold touch
    split <;> rfl

theorem pack_T {V : Type} {me dest : Nat} {byNum : Nat → Bool} {tags : Bool} {sel : Nat → List El} {S : Side V} {r : Side V × Msg V}
    (h : pack me dest byNum tags sel S = some r) : r.1.T = S.T := by
  unfold pack at h
  simp only at h
  split at h
  · cases h; exact touch_T ..
  · cases h

theorem packAll_T {V : Type} {me : Nat} {byNum : Nat → Bool} {tags : Bool} : ∀ (l : List (Nat × (Nat → List El))) (S : Side V)
    (r : Side V × List (Nat × Msg V)), packAll me byNum tags l S = some r → r.1.T = S.T
  | [], S, r, h => by cases h; rfl
  | (q, sel) :: l, S, r, h => by
    unfold packAll at h
    split at h
    · cases h
    · rename_i S1 M hp
      split at h
      · cases h
      · rename_i S2 ms hl
        cases h
        exact (packAll_T l S1 _ hl).trans (pack_T hp)

theorem iso_none (x : El) : (isoOut 0).T.alive x = false := by
  cases hx : (isoOut 0).T.alive x with
  | false => rfl
  | true =>
  exfalso
  have h1 : (isoSent 0).1.T = (iso 0).T := by
    have := iso_sent 0 (by omega)
    unfold sendMarked at this
    split at this
    · exact packAll_T _ _ _ this
    · cases this
  have h2 : Reach true (isoLeft 0).T := by
    have h := iso_left 0 (by omega)
    unfold drop at h
    split at h
    · cases h
    · rename_i T hT
      have e := Option.some.inj h
      rw [← e]
      refine forEach_ind (Reach true) (fun T1 t T2 r1 k => ?_) _ _ _ ?_ hT
      · refine forEach_ind (Reach true) (fun T3 y T4 r3 k3 => ?_) _ _ _ r1 k
        unfold dropOne at k3
        split at k3
        · rename_i hy
          exact .delete _ _ r3 (by rw [Bool.and_eq_true] at hy; exact hy.1) k3
        · cases k3; exact r3
      · rw [h1]; exact iso_reach 0 (by omega)
  have h3 : (isoGot 0).T = (isoLeft 0).T := by
    have h := iso_got 0 (by omega)
    have hl : (isoBox 0).length = 0 := by decide +kernel
    rw [List.length_eq_zero_iff.1 hl] at h
    exact (congrArg Side.T (Option.some.inj h)).symm
  have h4 : (isoOut 0).T = (isoGot 0).T := by
    have h := iso_out 0 (by omega)
    unfold recompute at h
    split at h
    · exact (congrArg Side.T (Option.some.inj h)).symm
    · cases h
  have key : alls (isoOut 0).T = [] := by decide +kernel
  have := (mem_alls (by rw [h4, h3]; exact h2) x).2 hx
  rw [key] at this
  cases this

/-- C100 fails with faces without cells: `determine_my_procs_high` leaves the processors of another element in `result`, the face goes
to processor 1 and is deleted on processor 0, which remains its owner. -/
theorem C100_isolated_fails : ∃ (n : Nat) (G : Whole) (W W' : Nat → Side Nat) (new : Nat → El → Nat) (C : El → Nat),
    G.Ok ∧ Spread n true G W ∧ Regular true G ∧ Given n W new C ∧ Redistribute n 4 0 true endPick (fun _ _ => false) new W W' ∧
    ∃ e, (W' 1).T.alive e = true ∧ e.ty = 2 ∧ (W' 1).owner e = 0 ∧ ¬ Has (W' 0) (name (W' 1).num e) := by
  refine ⟨2, ofRows isoRows, iso, fun p => unload (isoOut p), isoNew, fun _ => 1, iso_ok, iso_spread, iso_reg,
    fun p _ e _ _ _ => ⟨rfl, by show 1 < 2; omega⟩, ⟨Or.inr rfl, _, _, isoOut, _, iso_plan, iso_move, fun _ _ => rfl⟩, ⟨2, 0⟩, ?_⟩
  refine ⟨by decide +kernel, rfl, by decide +kernel, fun ⟨x, hx, _⟩ => ?_⟩
  exact Bool.noConfusion ((iso_none x).symm.trans hx)

end Verif.Migrate
