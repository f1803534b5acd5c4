import Verif.Migrate.Model
import Verif.Transfer.Call
import Verif.Topology.Destroy

/-! # Lemmas: deletion of the elements that do not stay -/

namespace Verif.Migrate

open Verif.Topology Verif.Transfer

variable {V : Type} {cn : Bool} {G : Whole} {flip : Topo → El → Bool}

/-- The mesh `T` while the elements of `del` are being deleted. -/
structure Less (cn : Bool) (T : Topo) (del : El → Bool) (T' : Topo) : Prop where
  reach : Reach cn T'
  plain : T'.hide = false
  removed : ∃ D : El → Prop, Removed T (fun _ => False) D T' ∧ ∀ x, D x → T.alive x = true → del x = true

theorem Less.mono {T T' : Topo} {del : El → Bool} (h : Less cn T del T') {x : El} (hx : T'.alive x = true) :
    T.alive x = true := by
  obtain ⟨D, R, -⟩ := h.removed
  exact R.mono hx

theorem above_del {T : Topo} {del : El → Bool} (I : Inv T fun _ => False)
    (hup : ∀ y z, T.alive y = true → del y = true → y.ty < 3 → z ∈ T.high y → del z = true) {h x : El}
    (ha : T.alive h = true) (hd : del h = true) (a : Above T h x) : del x = true := by
  induction a with
  | refl => exact hd
  | step a ht hm ih => exact hup _ _ (above_alive I (fun _ h => h.elim) ha a) ih ht hm

theorem dropOne_ok {T T1 : Topo} {del : El → Bool} (I : Inv T fun _ => False)
    (hup : ∀ y z, T.alive y = true → del y = true → y.ty < 3 → z ∈ T.high y → del z = true)
    (h : Less cn T del T1) (e : El) : ∃ T2, dropOne flip del T1 e = some T2 ∧ Less cn T del T2 ∧
      (∀ x, T2.alive x = true → T1.alive x = true) ∧ (del e = true → T2.alive e = false) := by
  unfold dropOne
  by_cases hc : T1.alive e = true ∧ del e = true
  · obtain ⟨hc1, hc2⟩ := hc
    rw [if_pos (by rw [hc1, hc2]; rfl)]
    have I1 := (reach_inv h.reach).1
    obtain ⟨T2, e2, R2⟩ := delete_spec (flip := flip) 5 T1 (fun _ => False) e I1 h.plain hc1 (fun _ h => h.elim) (by omega)
    obtain ⟨D, R, hD⟩ := h.removed
    refine ⟨T2, e2, ⟨.delete flip e h.reach hc1 e2, R2.hide.trans h.plain, _, R.trans R2, ?_⟩, fun x => R2.mono, ?_⟩
    · rintro x (hx | hx) ha
      · exact hD x hx ha
      · exact above_del I hup (h.mono hc1) hc2 (above_mono (fun y z => R.sub_high) hx)
    · intro _
      cases hh : T2.alive e with
      | false => rfl
      | true => exact absurd Above.refl ((R2.alive e).1 hh).2
  · rw [if_neg (by rwa [Bool.and_eq_true])]
    refine ⟨T1, rfl, h, fun _ h => h, fun hd => ?_⟩
    cases hh : T1.alive e with
    | false => rfl
    | true => exact absurd ⟨hh, hd⟩ hc

theorem dropList_ok {T : Topo} {del : El → Bool} (I : Inv T fun _ => False)
    (hup : ∀ y z, T.alive y = true → del y = true → y.ty < 3 → z ∈ T.high y → del z = true) :
    ∀ (l : List El) (T1 : Topo), Less cn T del T1 → ∃ T2, forEach (dropOne flip del) l T1 = some T2 ∧ Less cn T del T2 ∧
      (∀ x, T2.alive x = true → T1.alive x = true) ∧ ∀ x ∈ l, del x = true → T2.alive x = false
  | [], T1, h => ⟨T1, rfl, h, fun _ h => h, by simp⟩
  | e :: l, T1, h => by
    obtain ⟨T2, a1, a2, a3, a4⟩ := dropOne_ok (flip := flip) I hup h e
    obtain ⟨T3, b1, b2, b3, b4⟩ := dropList_ok I hup l T2 a2
    refine ⟨T3, by rw [forEach_cons a1]; exact b1, b2, fun x hx => a3 x (b3 x hx), fun x hx hd => ?_⟩
    rcases List.mem_cons.1 hx with rfl | hx
    · cases hh : T3.alive x with
      | false => rfl
      | true => have := b3 x hh; rw [a4 hd] at this; cases this
    · exact b4 x hx hd

theorem dropTypes_ok {T : Topo} {del : El → Bool} (I : Inv T fun _ => False)
    (hup : ∀ y z, T.alive y = true → del y = true → y.ty < 3 → z ∈ T.high y → del z = true) :
    ∀ (l : List Nat) (T1 : Topo), Less cn T del T1 → ∃ T2, forEach (dropType flip del) l T1 = some T2 ∧ Less cn T del T2 ∧
      (∀ x, T2.alive x = true → T1.alive x = true) ∧ ∀ x, x.ty ∈ l → del x = true → T2.alive x = false
  | [], T1, h => ⟨T1, rfl, h, fun _ h => h, by simp⟩
  | t :: l, T1, h => by
    obtain ⟨T2, a1, a2, a3, a4⟩ := dropList_ok (flip := flip) I hup (elemsOf T1 t) T1 h
    obtain ⟨T3, b1, b2, b3, b4⟩ := dropTypes_ok I hup l T2 a2
    refine ⟨T3, by rw [forEach_cons (f := dropType flip del) a1]; exact b1, b2, fun x hx => a3 x (b3 x hx),
      fun x hx hd => ?_⟩
    cases hh : T3.alive x with
    | false => rfl
    | true =>
      rcases List.mem_cons.1 hx with hx | hx
      · have h2 := b3 x hh
        rw [a4 x ((mem_elemsOf h.reach t x).2 ⟨a3 x h2, hx⟩) hd] at h2
        cases h2
      · rw [b4 x hx hd] at hh; cases hh

/-- Exactly the elements that are not needed disappear, and what is left is a part of the mesh. -/
theorem drop_ok {S : Side (Pay V)} {me : Nat} (P : Piece cn G S)
    (hs : ∀ e, S.T.alive e = true → ((S.val e).procs.Pairwise (· < ·) ∧ (S.val e).procs ≠ []))
    (hlow : ∀ e x, S.T.alive e = true → 0 < e.ty → x ∈ S.T.low e → me ∈ (S.val e).procs → me ∈ (S.val x).procs)
    (hnodes : ∀ e x, S.T.alive e = true → e.ty = 3 → cn = true → x ∈ S.T.high e → me ∈ (S.val e).procs →
      me ∈ (S.val x).procs) :
    ∃ T', drop flip me S = some { S with T := T' } ∧ Piece cn G { S with T := T' } ∧
      ∀ x, T'.alive x = true ↔ S.T.alive x = true ∧ me ∈ (S.val x).procs := by
  have I := (reach_inv P.reach).1
  have hdel : ∀ x, S.T.alive x = true → (doomed me S x = true ↔ me ∉ (S.val x).procs) := by
    intro x hx
    obtain ⟨h1, h2⟩ := hs x hx
    unfold doomed
    rw [← foundProc_iff h1]
    cases hp : (S.val x).procs with
    | nil => exact absurd hp h2
    | cons a l => simp
  have hup : ∀ y z, S.T.alive y = true → doomed me S y = true → y.ty < 3 → z ∈ S.T.high y → doomed me S z = true := by
    intro y z hy hd h3 hz
    have hza := highAlive P.reach hz
    rw [hdel z hza]
    rw [hdel y hy] at hd
    intro hm
    have hty := ((I.highTy (fun h => h) hz).1 h3)
    exact hd (hlow z y hza (by omega) ((I.mem (fun h => h)).2 hz) hm)
  obtain ⟨T', h1, h2, -, h4⟩ := dropTypes_ok (cn := cn) (flip := flip) I hup [3, 2, 1, 0] S.T
    ⟨P.reach, P.plain, _, Removed.rfl' I, fun _ h => h.elim⟩
  obtain ⟨D, R, hD⟩ := h2.removed
  have hal : ∀ x, T'.alive x = true ↔ S.T.alive x = true ∧ me ∈ (S.val x).procs := by
    intro x
    constructor
    · intro hx
      refine ⟨R.mono hx, ?_⟩
      apply Classical.byContradiction
      intro hn
      have hty := I.tyLe x (R.mono hx)
      rw [h4 x (by simp only [List.mem_cons, List.not_mem_nil]; omega) ((hdel x (R.mono hx)).2 hn)] at hx
      cases hx
    · rintro ⟨hx, hm⟩
      exact (R.alive x).2 ⟨hx, fun hd => (hdel x hx).1 (hD x hd hx) hm⟩
  refine ⟨T', by unfold drop; rw [h1], ⟨h2.reach, h2.plain, ⟨?_, ?_, ?_, ?_⟩, ?_⟩, hal⟩
  · exact fun a b ha hb => P.fits.inj a b (R.mono ha) (R.mono hb)
  · intro e he h0
    refine List.Perm.trans ?_ (P.fits.low e (R.mono he) h0)
    refine List.Perm.map _ ((R.low e he).trans ?_)
    rw [List.filter_eq_self.2]
    intro x hx
    exact (hal x).2 ⟨lowAlive P.reach hx, hlow e x (R.mono he) h0 hx ((hal e).1 he).2⟩
  · intro e he h0
    obtain ⟨x, hx⟩ := List.exists_mem_of_ne_nil _ (P.fits.full e (R.mono he) h0)
    refine List.ne_nil_of_mem (a := x) ((R.low e he).mem_iff.2 (List.mem_filter.2 ⟨hx, ?_⟩))
    exact (hal x).2 ⟨lowAlive P.reach hx, hlow e x (R.mono he) h0 hx ((hal e).1 he).2⟩
  · intro e he h3 hc
    have hcS : S.T.cn = true := R.cn.symm.trans hc
    refine List.Perm.trans ?_ (P.fits.nodes e (R.mono he) h3 hcS)
    refine List.Perm.map _ ((R.high e he (fun h => h)).trans ?_)
    rw [List.filter_eq_self.2]
    intro x hx
    exact (hal x).2 ⟨highAlive P.reach hx, hnodes e x (R.mono he) h3 (P.cnEq.symm.trans hcS) hx ((hal e).1 he).2⟩
  · exact fun e he => P.owner e (R.mono he)

end Verif.Migrate
