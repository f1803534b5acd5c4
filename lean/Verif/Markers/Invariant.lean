import Verif.Markers.Lemmas
import Verif.Markers.Spec
import Mathlib.Data.List.Perm.Subperm

/-! # Invariant of marker memory -/

namespace Verif.Markers
open Verif.Handles

/-- Invariant of one marker space with `F` bytes and live markers `L`. -/
structure SInv {w : Nat} (F : Nat) (s : Space) (L : List (Marker w)) : Prop where
  meshLen : s.mesh.length = F
  elemLen : ∀ h, (s.elem h).length = F
  nodup : L.Nodup
  form : ∀ m ∈ L, ∃ k b, k < F ∧ b < 8 ∧ m = mkr w k b
  bits : ∀ k b, k < F → b < 8 → (bit s.mesh k b = true ↔ mkr w k b ∈ L)

section
variable {w F : Nat} (hw : 9 ≤ w) (hF : F ≤ 2 ^ (w - 9))
include hw hF

theorem SInv.create {s : Space} {L : List (Marker w)} (I : SInv F s L) {m : Marker w} {s' : Space}
    (h : s.create = some (m, s')) :
    SInv F s' (m :: L) ∧ m ∉ L ∧ s'.elem = s.elem ∧ ∃ k b, k < F ∧ b < 8 ∧ m = mkr w k b := by
  unfold Space.create at h
  have spec := createLoop_spec (w := w) s.mesh 0
  cases e : (createLoop 0 s.mesh : Option (Marker w × List Byte)) with
  | none => simp [e] at h
  | some p =>
    obtain ⟨m0, bs⟩ := p
    simp only [e, Option.some.injEq, Prod.mk.injEq] at h spec
    obtain ⟨rfl, rfl⟩ := h
    obtain ⟨k, b, hk, hb, hm, hbit, hlen, hupd⟩ := spec
    rw [Nat.zero_add] at hm
    rw [I.meshLen] at hk
    have hnot : m0 ∉ L := by
      rw [hm]; intro hc
      have := (I.bits k b hk hb).2 hc
      rw [this] at hbit; cases hbit
    refine ⟨⟨?_, I.elemLen, ?_, ?_, ?_⟩, hnot, rfl, k, b, hk, hb, hm⟩
    · simpa [I.meshLen] using hlen
    · exact List.nodup_cons.2 ⟨hnot, I.nodup⟩
    · intro x hx
      rcases List.mem_cons.1 hx with rfl | hx
      · exact ⟨k, b, hk, hb, hm⟩
      · exact I.form x hx
    · intro k' b' hk' hb'
      simp only [hupd k' b' hb', Bool.or_eq_true, decide_eq_true_eq, I.bits k' b' hk' hb',
        List.mem_cons, hm]
      constructor
      · rintro (⟨rfl, rfl⟩ | h)
        · exact Or.inl rfl
        · exact Or.inr h
      · rintro (h | h)
        · exact Or.inl (mkr_inj hw (by omega) (by omega) hb' hb h)
        · exact Or.inr h

/-- All markers. -/
def allMarks (w F : Nat) : List (Marker w) :=
  (List.range F).flatMap fun k => (List.range 8).map (mkr w k)

omit hw hF in
theorem mem_allMarks (x : Marker w) :
    x ∈ allMarks w F ↔ ∃ k b, k < F ∧ b < 8 ∧ x = mkr w k b := by
  simp only [allMarks, List.mem_flatMap, List.mem_range, List.mem_map]
  constructor
  · rintro ⟨k, hk, b, hb, rfl⟩; exact ⟨k, b, hk, hb, rfl⟩
  · rintro ⟨k, b, hk, hb, rfl⟩; exact ⟨k, hk, b, hb, rfl⟩

omit hw hF in
theorem length_allMarks : (allMarks w F).length = 8 * F := by
  simp [allMarks, List.length_flatMap, Nat.mul_comm]

theorem nodup_allMarks : (allMarks w F).Nodup := by
  unfold allMarks List.Nodup
  rw [List.pairwise_flatMap]
  constructor
  · intro k hk
    rw [List.mem_range] at hk
    refine List.Pairwise.map _ (R := fun a b => a < 8 ∧ b < 8 ∧ a ≠ b) ?_ ?_
    · intro a b hab h
      exact hab.2.2 (mkr_inj hw (by omega) (by omega) hab.1 hab.2.1 h).2
    · decide
  · refine List.Pairwise.imp_of_mem ?_ List.nodup_range
    intro a b ha hb hab x hx y hy hxy
    rw [List.mem_range] at ha hb
    simp only [List.mem_map, List.mem_range] at hx hy
    obtain ⟨i, hi, rfl⟩ := hx
    obtain ⟨j, hj, rfl⟩ := hy
    exact hab (mkr_inj hw (by omega) (by omega) hi hj hxy).1

theorem SInv.create_isSome {s : Space} {L : List (Marker w)} (I : SInv F s L) :
    (∃ m s', s.create = some ((m : Marker w), s')) ↔ L.length < 8 * F := by
  have hsub : L ⊆ allMarks w F := fun x hx => (mem_allMarks x).2 (I.form x hx)
  constructor
  · rintro ⟨m, s', h⟩
    obtain ⟨I', hm, _, _⟩ := I.create hw hF h
    have hsub' : m :: L ⊆ allMarks w F := fun x hx => (mem_allMarks x).2 (I'.form x hx)
    have := (I'.nodup.subperm hsub').length_le
    rw [length_allMarks] at this
    simp at this; omega
  · intro hlt
    have spec := createLoop_spec (w := w) s.mesh 0
    unfold Space.create
    cases e : (createLoop 0 s.mesh : Option (Marker w × List Byte)) with
    | some p => exact ⟨p.1, { s with mesh := p.2 }, rfl⟩
    | none =>
      exfalso
      simp only [e, I.meshLen] at spec
      have hsub' : allMarks w F ⊆ L := by
        intro x hx
        obtain ⟨k, b, hk, hb, rfl⟩ := (mem_allMarks x).1 hx
        exact (I.bits k b hk hb).1 (spec k b hk hb)
      have := ((nodup_allMarks hw hF).subperm hsub').length_le
      rw [length_allMarks] at this
      omega

omit hw hF in
theorem update_elem (s : Space) (h : Nat) (bs : List Byte) (x : Nat) :
    (s.update h bs).elem x = if x = h then bs else s.elem x := rfl

theorem Space.set_spec {s : Space} (hl : ∀ x, (s.elem x).length = F) {k b : Nat} (hk : k < F)
    (hb : b < 8) (h : Nat) :
    ∃ s', s.set h (mkr w k b) = some s' ∧ s'.mesh = s.mesh ∧ (∀ x, (s'.elem x).length = F) ∧
      ∀ x k' b', b' < 8 → bit (s'.elem x) k' b' =
        (decide (x = h ∧ k' = k ∧ b' = b) || bit (s.elem x) k' b') := by
  obtain ⟨bs, e, hlen, hup⟩ := setBytes_mkr hw (by omega) hb (s.elem h) (by rw [hl]; exact hk)
    (k := k)
  refine ⟨s.update h bs, by simp [Space.set, e], rfl, ?_, ?_⟩
  · intro x; rw [update_elem]; split
    · rw [hlen, hl]
    · exact hl x
  · intro x k' b' hb'
    rw [update_elem]
    by_cases q : x = h
    · subst q; simp [hup k' b' hb']
    · simp [q]

theorem Space.rem_spec {s : Space} (hl : ∀ x, (s.elem x).length = F) {k b : Nat} (hk : k < F)
    (hb : b < 8) (h : Nat) :
    ∃ s', s.rem h (mkr w k b) = some s' ∧ s'.mesh = s.mesh ∧ (∀ x, (s'.elem x).length = F) ∧
      ∀ x k' b', b' < 8 → bit (s'.elem x) k' b' =
        (!decide (x = h ∧ k' = k ∧ b' = b) && bit (s.elem x) k' b') := by
  obtain ⟨bs, e, hlen, hup⟩ := remBytes_mkr hw (by omega) hb (s.elem h) (by rw [hl]; exact hk)
    (k := k)
  refine ⟨s.update h bs, by simp [Space.rem, e], rfl, ?_, ?_⟩
  · intro x; rw [update_elem]; split
    · rw [hlen, hl]
    · exact hl x
  · intro x k' b' hb'
    rw [update_elem]
    by_cases q : x = h
    · subst q; simp [hup k' b' hb']
    · simp [q]

theorem Space.remAll_spec {k b : Nat} (hk : k < F) (hb : b < 8) (hs : List Nat) :
    ∀ {s : Space}, (∀ x, (s.elem x).length = F) →
    ∃ s', s.remAll (mkr w k b) hs = some s' ∧ s'.mesh = s.mesh ∧ (∀ x, (s'.elem x).length = F) ∧
      ∀ x k' b', b' < 8 → bit (s'.elem x) k' b' =
        (!decide (x ∈ hs ∧ k' = k ∧ b' = b) && bit (s.elem x) k' b') := by
  induction hs with
  | nil => intro s hl; exact ⟨s, rfl, rfl, hl, by simp⟩
  | cons h hs ih =>
    intro s hl
    obtain ⟨s1, e1, m1, l1, u1⟩ := Space.rem_spec hw hF hl hk hb h
    obtain ⟨s2, e2, m2, l2, u2⟩ := ih l1
    refine ⟨s2, by simp [Space.remAll, e1, e2], m2.trans m1, l2, ?_⟩
    intro x k' b' hb'
    rw [u2 x k' b' hb', u1 x k' b' hb', ← Bool.and_assoc, ← Bool.not_or, ← Bool.decide_or]
    congr 2
    simp only [List.mem_cons, decide_eq_decide]
    constructor
    · rintro (h | h)
      · exact ⟨Or.inr h.1, h.2⟩
      · exact ⟨Or.inl h.1, h.2⟩
    · rintro ⟨h | h, h'⟩
      · exact Or.inr ⟨h, h'⟩
      · exact Or.inl ⟨h, h'⟩

/-- The element is visited by the cleanup loop. -/
def Cleaned (mask : ElementType) (pop : ElementType → List Nat) (ts : List ElementType) (x : Nat) :
    Prop := ∃ t ∈ ts, mask &&& t ≠ 0 ∧ x ∈ pop t

instance (mask : ElementType) (pop : ElementType → List Nat) (ts : List ElementType) (x : Nat) :
    Decidable (Cleaned mask pop ts x) := by unfold Cleaned; infer_instance

theorem Space.cleanup_spec {k b : Nat} (hk : k < F) (hb : b < 8) (mask : ElementType)
    (pop : ElementType → List Nat) (ts : List ElementType) :
    ∀ {s : Space}, (∀ x, (s.elem x).length = F) →
    ∃ s', s.cleanup (mkr w k b) mask pop ts = some s' ∧ s'.mesh = s.mesh ∧
      (∀ x, (s'.elem x).length = F) ∧
      ∀ x k' b', b' < 8 → bit (s'.elem x) k' b' =
        (!decide (Cleaned mask pop ts x ∧ k' = k ∧ b' = b) && bit (s.elem x) k' b') := by
  induction ts with
  | nil => intro s hl; exact ⟨s, rfl, rfl, hl, by simp [Cleaned]⟩
  | cons t ts ih =>
    intro s hl
    by_cases hm : mask &&& t ≠ 0
    · obtain ⟨s1, e1, m1, l1, u1⟩ := Space.remAll_spec hw hF hk hb (pop t) hl
      obtain ⟨s2, e2, m2, l2, u2⟩ := ih l1
      refine ⟨s2, by simp only [Space.cleanup, if_pos hm, e1, e2], m2.trans m1, l2, ?_⟩
      intro x k' b' hb'
      rw [u2 x k' b' hb', u1 x k' b' hb', ← Bool.and_assoc, ← Bool.not_or, ← Bool.decide_or]
      congr 2
      apply decide_eq_decide.2
      simp only [Cleaned, List.mem_cons, exists_eq_or_imp]
      constructor
      · rintro (h | h)
        · exact ⟨Or.inr h.1, h.2⟩
        · exact ⟨Or.inl ⟨hm, h.1⟩, h.2⟩
      · rintro ⟨h | h, h'⟩
        · exact Or.inr ⟨h.2, h'⟩
        · exact Or.inl ⟨h, h'⟩
    · obtain ⟨s2, e2, m2, l2, u2⟩ := ih hl
      refine ⟨s2, by simp only [Space.cleanup, if_neg hm, e2], m2, l2, ?_⟩
      intro x k' b' hb'
      rw [u2 x k' b' hb']
      congr 2
      apply decide_eq_decide.2
      simp only [Cleaned, List.mem_cons, exists_eq_or_imp, hm, false_and, false_or]

theorem SInv.release {s : Space} {L : List (Marker w)} (I : SInv F s L) {k b : Nat} (hk : k < F)
    (hb : b < 8) (hm : mkr w k b ∈ L) (mask : ElementType)
    (pop : ElementType → List Nat) :
    ∃ s', s.release (mkr w k b) mask pop = some s' ∧ SInv F s' (L.erase (mkr w k b)) ∧
      ∀ x k' b', b' < 8 → bit (s'.elem x) k' b' =
        (!decide (Cleaned mask pop cleanupTypes x ∧ k' = k ∧ b' = b) && bit (s.elem x) k' b') := by
  obtain ⟨s1, e1, m1, l1, u1⟩ := Space.cleanup_spec hw hF hk hb mask pop cleanupTypes I.elemLen
  obtain ⟨bs, e2, l2, u2⟩ := remBytes_mkr hw (by omega) hb s.mesh (by rw [I.meshLen]; exact hk)
    (k := k)
  refine ⟨{ s1 with mesh := bs }, ?_, ⟨?_, l1, I.nodup.erase _, ?_, ?_⟩, u1⟩
  · simp only [Space.release, e1, m1, e2]
  · simp [l2, I.meshLen]
  · intro m hm; exact I.form m (List.mem_of_mem_erase hm)
  · intro k' b' hk' hb'
    simp only [u2 k' b' hb']
    rw [I.nodup.mem_erase_iff, ← I.bits k' b' hk' hb']
    simp only [Bool.and_eq_true, Bool.not_eq_true', decide_eq_false_iff_not, ne_eq]
    constructor
    · rintro ⟨h1, h2⟩
      exact ⟨fun h => h1 (mkr_inj hw (by omega) (by omega) hb' hb h), h2⟩
    · rintro ⟨h1, h2⟩
      refine ⟨?_, h2⟩
      rintro ⟨rfl, rfl⟩; exact h1 rfl

end

/-- Invariant of the whole marker memory. -/
structure WInv {w : Nat} (F P : Nat) (W : World) (Ls : List (Marker w))
    (Lp : Nat → List (Marker w)) : Prop where
  sh : SInv F W.shared Ls
  pr : ∀ t, ∃ L : List (Marker w), SInv P (W.priv t) L ∧ Lp t = L.map (· ||| privateBit w)

section
variable {w F P : Nat} (hw : 9 ≤ w) (hF : F ≤ 2 ^ (w - 9)) (hP : P ≤ 2 ^ (w - 9))
include hw hF hP

omit hw hF hP in
theorem bit_replicate (n k b : Nat) : bit (List.replicate n 0) k b = false := by
  unfold bit
  by_cases h : k < n
  · simp [List.getElem?_replicate, h]
  · simp [List.getElem?_replicate, h]

omit hw hF hP in
theorem sinv_init (n : Nat) :
    SInv n { mesh := List.replicate n 0, elem := fun _ => List.replicate n 0 }
      ([] : List (Marker w)) := by
  refine ⟨by simp, by simp, by simp, by simp, ?_⟩
  intro k b _ _; rw [show (0 : Byte) = 0 from rfl, bit_replicate]; simp

theorem sinv_map_erase {s : Space} {L : List (Marker w)} (I : SInv P s L) {k b : Nat}
    (hk : k < P) (hb : b < 8) :
    (L.map (· ||| privateBit w)).erase (mkr w k b ||| privateBit w) =
      (L.erase (mkr w k b)).map (· ||| privateBit w) := by
  have hform := I.form
  clear I
  induction L with
  | nil => simp
  | cons a L ih =>
    obtain ⟨ka, ba, hka, hba, rfl⟩ := hform a (by simp)
    rw [List.map_cons, List.erase_cons, List.erase_cons]
    by_cases e : mkr w ka ba = mkr w k b
    · simp [e]
    · have e' : mkr w ka ba ||| privateBit w ≠ mkr w k b ||| privateBit w := by
        intro h
        apply e
        have := congrArg (· &&& ~~~ privateBit w) h
        simpa only [strip_or_mkr hw (show ka < 2 ^ (w - 9) by omega) hba,
          strip_or_mkr hw (show k < 2 ^ (w - 9) by omega) hb] using this
      simp only [beq_iff_eq, e, e', if_false, List.map_cons]
      rw [ih (fun m hm => hform m (List.mem_cons_of_mem _ hm))]

theorem reach_inv {W : World} {Ls : List (Marker w)} {Lp : Nat → List (Marker w)}
    (R : Reach F P W Ls Lp) : WInv F P W Ls Lp := by
  induction R with
  | init => exact ⟨sinv_init F, fun t => ⟨[], sinv_init P, rfl⟩⟩
  | @create W Ls Lp m W' _ h I =>
    unfold createMarker at h
    split at h
    · cases h
    · next m' s' e =>
      simp only [Option.some.injEq, Prod.mk.injEq] at h
      obtain ⟨rfl, rfl⟩ := h
      exact ⟨(I.sh.create hw hF e).1, I.pr⟩
  | @createPriv W Ls Lp m W' t _ h I =>
    unfold createPrivateMarker at h
    split at h
    · cases h
    · next m' s' e =>
      simp only [Option.some.injEq, Prod.mk.injEq] at h
      obtain ⟨rfl, rfl⟩ := h
      refine ⟨I.sh, fun x => ?_⟩
      simp only [World.setPriv, upd]
      by_cases q : x = t
      · subst q
        obtain ⟨L, hI, hL⟩ := I.pr x
        refine ⟨m' :: L, ?_, ?_⟩
        · simpa using (hI.create hw hP e).1
        · simp [hL]
      · simpa [q] using I.pr x
  | @set W Ls Lp m W' x _ hm h I =>
    obtain ⟨k, b, hk, hb, rfl⟩ := I.sh.form m hm
    obtain ⟨s', e, hmesh, hlen, _⟩ := Space.set_spec hw hF I.sh.elemLen hk hb x
    simp only [setMarker, isPrivate_mkr hw (show k < 2 ^ (w - 9) by omega) hb, e] at h
    simp at h; subst h
    exact ⟨⟨by rw [hmesh]; exact I.sh.meshLen, hlen, I.sh.nodup, I.sh.form,
      by rw [hmesh]; exact I.sh.bits⟩, I.pr⟩
  | @rem W Ls Lp m W' x _ hm h I =>
    obtain ⟨k, b, hk, hb, rfl⟩ := I.sh.form m hm
    obtain ⟨s', e, hmesh, hlen, _⟩ := Space.rem_spec hw hF I.sh.elemLen hk hb x
    simp only [remMarker, isPrivate_mkr hw (show k < 2 ^ (w - 9) by omega) hb, e] at h
    simp at h; subst h
    exact ⟨⟨by rw [hmesh]; exact I.sh.meshLen, hlen, I.sh.nodup, I.sh.form,
      by rw [hmesh]; exact I.sh.bits⟩, I.pr⟩
  | @setPriv W Ls Lp m W' t x _ hm h I =>
    obtain ⟨L, hI, hL⟩ := I.pr t
    rw [hL, List.mem_map] at hm
    obtain ⟨m0, hm0, rfl⟩ := hm
    obtain ⟨k, b, hk, hb, rfl⟩ := hI.form m0 hm0
    obtain ⟨s', e, hmesh, hlen, _⟩ := Space.set_spec hw hP hI.elemLen hk hb x
    simp only [setPrivateMarker, isPrivate_or hw, strip_or_mkr hw (show k < 2 ^ (w - 9) by omega) hb,
      e] at h
    simp at h; subst h
    refine ⟨I.sh, fun y => ?_⟩
    simp only [World.setPriv]
    by_cases q : y = t
    · subst q
      refine ⟨L, ?_, hL⟩
      simp only [if_true]
      exact ⟨by rw [hmesh]; exact hI.meshLen, hlen, hI.nodup, hI.form,
        by rw [hmesh]; exact hI.bits⟩
    · simpa [q] using I.pr y
  | @remPriv W Ls Lp m W' t x _ hm h I =>
    obtain ⟨L, hI, hL⟩ := I.pr t
    rw [hL, List.mem_map] at hm
    obtain ⟨m0, hm0, rfl⟩ := hm
    obtain ⟨k, b, hk, hb, rfl⟩ := hI.form m0 hm0
    obtain ⟨s', e, hmesh, hlen, _⟩ := Space.rem_spec hw hP hI.elemLen hk hb x
    simp only [remPrivateMarker, isPrivate_or hw, strip_or_mkr hw (show k < 2 ^ (w - 9) by omega) hb,
      e] at h
    simp at h; subst h
    refine ⟨I.sh, fun y => ?_⟩
    simp only [World.setPriv]
    by_cases q : y = t
    · subst q
      refine ⟨L, ?_, hL⟩
      simp only [if_true]
      exact ⟨by rw [hmesh]; exact hI.meshLen, hlen, hI.nodup, hI.form,
        by rw [hmesh]; exact hI.bits⟩
    · simpa [q] using I.pr y
  | @release W Ls Lp m W' mask pop _ hm h I =>
    obtain ⟨k, b, hk, hb, rfl⟩ := I.sh.form m hm
    obtain ⟨s', e, hI', _⟩ := I.sh.release hw hF hk hb hm mask pop
    simp only [releaseMarker, isPrivate_mkr hw (show k < 2 ^ (w - 9) by omega) hb, e] at h
    simp at h; subst h
    exact ⟨hI', I.pr⟩
  | @releasePriv W Ls Lp m W' t mask pop _ hm h I =>
    obtain ⟨L, hI, hL⟩ := I.pr t
    rw [hL, List.mem_map] at hm
    obtain ⟨m0, hm0, rfl⟩ := hm
    obtain ⟨k, b, hk, hb, rfl⟩ := hI.form m0 hm0
    obtain ⟨s', e, hI', _⟩ := hI.release hw hP hk hb hm0 mask pop
    simp only [releasePrivateMarker, isPrivate_or hw,
      strip_or_mkr hw (show k < 2 ^ (w - 9) by omega) hb, e] at h
    simp at h; subst h
    refine ⟨I.sh, fun y => ?_⟩
    simp only [World.setPriv, upd]
    by_cases q : y = t
    · subst q
      refine ⟨L.erase (mkr w k b), by simpa using hI', ?_⟩
      simp only [if_true]
      rw [hL, sinv_map_erase hw hF hP hI hk hb]
    · simpa [q] using I.pr y

end
end Verif.Markers
