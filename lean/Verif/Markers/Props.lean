import Verif.Markers.Invariant

/-!
# C02, C03, C04: markers

`w` is the word width (32 or 64 in INMOST), `F` and `P` the numbers of shared and private
marker bytes (16 and 4 in INMOST).  `Reach` and `ShareBit` are defined in `Spec.lean`.
-/

namespace Verif.Markers
open Verif.Handles

section
variable {w F P : Nat} (hw : 9 ≤ w) (hF : F ≤ 2 ^ (w - 9)) (hP : P ≤ 2 ^ (w - 9))
include hw hF hP

omit hF hP in
private theorem not_share {n : Nat} (hn : n ≤ 2 ^ (w - 9)) {k b k' b' : Nat} (hk : k < n)
    (hb : b < 8) (hk' : k' < n)
    (hb' : b' < 8) (hne : mkr w k b ≠ mkr w k' b') : ¬ ShareBit (mkr w k b) (mkr w k' b') := by
  rintro ⟨h1, h2⟩
  rw [byteIndex_mkr hw (by omega), byteIndex_mkr hw (by omega)] at h1
  rw [byteMask_mkr hw (by omega), byteMask_mkr hw (by omega)] at h2
  subst h1
  apply h2
  apply BitVec.eq_of_getLsbD_eq
  intro i hi
  rw [BitVec.getLsbD_and, oneHot_getLsbD ⟨b, hb⟩ ⟨i, hi⟩, oneHot_getLsbD ⟨b', hb'⟩ ⟨i, hi⟩]
  by_cases e : b = i
  · by_cases e' : b' = i
    · exact absurd (by rw [e, e']) hne
    · simp [e']
  · simp [e]

private theorem priv_ne {W : World} {Ls : List (Marker w)} {Lp : Nat → List (Marker w)}
    (R : Reach F P W Ls Lp) (t : Nat) : ∀ m ∈ Lp t, isPrivate m = true := by
  intro m hm
  obtain ⟨L, _, hL⟩ := (reach_inv hw hF hP R).pr t
  rw [hL, List.mem_map] at hm
  obtain ⟨x, _, rfl⟩ := hm
  exact isPrivate_or hw x

/-- **C02** (shared markers).  The marker returned by `CreateMarker` is not live, shares no
bit with any live shared marker, and is no live private marker. -/
theorem C02_create_fresh {W W' : World} {Ls : List (Marker w)} {Lp : Nat → List (Marker w)}
    {m : Marker w} (R : Reach F P W Ls Lp) (h : createMarker W = some (m, W')) :
    m ∉ Ls ∧ (∀ x ∈ Ls, ¬ ShareBit m x) ∧ (∀ t, m ∉ Lp t) ∧ isPrivate m = false := by
  have I := reach_inv hw hF hP R
  unfold createMarker at h
  split at h
  · cases h
  · next m' s' e =>
    simp only [Option.some.injEq, Prod.mk.injEq] at h
    obtain ⟨rfl, rfl⟩ := h
    obtain ⟨_, hnot, _, k, b, hk, hb, rfl⟩ := I.sh.create hw hF e
    have hp : isPrivate (mkr w k b) = false := isPrivate_mkr hw (by omega) hb
    refine ⟨hnot, ?_, ?_, hp⟩
    · intro x hx
      obtain ⟨k', b', hk', hb', rfl⟩ := I.sh.form x hx
      refine not_share hw hF hk hb hk' hb' ?_
      intro h; rw [h] at hnot; exact hnot hx
    · intro t ht
      rw [priv_ne hw hF hP R t _ ht] at hp
      cases hp

/-- **C02** (private markers).  The marker returned by `CreatePrivateMarker` on thread `t` is
not live on that thread, shares no bit with the live private markers of that thread,
and is no live shared marker. -/
theorem C02_createPrivate_fresh {W W' : World} {Ls : List (Marker w)}
    {Lp : Nat → List (Marker w)} {m : Marker w} (t : Nat) (R : Reach F P W Ls Lp)
    (h : createPrivateMarker W t = some (m, W')) :
    m ∉ Lp t ∧ (∀ x ∈ Lp t, ¬ ShareBit (m &&& ~~~ privateBit w) (x &&& ~~~ privateBit w)) ∧
    m ∉ Ls ∧ isPrivate m = true := by
  have I := reach_inv hw hF hP R
  unfold createPrivateMarker at h
  split at h
  · cases h
  · next m' s' e =>
    simp only [Option.some.injEq, Prod.mk.injEq] at h
    obtain ⟨rfl, rfl⟩ := h
    obtain ⟨L, hI, hL⟩ := I.pr t
    obtain ⟨_, hnot, _, k, b, hk, hb, rfl⟩ := hI.create hw hP e
    have hp : isPrivate (mkr w k b ||| privateBit w) = true := isPrivate_or hw _
    refine ⟨?_, ?_, ?_, hp⟩
    · rw [hL, List.mem_map]
      rintro ⟨x, hx, hxe⟩
      obtain ⟨k', b', hk', hb', rfl⟩ := hI.form x hx
      have := congrArg (· &&& ~~~ privateBit w) hxe
      simp only [strip_or_mkr hw (show k < 2 ^ (w - 9) by omega) hb,
        strip_or_mkr hw (show k' < 2 ^ (w - 9) by omega) hb'] at this
      rw [this] at hx; exact hnot hx
    · intro x hx
      rw [hL, List.mem_map] at hx
      obtain ⟨y, hy, rfl⟩ := hx
      obtain ⟨k', b', hk', hb', rfl⟩ := hI.form y hy
      rw [strip_or_mkr hw (show k < 2 ^ (w - 9) by omega) hb,
        strip_or_mkr hw (show k' < 2 ^ (w - 9) by omega) hb']
      refine not_share hw hP hk hb hk' hb' ?_
      intro h; rw [h] at hnot; exact hnot hy
    · intro hm
      obtain ⟨k', b', hk', hb', he⟩ := I.sh.form _ hm
      rw [he, isPrivate_mkr hw (show k' < 2 ^ (w - 9) by omega) hb'] at hp
      cases hp

/-- **C02** (exhaustion).  `CreateMarker` fails exactly when all `8 F` markers are live. -/
theorem C02_create_succeeds_iff {W : World} {Ls : List (Marker w)} {Lp : Nat → List (Marker w)}
    (R : Reach F P W Ls Lp) :
    (∃ m W', createMarker W = some ((m : Marker w), W')) ↔ Ls.length < 8 * F := by
  have I := reach_inv hw hF hP R
  rw [← I.sh.create_isSome hw hF]
  unfold createMarker
  constructor
  · rintro ⟨m, W', h⟩
    split at h
    · cases h
    · next m' s' e => exact ⟨m', s', e⟩
  · rintro ⟨m, s', e⟩
    rw [e]; exact ⟨m, _, rfl⟩

/-- **C02** (exhaustion, private markers): `CreatePrivateMarker` on thread `t` fails exactly
when all `8 P` private markers of that thread are live. -/
theorem C02_createPrivate_succeeds_iff {W : World} {Ls : List (Marker w)}
    {Lp : Nat → List (Marker w)} (t : Nat) (R : Reach F P W Ls Lp) :
    (∃ m W', createPrivateMarker W t = some ((m : Marker w), W')) ↔ (Lp t).length < 8 * P := by
  have I := reach_inv hw hF hP R
  obtain ⟨L, hI, hL⟩ := I.pr t
  rw [hL, List.length_map, ← hI.create_isSome hw hP]
  unfold createPrivateMarker
  constructor
  · rintro ⟨m, W', h⟩
    split at h
    · cases h
    · next m' s' e => exact ⟨m', s', e⟩
  · rintro ⟨m, s', e⟩
    rw [e]; exact ⟨_, _, rfl⟩

/-- **C03** (reading): `GetMarker` of a live marker is always defined. -/
theorem C03_get_defined {W : World} {Ls : List (Marker w)} {Lp : Nat → List (Marker w)}
    (R : Reach F P W Ls Lp) (h : Nat) (m : Marker w) (hm : m ∈ Ls) :
    ∃ v, getMarker W h m = some v := by
  have I := reach_inv hw hF hP R
  obtain ⟨k, b, hk, hb, rfl⟩ := I.sh.form m hm
  refine ⟨bit (W.shared.elem h) k b, ?_⟩
  rw [getMarker, isPrivate_mkr hw (by omega) hb, Space.get,
    getBytes_mkr hw (by omega) hb _ (by rw [I.sh.elemLen]; exact hk)]
  simp

private theorem get_eq {W : World} {Ls : List (Marker w)} {Lp : Nat → List (Marker w)}
    (I : WInv F P W Ls Lp) (h : Nat) {k b : Nat} (hk : k < F) (hb : b < 8) :
    getMarker W h (mkr w k b) = some (bit (W.shared.elem h) k b) := by
  rw [getMarker, isPrivate_mkr hw (by omega) hb, Space.get,
    getBytes_mkr hw (by omega) hb _ (by rw [I.sh.elemLen]; exact hk)]
  simp

/-- **C03** (set).  Setting a live marker on an element makes it read as set there, and changes
the reading of no other live marker on it, of no marker on other elements, and of no
private marker. -/
theorem C03_set {W : World} {Ls : List (Marker w)} {Lp : Nat → List (Marker w)}
    (R : Reach F P W Ls Lp) (h : Nat) (m : Marker w) (hm : m ∈ Ls) :
    ∃ W', setMarker W h m = some W' ∧ getMarker W' h m = some true ∧
      (∀ h' m', m' ∈ Ls → ¬ (h' = h ∧ m' = m) → getMarker W' h' m' = getMarker W h' m') ∧
      (∀ t h' (m' : Marker w), getPrivateMarker W' t h' m' = getPrivateMarker W t h' m') := by
  have I := reach_inv hw hF hP R
  obtain ⟨k, b, hk, hb, rfl⟩ := I.sh.form m hm
  obtain ⟨s', e, hmesh, hlen, hup⟩ := Space.set_spec hw hF I.sh.elemLen hk hb h
  have he : setMarker W h (mkr w k b) = some { W with shared := s' } := by
    simp [setMarker, isPrivate_mkr hw (show k < 2 ^ (w - 9) by omega) hb, e]
  have I' := reach_inv hw hF hP (Reach.set h R hm he)
  refine ⟨_, he, ?_, ?_, fun _ _ _ => rfl⟩
  · rw [get_eq hw hF hP I' h hk hb]
    simp only [hup h k b hb]
    simp
  · intro h' m' hm' hne
    obtain ⟨k', b', hk', hb', rfl⟩ := I.sh.form m' hm'
    rw [get_eq hw hF hP I' h' hk' hb', get_eq hw hF hP I h' hk' hb']
    simp only [hup h' k' b' hb']
    have : ¬ (h' = h ∧ k' = k ∧ b' = b) := by
      rintro ⟨rfl, rfl, rfl⟩; exact hne ⟨rfl, rfl⟩
    simp [this]

/-- **C03** (remove).  Removing a live marker on an element makes it read as unset there, and
changes the reading of no other live marker on it, of no marker on other elements, and of
no private marker. -/
theorem C03_rem {W : World} {Ls : List (Marker w)} {Lp : Nat → List (Marker w)}
    (R : Reach F P W Ls Lp) (h : Nat) (m : Marker w) (hm : m ∈ Ls) :
    ∃ W', remMarker W h m = some W' ∧ getMarker W' h m = some false ∧
      (∀ h' m', m' ∈ Ls → ¬ (h' = h ∧ m' = m) → getMarker W' h' m' = getMarker W h' m') ∧
      (∀ t h' (m' : Marker w), getPrivateMarker W' t h' m' = getPrivateMarker W t h' m') := by
  have I := reach_inv hw hF hP R
  obtain ⟨k, b, hk, hb, rfl⟩ := I.sh.form m hm
  obtain ⟨s', e, hmesh, hlen, hup⟩ := Space.rem_spec hw hF I.sh.elemLen hk hb h
  have he : remMarker W h (mkr w k b) = some { W with shared := s' } := by
    simp [remMarker, isPrivate_mkr hw (show k < 2 ^ (w - 9) by omega) hb, e]
  have I' := reach_inv hw hF hP (Reach.rem h R hm he)
  refine ⟨_, he, ?_, ?_, fun _ _ _ => rfl⟩
  · rw [get_eq hw hF hP I' h hk hb]
    simp only [hup h k b hb]
    simp
  · intro h' m' hm' hne
    obtain ⟨k', b', hk', hb', rfl⟩ := I.sh.form m' hm'
    rw [get_eq hw hF hP I' h' hk' hb', get_eq hw hF hP I h' hk' hb']
    simp only [hup h' k' b' hb']
    have : ¬ (h' = h ∧ k' = k ∧ b' = b) := by
      rintro ⟨rfl, rfl, rfl⟩; exact hne ⟨rfl, rfl⟩
    simp [this]

private theorem getp_eq {s : Space} {L : List (Marker w)} {W : World} {t : Nat} (hs : W.priv t = s)
    (I : SInv P s L) (h : Nat) {k b : Nat} (hk : k < P) (hb : b < 8) :
    getPrivateMarker W t h (mkr w k b ||| privateBit w) = some (bit (s.elem h) k b) := by
  rw [getPrivateMarker, isPrivate_or hw, strip_or_mkr hw (by omega) hb, Space.get, hs,
    getBytes_mkr hw (by omega) hb _ (by rw [I.elemLen]; exact hk)]
  simp

/-- **C03** (private set and remove).  Setting (resp. removing) a live private marker of
thread `t` is read back on thread `t`, and changes no other live private marker of the
thread, nothing of other threads and no shared marker. -/
theorem C03_private {W : World} {Ls : List (Marker w)} {Lp : Nat → List (Marker w)}
    (R : Reach F P W Ls Lp) (t h : Nat) (m : Marker w) (hm : m ∈ Lp t) (v : Bool) :
    ∃ W', (if v then setPrivateMarker W t h m else remPrivateMarker W t h m) = some W' ∧
      getPrivateMarker W' t h m = some v ∧
      (∀ h' m', m' ∈ Lp t → ¬ (h' = h ∧ m' = m) →
        getPrivateMarker W' t h' m' = getPrivateMarker W t h' m') ∧
      (∀ t' h' (m' : Marker w), t' ≠ t →
        getPrivateMarker W' t' h' m' = getPrivateMarker W t' h' m') ∧
      (∀ h' (m' : Marker w), getMarker W' h' m' = getMarker W h' m') := by
  have I := reach_inv hw hF hP R
  obtain ⟨L, hI, hL⟩ := I.pr t
  rw [hL, List.mem_map] at hm
  obtain ⟨m0, hm0, rfl⟩ := hm
  obtain ⟨k, b, hk, hb, rfl⟩ := hI.form m0 hm0
  have key : ∃ s', (if v then (W.priv t).set h (mkr w k b) else (W.priv t).rem h (mkr w k b))
        = some s' ∧
      (∀ x, (s'.elem x).length = P) ∧ s'.mesh = (W.priv t).mesh ∧
      ∀ x k' b', b' < 8 → bit (s'.elem x) k' b' =
        (if x = h ∧ k' = k ∧ b' = b then v else bit ((W.priv t).elem x) k' b') := by
    cases v with
    | true =>
      obtain ⟨s', e, hmesh, hlen, hup⟩ := Space.set_spec hw hP hI.elemLen hk hb h
      refine ⟨s', by simpa using e, hlen, hmesh, ?_⟩
      intro x k' b' hb'
      rw [hup x k' b' hb']
      split <;> simp_all
    | false =>
      obtain ⟨s', e, hmesh, hlen, hup⟩ := Space.rem_spec hw hP hI.elemLen hk hb h
      refine ⟨s', by simpa using e, hlen, hmesh, ?_⟩
      intro x k' b' hb'
      rw [hup x k' b' hb']
      split
      · next q => simp [q]
      · next q => rw [decide_eq_false q]; simp
  obtain ⟨s', e, hlen, hmesh, hup⟩ := key
  have he : (if v then setPrivateMarker W t h (mkr w k b ||| privateBit w)
      else remPrivateMarker W t h (mkr w k b ||| privateBit w)) = some (W.setPriv t s') := by
    cases v <;>
    simp only [setPrivateMarker, remPrivateMarker, isPrivate_or hw,
      strip_or_mkr hw (show k < 2 ^ (w - 9) by omega) hb] <;> simp at e <;> simp [e]
  have hs : (W.setPriv t s').priv t = s' := by simp [World.setPriv]
  have hI' : SInv P s' L := ⟨by rw [hmesh]; exact hI.meshLen, hlen, hI.nodup, hI.form,
    by rw [hmesh]; exact hI.bits⟩
  refine ⟨_, he, ?_, ?_, ?_, fun _ _ => rfl⟩
  · rw [getp_eq hw hF hP hs hI' h hk hb, hup h k b hb]; simp
  · intro h' m' hm' hne
    rw [hL, List.mem_map] at hm'
    obtain ⟨m1, hm1, rfl⟩ := hm'
    obtain ⟨k', b', hk', hb', rfl⟩ := hI.form m1 hm1
    rw [getp_eq hw hF hP hs hI' h' hk' hb', getp_eq hw hF hP rfl hI h' hk' hb', hup h' k' b' hb',
      if_neg]
    rintro ⟨rfl, rfl, rfl⟩; exact hne ⟨rfl, rfl⟩
  · intro t' h' m' ht
    simp [getPrivateMarker, World.setPriv, ht]

/-- **C04** (release).  Releasing a live marker `m` succeeds; afterwards all elements of the types in
the cleanup mask read `m` as unset, every other live marker reads as before on every
element, and `CreateMarker` never fails; `CreateMarker` still returns none of the other
live markers. -/
theorem C04_release {W : World} {Ls : List (Marker w)} {Lp : Nat → List (Marker w)}
    (R : Reach F P W Ls Lp) (m : Marker w) (hm : m ∈ Ls) (mask : ElementType)
    (pop : ElementType → List Nat) :
    ∃ W', releaseMarker W m mask pop = some W' ∧
      (∀ t ∈ [NODE, EDGE, FACE, CELL, ESET], mask &&& t ≠ 0 → ∀ h ∈ pop t,
        getMarker W' h m = some false) ∧
      (∀ h, ∀ m' ∈ Ls, m' ≠ m → getMarker W' h m' = getMarker W h m') ∧
      (∃ m' W'', createMarker W' = some ((m' : Marker w), W'')) ∧
      (∀ m' W'', createMarker W' = some ((m' : Marker w), W'') → m' ∈ Ls → m' = m) := by
  have I := reach_inv hw hF hP R
  obtain ⟨k, b, hk, hb, rfl⟩ := I.sh.form m hm
  obtain ⟨s', e, hI', hup⟩ := I.sh.release hw hF hk hb hm mask pop
  have he : releaseMarker W (mkr w k b) mask pop = some { W with shared := s' } := by
    simp [releaseMarker, isPrivate_mkr hw (show k < 2 ^ (w - 9) by omega) hb, e]
  have R' := Reach.release mask pop R hm he
  have I' := reach_inv hw hF hP R'
  refine ⟨_, he, ?_, ?_, ?_, ?_⟩
  · intro t ht hmask h hh
    rw [get_eq hw hF hP I' h hk hb]
    simp only [hup h k b hb]
    have : Cleaned mask pop cleanupTypes h := ⟨t, ht, hmask, hh⟩
    simp [this]
  · intro h m' hm' hne
    obtain ⟨k', b', hk', hb', rfl⟩ := I.sh.form m' hm'
    rw [get_eq hw hF hP I' h hk' hb', get_eq hw hF hP I h hk' hb']
    simp only [hup h k' b' hb']
    have : ¬ (k' = k ∧ b' = b) := by
      rintro ⟨rfl, rfl⟩; exact hne rfl
    simp [this]
  · rw [C02_create_succeeds_iff hw hF hP R', List.length_erase_of_mem hm]
    have h1 : Ls.length ≤ 8 * F := by
      have := (I.sh.nodup.subperm (fun x hx => (mem_allMarks x).2 (I.sh.form x hx))).length_le
      rwa [length_allMarks] at this
    have h2 : 0 < Ls.length := List.length_pos_of_mem hm
    omega
  · intro m' W'' hc hmem
    have := (C02_create_fresh hw hF hP R' hc).1
    rw [I.sh.nodup.mem_erase_iff] at this
    by_cases q : m' = mkr w k b
    · exact q
    · exact absurd ⟨q, hmem⟩ this

/-- **C04** (private release): same for private markers of a thread. -/
theorem C04_releasePrivate {W : World} {Ls : List (Marker w)} {Lp : Nat → List (Marker w)}
    (R : Reach F P W Ls Lp) (t : Nat) (m : Marker w) (hm : m ∈ Lp t) (mask : ElementType)
    (pop : ElementType → List Nat) :
    ∃ W', releasePrivateMarker W t m mask pop = some W' ∧
      (∀ et ∈ [NODE, EDGE, FACE, CELL, ESET], mask &&& et ≠ 0 → ∀ h ∈ pop et,
        getPrivateMarker W' t h m = some false) ∧
      (∀ h, ∀ m' ∈ Lp t, m' ≠ m → getPrivateMarker W' t h m' = getPrivateMarker W t h m') ∧
      (∀ h (m' : Marker w), getMarker W' h m' = getMarker W h m') ∧
      (∃ m' W'', createPrivateMarker W' t = some ((m' : Marker w), W'')) := by
  have I := reach_inv hw hF hP R
  obtain ⟨L, hI, hL⟩ := I.pr t
  have hm2 := hm
  rw [hL, List.mem_map] at hm2
  obtain ⟨m0, hm0, rfl⟩ := hm2
  obtain ⟨k, b, hk, hb, rfl⟩ := hI.form m0 hm0
  obtain ⟨s', e, hI', hup⟩ := hI.release hw hP hk hb hm0 mask pop
  have he : releasePrivateMarker W t (mkr w k b ||| privateBit w) mask pop =
      some (W.setPriv t s') := by
    simp only [releasePrivateMarker, isPrivate_or hw,
      strip_or_mkr hw (show k < 2 ^ (w - 9) by omega) hb, e, if_true]
  have R' := Reach.releasePriv t mask pop R hm he
  have hs : (W.setPriv t s').priv t = s' := by simp [World.setPriv]
  refine ⟨_, he, ?_, ?_, fun _ _ => rfl, ?_⟩
  · intro et ht hmask h hh
    rw [getp_eq hw hF hP hs hI' h hk hb, hup h k b hb]
    have : Cleaned mask pop cleanupTypes h := ⟨et, ht, hmask, hh⟩
    simp [this]
  · intro h m' hm' hne
    rw [hL, List.mem_map] at hm'
    obtain ⟨m1, hm1, rfl⟩ := hm'
    obtain ⟨k', b', hk', hb', rfl⟩ := hI.form m1 hm1
    rw [getp_eq hw hF hP hs hI' h hk' hb', getp_eq hw hF hP rfl hI h hk' hb', hup h k' b' hb']
    have : ¬ (k' = k ∧ b' = b) := by
      rintro ⟨rfl, rfl⟩; exact hne rfl
    simp [this]
  · rw [C02_createPrivate_succeeds_iff hw hF hP t R']
    simp only [upd, if_true]
    rw [List.length_erase_of_mem hm]
    have h1 : (Lp t).length ≤ 8 * P := by
      have := (hI.nodup.subperm (fun x hx => (mem_allMarks x).2 (hI.form x hx))).length_le
      rw [length_allMarks] at this
      rw [hL, List.length_map]; exact this
    have h2 : 0 < (Lp t).length := List.length_pos_of_mem hm
    omega

/-- **C04** (reuse).  If all markers are in use and `m` is released, the next `CreateMarker`
returns exactly `m`. -/
theorem C04_reuse {W W' W'' : World} {Ls : List (Marker w)} {Lp : Nat → List (Marker w)}
    (R : Reach F P W Ls Lp) (hfull : Ls.length = 8 * F) (m m' : Marker w) (hm : m ∈ Ls)
    (mask : ElementType) (pop : ElementType → List Nat)
    (hr : releaseMarker W m mask pop = some W') (hc : createMarker W' = some (m', W'')) :
    m' = m := by
  have I := reach_inv hw hF hP R
  have hsub : allMarks w F ⊆ Ls := by
    intro x hx
    have hp : Ls.Perm (allMarks w F) :=
      (I.sh.nodup.subperm (fun x hx => (mem_allMarks x).2 (I.sh.form x hx))).perm_of_length_le
        (by rw [length_allMarks]; omega)
    exact hp.mem_iff.2 hx
  have R' := Reach.release mask pop R hm hr
  have I'' := reach_inv hw hF hP (Reach.create R' hc)
  have hmem : m' ∈ Ls := hsub ((mem_allMarks _).2 (I''.sh.form m' (by simp)))
  have := (C02_create_fresh hw hF hP R' hc).1
  rw [I.sh.nodup.mem_erase_iff] at this
  by_cases q : m' = m
  · exact q
  · exact absurd ⟨q, hmem⟩ this

end

/-- Histories in which every release leaves the released marker unset on all elements
(the discipline INMOST documents for `ReleaseMarker`). -/
inductive CleanReach {w : Nat} (F P : Nat) : World → List (Marker w) → Prop
  | init : CleanReach F P (initWorld F P) []
  | create {W Ls m W'} : CleanReach F P W Ls → createMarker W = some (m, W') →
      CleanReach F P W' (m :: Ls)
  | set {W Ls m W'} (h : Nat) : CleanReach F P W Ls → m ∈ Ls → setMarker W h m = some W' →
      CleanReach F P W' Ls
  | rem {W Ls m W'} (h : Nat) : CleanReach F P W Ls → m ∈ Ls → remMarker W h m = some W' →
      CleanReach F P W' Ls
  | release {W Ls m W'} (mask : ElementType) (pop : ElementType → List Nat) :
      CleanReach F P W Ls → m ∈ Ls → releaseMarker W m mask pop = some W' →
      (∀ h, getMarker W' h m = some false) → CleanReach F P W' (Ls.erase m)

section
variable {w F P : Nat} (hw : 9 ≤ w) (hF : F ≤ 2 ^ (w - 9)) (hP : P ≤ 2 ^ (w - 9))
include hw hF hP

omit hw hF hP in
private theorem clean_reach {W : World} {Ls : List (Marker w)} (R : CleanReach F P W Ls) :
    Reach F P W Ls (fun _ => []) := by
  induction R with
  | init => exact Reach.init
  | create _ h ih => exact Reach.create ih h
  | set h _ hm he ih => exact Reach.set h ih hm he
  | rem h _ hm he ih => exact Reach.rem h ih hm he
  | release mask pop _ hm he _ ih => exact Reach.release mask pop ih hm he

/-- **C04** (clean start).  If every released marker was cleared from all elements, then a newly
created marker reads as unset on every element. -/
theorem C04_created_unset {W W' : World} {Ls : List (Marker w)} (R : CleanReach F P W Ls)
    (m : Marker w) (hc : createMarker W = some (m, W')) (h : Nat) :
    getMarker W' h m = some false := by
  have inv : ∀ {W : World} {Ls : List (Marker w)}, CleanReach F P W Ls →
      ∀ h k b, k < F → b < 8 → bit (W.shared.elem h) k b = true → mkr w k b ∈ Ls := by
    intro W Ls R
    induction R with
    | init => intro h k b hk hb; intro hh
              have := bit_replicate F k b
              simp only [initWorld] at hh; rw [this] at hh; cases hh
    | @create W Ls m W' R hc ih =>
      intro h k b hk hb hbit
      have I := reach_inv hw hF hP (clean_reach R)
      unfold createMarker at hc
      split at hc
      · cases hc
      · next m' s' e =>
        simp only [Option.some.injEq, Prod.mk.injEq] at hc
        obtain ⟨rfl, rfl⟩ := hc
        obtain ⟨_, _, hel, _⟩ := I.sh.create hw hF e
        simp only [hel] at hbit
        exact List.mem_cons_of_mem _ (ih h k b hk hb hbit)
    | @set W Ls m W' x R hm he ih =>
      intro h k b hk hb hbit
      have I := reach_inv hw hF hP (clean_reach R)
      obtain ⟨k0, b0, hk0, hb0, rfl⟩ := I.sh.form m hm
      obtain ⟨s', e, hmesh, hlen, hup⟩ := Space.set_spec hw hF I.sh.elemLen hk0 hb0 x
      simp only [setMarker, isPrivate_mkr hw (show k0 < 2 ^ (w - 9) by omega) hb0, e] at he
      simp at he; subst he
      simp only [hup h k b hb, Bool.or_eq_true, decide_eq_true_eq] at hbit
      rcases hbit with ⟨_, rfl, rfl⟩ | hbit
      · exact hm
      · exact ih h k b hk hb hbit
    | @rem W Ls m W' x R hm he ih =>
      intro h k b hk hb hbit
      have I := reach_inv hw hF hP (clean_reach R)
      obtain ⟨k0, b0, hk0, hb0, rfl⟩ := I.sh.form m hm
      obtain ⟨s', e, hmesh, hlen, hup⟩ := Space.rem_spec hw hF I.sh.elemLen hk0 hb0 x
      simp only [remMarker, isPrivate_mkr hw (show k0 < 2 ^ (w - 9) by omega) hb0, e] at he
      simp at he; subst he
      simp only [hup h k b hb, Bool.and_eq_true] at hbit
      exact ih h k b hk hb hbit.2
    | @release W Ls m W' mask pop R hm he hclean ih =>
      intro h k b hk hb hbit
      have R0 := clean_reach R
      have I := reach_inv hw hF hP R0
      have I' := reach_inv hw hF hP (Reach.release mask pop R0 hm he)
      rw [I.sh.nodup.mem_erase_iff]
      refine ⟨?_, ?_⟩
      · rintro rfl
        have := hclean h
        rw [get_eq hw hF hP I' h hk hb, hbit] at this
        simp at this
      · obtain ⟨k0, b0, hk0, hb0, rfl⟩ := I.sh.form m hm
        obtain ⟨s', e, _, hup⟩ := I.sh.release hw hF hk0 hb0 hm mask pop
        simp only [releaseMarker, isPrivate_mkr hw (show k0 < 2 ^ (w - 9) by omega) hb0, e] at he
        simp at he; subst he
        simp only [hup h k b hb, Bool.and_eq_true] at hbit
        exact ih h k b hk hb hbit.2
  have R0 := clean_reach R
  have I' := reach_inv hw hF hP (Reach.create R0 hc)
  obtain ⟨k, b, hk, hb, rfl⟩ := I'.sh.form m (by simp)
  have hnot := (C02_create_fresh hw hF hP R0 hc).1
  have I := reach_inv hw hF hP R0
  rw [get_eq hw hF hP I' h hk hb]
  have hel : W'.shared.elem = W.shared.elem := by
    unfold createMarker at hc
    split at hc
    · cases hc
    · next m' s' e =>
      simp only [Option.some.injEq, Prod.mk.injEq] at hc
      obtain ⟨rfl, rfl⟩ := hc
      exact (I.sh.create hw hF e).2.2.1
  rw [hel]
  cases hbit : bit (W.shared.elem h) k b with
  | false => rfl
  | true => exact absurd (inv R h k b hk hb hbit) hnot

end

/-! ## Non-vacuity: a concrete history in the INMOST configuration -/

/-- Two shared markers are created, one is set on element 5, the first released with cleanup,
and a third created. -/
example : ∃ W Ls Lp, Reach (w := 32) 16 4 W Ls Lp ∧ Ls = [0x1#32, 0x2#32] ∧
    Lp 3 = [0x80000001#32] ∧ getMarker W 5 0x2#32 = some true := by
  have r0 : Reach (w := 32) 16 4 (initWorld 16 4) [] (fun _ => []) := Reach.init
  have r1 := Reach.create (m := 0x1#32) r0 rfl
  have r2 := Reach.create (m := 0x2#32) r1 rfl
  have r3 := Reach.createPriv (m := 0x80000001#32) 3 r2 rfl
  have r4 := Reach.set (m := 0x2#32) 5 r3 (by decide) rfl
  have r5 := Reach.release (m := 0x1#32) CELL (fun _ => [5, 6]) r4 (by decide) rfl
  have r6 := Reach.create (m := 0x1#32) r5 rfl
  exact ⟨_, _, _, r6, by decide, rfl, by decide⟩

example : (9 ≤ 32) ∧ (16 ≤ 2 ^ (32 - 9)) ∧ (4 ≤ 2 ^ (32 - 9)) := by decide

/-- The capacity bound is reached: a full mesh with one marker byte. -/
example : ∃ W Ls Lp, Reach (w := 32) 1 0 W Ls Lp ∧ Ls.length = 8 * 1 := by
  have r0 : Reach (w := 32) 1 0 (initWorld 1 0) [] (fun _ => []) := Reach.init
  have r1 := Reach.create (m := 0x1#32) r0 rfl
  have r2 := Reach.create (m := 0x2#32) r1 rfl
  have r3 := Reach.create (m := 0x4#32) r2 rfl
  have r4 := Reach.create (m := 0x8#32) r3 rfl
  have r5 := Reach.create (m := 0x10#32) r4 rfl
  have r6 := Reach.create (m := 0x20#32) r5 rfl
  have r7 := Reach.create (m := 0x40#32) r6 rfl
  have r8 := Reach.create (m := 0x80#32) r7 rfl
  exact ⟨_, _, _, r8, rfl⟩

/-- A clean history with a released marker. -/
example : ∃ W Ls, CleanReach (w := 32) 16 4 W Ls ∧ Ls = [0x2#32] := by
  have r0 : CleanReach (w := 32) 16 4 (initWorld 16 4) [] := CleanReach.init
  have r1 := CleanReach.create (m := 0x1#32) r0 rfl
  have r2 := CleanReach.create (m := 0x2#32) r1 rfl
  have r3 := CleanReach.set (m := 0x1#32) 5 r2 (by decide) rfl
  have r4 := CleanReach.release (m := 0x1#32) CELL (fun _ => [5, 6]) r3 (by decide) rfl
    (fun h => by
      by_cases e : h = 5
      · subst e; decide
      · by_cases e' : h = 6
        · subst e'; decide
        · simp only [getMarker, Space.get, Space.update, e, e', if_false]
          rfl)
  exact ⟨_, _, r4, by decide⟩

end Verif.Markers
