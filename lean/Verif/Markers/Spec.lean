import Verif.Markers.Model

/-!
# Specification vocabulary for markers

`Reach F P W Ls Lp` : the marker memory `W` is the result of some history of calls, started
on a fresh mesh with `F` shared and `P` private marker bytes, and
`Ls` (resp. `Lp t`) is the list of shared markers (resp. private markers of thread `t`)
that were created and not yet released.  A client may set, remove and release only markers
that it created; elements and cleanup masks are arbitrary.
-/

namespace Verif.Markers
open Verif.Handles

/-- Replace the list of thread `t`. -/
def upd (Lp : Nat → List α) (t : Nat) (l : List α) : Nat → List α :=
  fun x => if x = t then l else Lp x

inductive Reach {w : Nat} (F P : Nat) :
    World → List (Marker w) → (Nat → List (Marker w)) → Prop
  | init : Reach F P (initWorld F P) [] (fun _ => [])
  | create {W Ls Lp m W'} : Reach F P W Ls Lp → createMarker W = some (m, W') →
      Reach F P W' (m :: Ls) Lp
  | createPriv {W Ls Lp m W'} (t : Nat) : Reach F P W Ls Lp →
      createPrivateMarker W t = some (m, W') → Reach F P W' Ls (upd Lp t (m :: Lp t))
  | set {W Ls Lp m W'} (h : Nat) : Reach F P W Ls Lp → m ∈ Ls → setMarker W h m = some W' →
      Reach F P W' Ls Lp
  | rem {W Ls Lp m W'} (h : Nat) : Reach F P W Ls Lp → m ∈ Ls → remMarker W h m = some W' →
      Reach F P W' Ls Lp
  | setPriv {W Ls Lp m W'} (t h : Nat) : Reach F P W Ls Lp → m ∈ Lp t →
      setPrivateMarker W t h m = some W' → Reach F P W' Ls Lp
  | remPriv {W Ls Lp m W'} (t h : Nat) : Reach F P W Ls Lp → m ∈ Lp t →
      remPrivateMarker W t h m = some W' → Reach F P W' Ls Lp
  | release {W Ls Lp m W'} (mask : ElementType) (pop : ElementType → List Nat) :
      Reach F P W Ls Lp → m ∈ Ls → releaseMarker W m mask pop = some W' →
      Reach F P W' (Ls.erase m) Lp
  | releasePriv {W Ls Lp m W'} (t : Nat) (mask : ElementType) (pop : ElementType → List Nat) :
      Reach F P W Ls Lp → m ∈ Lp t → releasePrivateMarker W t m mask pop = some W' →
      Reach F P W' Ls (upd Lp t ((Lp t).erase m))

/-- Two markers use a common bit of a common byte. -/
def ShareBit {w : Nat} (m n : Marker w) : Prop :=
  byteIndex m = byteIndex n ∧ byteMask m &&& byteMask n ≠ 0

end Verif.Markers
