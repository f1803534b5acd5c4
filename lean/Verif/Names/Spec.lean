import Verif.Names.Model

/-! # Specification of the names of sets -/

namespace Verif.Names

/-- Histories of a mesh: sets are created by `CreateSet`, or by `CreateSetUnique` with a name no set
has, and deleted, outside or within modifications. -/
inductive Hist : Sets → Prop
  | init : Hist Sets.init
  | create {S : Sets} (n : Str) (h : Nat) : Hist S → S.live h = false → Hist (S.create n h).1
  | unique {S : Sets} (n : Str) (h : Nat) : Hist S → S.live h = false →
      (∀ k, S.live k = true → S.name k ≠ n) → Hist (S.createUnique n h)
  | delete {S S' : Sets} (h : Nat) : Hist S → S.delete h = some S' → Hist S'
  | destroy {S S' : Sets} (h : Nat) : Hist S → S.destroy h = some S' → Hist S'
  | beginMod {S S' : Sets} : Hist S → S.beginMod = some S' → Hist S'
  | endMod {S S' : Sets} : Hist S → S.endMod = some S' → Hist S'

/-- Names in alphabetic order: `a` before `b`. -/
inductive Before : Str → Str → Prop
  | nil (b : Nat) (bs : Str) : Before [] (b :: bs)
  | lt {a b : Nat} (as bs : Str) : a < b → Before (a :: as) (b :: bs)
  | cons (a : Nat) {as bs : Str} : Before as bs → Before (a :: as) (a :: bs)

end Verif.Names
