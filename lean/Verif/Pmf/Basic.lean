import Verif.Pmf.Spec
import Verif.Binary.Props
import Mathlib.Tactic.Positivity

/-!
# Reading back what was written: numbers, lists, names
-/

namespace Verif.Pmf
open Verif.Topology Verif.Binary

theorem address_invol {o : Order} {w : Nat} (h : WidthOk o w) {k : Nat} (hk : k < w) :
    address o w k < w ∧ address o w (address o w k) = k := by
  obtain ⟨h0, -, hm⟩ := h
  cases o with
  | little => exact ⟨hk, rfl⟩
  | big => simp only [address]; omega
  | middle =>
    have := hm rfl
    simp only [address, partner]
    constructor
    · split <;> omega
    · split <;> split <;> omega

theorem length_mem (o : Order) (w v : Nat) : (mem o w v).length = w := by simp [mem]

theorem holds_mem {o : Order} {w : Nat} (h : WidthOk o w) (v : Nat) :
    Holds o w (fun i => (mem o w v).getD i 0) v := by
  intro k hk
  obtain ⟨h1, h2⟩ := address_invol h hk
  simp only [mem, List.getD_eq_getElem?_getD, List.getElem?_map, List.getElem?_range h1, Option.map_some,
    Option.getD_some, h2]

theorem rN_append (a r : Bytes) (n : Nat) (h : a.length = n) : rN n (a ++ r) = some (a, r) := by
  subst h; simp [rN]

theorem widthOk8 {o : Order} : WidthOk o 8 := ⟨by omega, by omega, fun _ => rfl⟩

theorem rI_mem {lw : Nat} {o : Order} {w v : Nat} (hw : WidthOk o w) (hl : 0 < lw ∧ lw < 255)
    (h1 : v < 256 ^ w) (r : Bytes) : rI lw ⟨o, w⟩ (mem o w v ++ r) = some (v % 256 ^ lw, r) := by
  unfold rI
  simp only [rN_append _ _ _ (length_mem o w v)]
  obtain ⟨m, e1, e2⟩ := C41_integers_partial o .little w lw v (fun i => (mem o w v).getD i 0) hw
    ⟨hl.1, hl.2, fun h => by cases h⟩ (fun h => by cases h) h1 (holds_mem hw v) (Or.inl rfl)
  rw [e1]
  simp only [e2]

theorem rF_mem {o : Order} {w v : Nat} (h1 : v < 256 ^ 8) (r : Bytes) :
    rF ⟨o, w⟩ (mem o 8 v ++ r) = some (v, r) := by
  unfold rF
  simp only [rN_append _ _ _ (length_mem o 8 v)]
  have := convert_spec o .little 8 v _ (holds_mem (o := o) widthOk8 v) (fun _ => Or.inl rfl)
  rw [value_of_holds _ _ _ _ this, Nat.mod_eq_of_lt h1]

variable {m : Machine} {lw : Nat}

/-- The converter of the machine `m`. -/
def Machine.conv (m : Machine) : Conv := ⟨m.order, m.width⟩

theorem rI_wI (hm : Machines m lw) {v : Nat} (hv : Fits m lw v) (r : Bytes) :
    rI lw m.conv (wI m v ++ r) = some (v, r) := by
  have := rI_mem (lw := lw) hm.w hm.l hv.1 r
  rw [Nat.mod_eq_of_lt hv.2] at this
  exact this

theorem rF_wF {v : Nat} (hv : v < 256 ^ 8) (r : Bytes) : rF m.conv (wF m v ++ r) = some (v, r) := rF_mem hv r

theorem rMany_flatMap {α β : Type} (p : Bytes → Option (β × Bytes)) (w : α → Bytes) (g : α → β) :
    ∀ (l : List α) (r : Bytes), (∀ a ∈ l, ∀ r, p (w a ++ r) = some (g a, r)) →
      rMany p l.length (l.flatMap w ++ r) = some (l.map g, r)
  | [], r, _ => rfl
  | a :: l, r, h => by
    simp only [List.length_cons, rMany, List.flatMap_cons, List.append_assoc, h a (List.mem_cons_self ..)]
    rw [rMany_flatMap p w g l r (fun b hb => h b (List.mem_cons_of_mem _ hb))]
    rfl

theorem rMany_nums (hm : Machines m lw) (l : List Nat) (h : ∀ a ∈ l, Fits m lw a) (r : Bytes) :
    rMany (rI lw m.conv) l.length (l.flatMap (wI m) ++ r) = some (l, r) := by
  have := rMany_flatMap (rI lw m.conv) (wI m) id l r (fun a ha r => rI_wI hm (h a ha) r)
  rwa [List.map_id] at this

theorem rMany_reals (l : List Nat) (h : ∀ a ∈ l, a < 256 ^ 8) (r : Bytes) :
    rMany (rF m.conv) l.length (l.flatMap (wF m) ++ r) = some (l, r) := by
  have := rMany_flatMap (rF m.conv) (wF m) id l r (fun a ha r => rF_wF (h a ha) r)
  rwa [List.map_id] at this

theorem takeWhile_nz (l : List Nat) (h : 0 ∉ l) : l.takeWhile (· ≠ 0) = l := by
  induction l with
  | nil => rfl
  | cons a l ih =>
    have : a ≠ 0 := fun e => h (by simp [e])
    rw [List.takeWhile_cons_of_pos (by simpa using this), ih (fun e => h (List.mem_cons_of_mem _ e))]

theorem typeNum_pow {ty : Nat} (h : ty < 6) : typeNum (2 ^ ty) = some ty := by
  have : ty = 0 ∨ ty = 1 ∨ ty = 2 ∨ ty = 3 ∨ ty = 4 ∨ ty = 5 := by omega
  rcases this with rfl | rfl | rfl | rfl | rfl | rfl <;> decide

theorem rHandle_wHandle (hm : Machines m lw) (x : Option (Nat × Nat))
    (h : ∀ ty k, x = some (ty, k) → ty < 6 ∧ Fits m lw k) (r : Bytes) :
    rHandle lw m.conv (wHandle m x ++ r) = some (x, r) := by
  match x with
  | none => rfl
  | some (ty, k) =>
    obtain ⟨h1, h2⟩ := h ty k rfl
    have ht := typeNum_pow h1
    have hp : 0 < 2 ^ ty := by positivity
    obtain ⟨n, hn⟩ : ∃ n, 2 ^ ty = n + 1 := ⟨2 ^ ty - 1, by omega⟩
    rw [hn] at ht
    simp only [rHandle, wHandle, List.cons_append, List.nil_append, rB, hn, ht, rI_wI hm h2]

theorem rMany_handles (hm : Machines m lw) (l : List (Option (Nat × Nat)))
    (h : ∀ ty k, some (ty, k) ∈ l → ty < 6 ∧ Fits m lw k) (r : Bytes) :
    rMany (rHandle lw m.conv) l.length (l.flatMap (wHandle m) ++ r) = some (l, r) := by
  have := rMany_flatMap (rHandle lw m.conv) (wHandle m) id l r
    (fun a ha r => rHandle_wHandle hm a (fun ty k e => h ty k (e ▸ ha)) r)
  rwa [List.map_id] at this

theorem inMask_maskOf (f : Nat → Bool) {ty : Nat} (h : ty < 6) : inMask (maskOf f) ty = f ty := by
  have : ty = 0 ∨ ty = 1 ∨ ty = 2 ∨ ty = 3 ∨ ty = 4 ∨ ty = 5 := by omega
  unfold maskOf inMask
  simp only [List.range_succ, List.range_zero, List.nil_append, List.cons_append, List.map_cons, List.map_nil,
    List.sum_cons, List.sum_nil]
  rcases this with rfl | rfl | rfl | rfl | rfl | rfl <;>
    cases f 0 <;> cases f 1 <;> cases f 2 <;> cases f 3 <;> cases f 4 <;> cases f 5 <;> decide

theorem rConv_order (o : Order) (w : Nat) (r : Bytes) : rConv (writeOrder o :: w :: r) = some (⟨o, w⟩, r) := by
  simp only [rConv, C41_order]

/-- The numbers `0, ..., n-1` are found in the list of themselves. -/
theorem linked_range (n : Nat) : ∀ l : List Nat, (∀ k ∈ l, k < n) → linked (List.range n) l = some l
  | [], _ => rfl
  | k :: l, h => by
    simp only [linked, List.getElem?_range (h k (List.mem_cons_self ..)),
      linked_range n l (fun j hj => h j (List.mem_cons_of_mem _ hj))]

theorem allM_id {α : Type} (f : α → Option α) : ∀ l : List α, (∀ a ∈ l, f a = some a) → allM f l = some l
  | [], _ => rfl
  | a :: l, h => by
    simp only [allM, h a (List.mem_cons_self ..), allM_id f l (fun b hb => h b (List.mem_cons_of_mem _ hb))]

end Verif.Pmf
