import Verif.Parallel.Sync
import Mathlib.Data.List.Basic

/-!
# Model of TotalNumberOf, ExclusiveSum, Enumerate, AssignGlobalID

Source: `Source/Mesh/parallel.cpp`, TotalNumberOf L779-791, EnumerateSet L792-820, Enumerate L821-846 and L847-874,
ExclusiveSum L967-993, AssignGlobalID L2665-2741.

Simplifications.  Integers are unbounded.  `MPI_Scan` with `MPI_SUM` gives processor `p` the sum over
processors `0..p`, `MPI_Allreduce` the sum over all, `MPI_Bcast` the value of the root.  The tag of the numbers has
one integer.  As in the rest of the model, the flags of the tag are the same on all processors.
-/

namespace Verif.Parallel

/-- `MPI_Scan` with `MPI_SUM`. -/
def scanSum (f : Nat → Int) : Nat → Int
  | 0 => f 0
  | p + 1 => scanSum f p + f (p + 1)

/-- ExclusiveSum (parallel.cpp L967-979). -/
def exclusiveSum (f : Nat → Int) (p : Nat) : Int := scanSum f p - f p

/-- `MPI_Allreduce` with `MPI_SUM` over `n` processors. -/
def allSum (f : Nat → Int) : Nat → Int
  | 0 => 0
  | p + 1 => allSum f p + f p

/-- TotalNumberOf on processor `p` counts elements that are not ghosts (parallel.cpp L783-784), then all are
added (L787). -/
def totalNumberOf (n : Nat) (mask : Nat → Bool) (G : Nat → Local Int) : Int :=
  allSum (fun p => (((G p).elems.filter fun e => mask e.ty && (G p).status e != .ghost).length : Int)) n

/-- The elements that get a number: `define_sparse || HaveData(num_tag)`. -/
def wanted (k : Nat) (ds : Bool) (L : Local Int) (e : El) : Bool := ds || (L.data k e).isSome

/-- A loop `if( cond ) Integer(tag) = shift++` over elements (parallel.cpp L860-862, L863-865, L2706-2710).
The condition is evaluated on the data as they are when the element is reached. -/
def assign (cond : (El → Option (List Int)) → El → Bool) :
    List El → Int × (El → Option (List Int)) → Int × (El → Option (List Int))
  | [], s => s
  | e :: es, (i, d) =>
    if cond d e then assign cond es (i + 1, setAt d e (some [i]))
    else assign cond es (i, d)

/-- One processor's part of Enumerate before the exchange (parallel.cpp L852-865): `els` are the elements of
the mask, of the set, or of the array, `before` the exclusive sum. -/
def enumLocal (k : Nat) (ds : Bool) (els : List El) (L : Local Int) (first : Int) :
    Int × (El → Option (List Int)) :=
  assign (fun d e => (L.status e == .shared) && (ds || (d e).isSome)) els
    (assign (fun d e => (L.status e == .owned || L.status e == .any) && (ds || (d e).isSome)) els
      (first, L.data k))

/-- The number of elements of a processor that get a number (parallel.cpp L853-856). -/
def enumCount (k : Nat) (ds : Bool) (els : List El) (L : Local Int) : Nat :=
  (els.filter fun e => L.status e != .ghost && wanted k ds L e).length

/-- The mesh before the exchange at the end of Enumerate. -/
def enumInit (k : Nat) (ds : Bool) (els : Nat → List El) (start : Int) (G : Nat → Local Int) :
    Nat → Local Int := fun p =>
  let first := exclusiveSum (fun q => (enumCount k ds (els q) (G q) : Int)) p + start
  { G p with
    sel := fun _ => true
    data := setTag (G p).data k (enumLocal k ds (els p) (G p) first).2 }

/-- What Enumerate returns on all processors: the counter of the last one (parallel.cpp L867-870). -/
def enumResult (n k : Nat) (ds : Bool) (els : Nat → List El) (start : Int) (G : Nat → Local Int) : Int :=
  (enumLocal k ds (els (n - 1)) (G (n - 1))
    (exclusiveSum (fun q => (enumCount k ds (els q) (G q) : Int)) (n - 1) + start)).1

/-- Enumerate on `n` processors (parallel.cpp L821-874): `mask` is the mask of the exchange.  For the variant
with a mask of types `els p` are the elements of these types; the variants for a set and an array exchange
nodes, edges, faces and cells. -/
def Enumerate (n k : Nat) (T : TagInfo) (mask : Nat → Bool) (ds : Bool) (els : Nat → List El) (start : Int)
    (G G' : Nat → Local Int) : Prop :=
  Collective (exchangeCall n [(k, T)] mask) (enumInit k ds els start G) G'

/-- The loops of AssignGlobalID on one processor over the types of the mask (parallel.cpp L2700-2712): `before i`
is `shift_recv[i] - shift[i]`. -/
def gidTypes (mask : Nat → Bool) (L : Local Int) (before : Nat → Int) :
    List Nat → (El → Option (List Int)) → (El → Option (List Int))
  | [], d => d
  | i :: is, d =>
    if mask i then
      gidTypes mask L before is
        (assign (fun _ e => L.status e != .ghost) (L.elems.filter fun e => e.ty == i) (before i, d)).2
    else gidTypes mask L before is d

/-- Elements of type `i` of a processor that are not ghosts (parallel.cpp L2683-2687). -/
def gidCount (L : Local Int) (i : Nat) : Nat :=
  ((L.elems.filter fun e => e.ty == i).filter fun e => L.status e != .ghost).length

/-- The mesh before the exchange in AssignGlobalID (parallel.cpp L2676-2712).  The counters of types
that are not in the mask are added too but not used. -/
def gidInit (k : Nat) (mask : Nat → Bool) (G : Nat → Local Int) : Nat → Local Int := fun p =>
  { G p with
    sel := fun _ => true
    data := setTag (G p).data k (gidTypes mask (G p)
      (fun i => exclusiveSum (fun q => (gidCount (G q) i : Int)) p) [0, 1, 2, 3, 4] ((G p).data k)) }

/-- The flags of the tag GLOBAL_ID (parallel.cpp L2667). -/
def gidTag (mask : Nat → Bool) : TagInfo := ⟨some 1, mask, fun _ => false⟩

/-- AssignGlobalID on `n` processors (parallel.cpp L2665-2741).  The exchange does not sort by the new
numbers (L2717-2721), so `key` is what it was.  The lists are sorted afterwards (L2724). -/
def AssignGlobalID (n k : Nat) (mask : Nat → Bool) (G G' : Nat → Local Int) : Prop :=
  Collective (exchangeCall n [(k, gidTag mask)] mask) (gidInit k mask G) G'

/-! ## Lemmas -/

theorem exclusiveSum_zero (f : Nat → Int) : exclusiveSum f 0 = 0 := by
  simp [exclusiveSum, scanSum]

theorem exclusiveSum_succ (f : Nat → Int) (p : Nat) : exclusiveSum f (p + 1) = exclusiveSum f p + f p := by
  simp only [exclusiveSum, scanSum]
  omega

theorem exclusiveSum_eq (f : Nat → Int) : ∀ p, exclusiveSum f p = allSum f p
  | 0 => exclusiveSum_zero f
  | p + 1 => by rw [exclusiveSum_succ, exclusiveSum_eq f p]; rfl

theorem allSum_mono {f : Nat → Int} (h : ∀ p, 0 ≤ f p) {p q : Nat} (hpq : p ≤ q) : allSum f p ≤ allSum f q := by
  induction hpq with
  | refl => exact Int.le_refl _
  | step _ ih => rename_i m _; have := h m; simp only [allSum]; omega

/-- Position of an element in a list. -/
def posIn (l : List El) (e : El) : Nat := l.idxOf e

/-- What the loop does: elements that meet the condition get consecutive numbers. -/
theorem assign_spec {cond : (El → Option (List Int)) → El → Bool} {c : El → Bool} :
    ∀ (es : List El) (i : Int) (d : El → Option (List Int)), es.Nodup →
      (∀ d' e, e ∈ es → d' e = d e → cond d' e = c e) →
      (assign cond es (i, d)).1 = i + (es.filter c).length ∧
      (∀ e, e ∈ es → c e = true →
        (assign cond es (i, d)).2 e = some [i + ((es.filter c).idxOf e : Nat)]) ∧
      ∀ e, (e ∉ es ∨ c e = false) → (assign cond es (i, d)).2 e = d e
  | [], i, d, _, _ => ⟨by simp [assign], fun _ h => (by cases h), fun _ _ => rfl⟩
  | x :: es, i, d, hn, hc => by
    rw [List.nodup_cons] at hn
    simp only [assign]
    rw [hc d x List.mem_cons_self rfl]
    cases hx : c x with
    | true =>
      simp only [if_true]
      obtain ⟨h1, h2, h3⟩ := assign_spec (c := c) es (i + 1) (setAt d x (some [i])) hn.2 (by
        intro d' e he hd
        refine hc d' e (List.mem_cons_of_mem _ he) ?_
        rw [hd]
        unfold setAt
        rw [if_neg]
        rintro rfl
        exact hn.1 he)
      rw [List.filter_cons, if_pos hx]
      refine ⟨?_, ?_, ?_⟩
      · rw [h1, List.length_cons]; push_cast; omega
      · intro e he hce
        by_cases hex : e = x
        · subst hex
          rw [h3 e (.inl hn.1)]
          simp [setAt]
        · rw [h2 e ((List.mem_cons.1 he).resolve_left hex) hce]
          rw [List.idxOf_cons_ne _ (fun h => hex h.symm)]
          push_cast
          congr 2
          omega
      · intro e he
        have hex : e ≠ x := by
          rintro rfl
          rcases he with h | h
          · exact h List.mem_cons_self
          · rw [hx] at h; cases h
        rw [h3 e (he.imp (fun h h' => h (List.mem_cons_of_mem _ h')) id)]
        simp [setAt, hex]
    | false =>
      simp only [Bool.false_eq_true, if_false]
      obtain ⟨h1, h2, h3⟩ := assign_spec (c := c) es i d hn.2 fun d' e he =>
        hc d' e (List.mem_cons_of_mem _ he)
      rw [List.filter_cons, if_neg (by rw [hx]; simp)]
      refine ⟨h1, ?_, ?_⟩
      · intro e he hce
        rcases List.mem_cons.1 he with rfl | he
        · rw [hx] at hce; cases hce
        · exact h2 e he hce
      · intro e he
        by_cases hex : e ∈ es
        · refine h3 e (.inr ?_)
          rcases he with h | h
          · exact absurd (List.mem_cons_of_mem _ hex) h
          · exact h
        · exact h3 e (.inl hex)

/-- The elements that get numbers on one processor, in the order of the numbers. -/
def numbered (k : Nat) (ds : Bool) (els : List El) (L : Local Int) : List El :=
  (els.filter fun e => (L.status e == .owned || L.status e == .any) && wanted k ds L e) ++
    els.filter fun e => (L.status e == .shared) && wanted k ds L e

theorem numbered_nodup {k : Nat} {ds : Bool} {els : List El} {L : Local Int} (h : els.Nodup) :
    (numbered k ds els L).Nodup := by
  unfold numbered
  rw [List.nodup_append]
  refine ⟨h.sublist List.filter_sublist, h.sublist List.filter_sublist, ?_⟩
  intro a ha b hb hab
  subst hab
  simp only [List.mem_filter, Bool.and_eq_true, Bool.or_eq_true, beq_iff_eq] at ha hb
  rw [hb.2.1] at ha
  simp at ha

theorem mem_numbered {k : Nat} {ds : Bool} {els : List El} {L : Local Int} {e : El} :
    e ∈ numbered k ds els L ↔ e ∈ els ∧ L.status e ≠ .ghost ∧ wanted k ds L e = true := by
  unfold numbered
  simp only [List.mem_append, List.mem_filter, Bool.and_eq_true, Bool.or_eq_true, beq_iff_eq]
  cases L.status e <;> simp

theorem numbered_length {k : Nat} {ds : Bool} {els : List El} {L : Local Int} :
    (numbered k ds els L).length = enumCount k ds els L := by
  unfold numbered enumCount
  rw [List.length_append]
  induction els with
  | nil => rfl
  | cons e es ih =>
    simp only [List.filter_cons]
    cases hs : L.status e <;> cases hw : wanted k ds L e <;> simp <;> omega

theorem enumLocal_spec {k : Nat} {ds : Bool} {els : List El} {L : Local Int} {i : Int} (h : els.Nodup) :
    (enumLocal k ds els L i).1 = i + (enumCount k ds els L : Int) ∧
    (∀ e, e ∈ numbered k ds els L →
      (enumLocal k ds els L i).2 e = some [i + ((numbered k ds els L).idxOf e : Nat)]) ∧
    ∀ e, e ∉ numbered k ds els L → (enumLocal k ds els L i).2 e = L.data k e := by
  unfold enumLocal
  obtain ⟨a1, a2, a3⟩ := assign_spec
    (cond := fun d e => (L.status e == .owned || L.status e == .any) && (ds || (d e).isSome))
    (c := fun e => (L.status e == .owned || L.status e == .any) && wanted k ds L e) els i (L.data k) h
    (fun d' e _ hd => by simp only [wanted, hd])
  generalize hA : assign
    (fun d e => (L.status e == .owned || L.status e == .any) && (ds || (d e).isSome)) els (i, L.data k) = A at *
  obtain ⟨b1, b2, b3⟩ := assign_spec
    (cond := fun d e => (L.status e == .shared) && (ds || (d e).isSome))
    (c := fun e => (L.status e == .shared) && wanted k ds L e) els A.1 A.2 h
    (fun d' e _ hd => by
      simp only [hd]
      cases hs : (L.status e == .shared) with
      | false => rfl
      | true =>
        rw [beq_iff_eq] at hs
        rw [a3 e (.inr (by rw [hs]; rfl))]
        rfl)
  have hsplit : (numbered k ds els L).length = _ := numbered_length
  refine ⟨?_, ?_, ?_⟩
  · rw [b1, a1, ← hsplit]
    unfold numbered
    rw [List.length_append]
    push_cast
    omega
  · intro e he
    have hm := mem_numbered.1 he
    by_cases hs : L.status e = .shared
    · rw [b2 e hm.1 (by simp [hs, hm.2.2]), a1]
      unfold numbered
      rw [List.idxOf_append_of_notMem (by simp [List.mem_filter, hs])]
      push_cast
      congr 2
      omega
    · rw [b3 e (.inr (by simp [hs]))]
      have hc : ((L.status e == .owned || L.status e == .any) && wanted k ds L e) = true := by
        have := hm.2.1
        rw [hm.2.2]
        cases h0 : L.status e <;> simp_all
      rw [a2 e hm.1 hc]
      unfold numbered
      rw [List.idxOf_append_of_mem (List.mem_filter.2 ⟨hm.1, hc⟩)]
  · intro e he
    have hm : ¬ _ := fun h => he (mem_numbered.2 h)
    rw [b3 e, a3 e]
    · by_cases h1 : e ∈ els
      · right
        cases hs : L.status e <;> cases hw : wanted k ds L e <;> simp_all
      · exact .inl h1
    · by_cases h1 : e ∈ els
      · right
        cases hs : L.status e <;> cases hw : wanted k ds L e <;> simp_all
      · exact .inl h1

/-- A number in `[0, Σ)` belongs to one processor. -/
theorem find_block {f : Nat → Int} (h : ∀ p, 0 ≤ f p) : ∀ (n : Nat) (i : Int), 0 ≤ i → i < allSum f n →
    ∃ p, p < n ∧ allSum f p ≤ i ∧ i < allSum f p + f p
  | 0, i, h0, h1 => by simp only [allSum] at h1; omega
  | n + 1, i, h0, h1 => by
    by_cases hi : i < allSum f n
    · obtain ⟨p, hp, h2, h3⟩ := find_block h n i h0 hi
      exact ⟨p, by omega, h2, h3⟩
    · simp only [allSum] at h1
      exact ⟨n, by omega, by omega, by omega⟩

/-- Numbers of blocks of consecutive numbers: `num p e = start + Σ_{q<p} |l q| + position of e in l p`. -/
structure Blocks (n : Nat) (l : Nat → List El) (start : Int) (num : Nat → El → Int) : Prop where
  nodup : ∀ p, p < n → (l p).Nodup
  num : ∀ p, p < n → ∀ e, e ∈ l p → num p e = allSum (fun q => ((l q).length : Int)) p + start + ((l p).idxOf e : Nat)

theorem Blocks.range {n : Nat} {l : Nat → List El} {start : Int} {num : Nat → El → Int}
    (B : Blocks n l start num) {p : Nat} (hp : p < n) {e : El} (he : e ∈ l p) :
    start ≤ num p e ∧ num p e < start + allSum (fun q => ((l q).length : Int)) n := by
  rw [B.num p hp e he]
  have h0 := allSum_mono (f := fun q => ((l q).length : Int)) (fun _ => by simp) (Nat.zero_le p)
  have h1 := allSum_mono (f := fun q => ((l q).length : Int)) (fun _ => by simp) (show p + 1 ≤ n from hp)
  have h2 := List.idxOf_lt_length_of_mem he
  simp only [allSum] at h0 h1
  omega

theorem Blocks.inj {n : Nat} {l : Nat → List El} {start : Int} {num : Nat → El → Int}
    (B : Blocks n l start num) {p p' : Nat} (hp : p < n) (hp' : p' < n) {e e' : El} (he : e ∈ l p)
    (he' : e' ∈ l p') (h : num p e = num p' e') : p = p' ∧ e = e' := by
  rw [B.num p hp e he, B.num p' hp' e' he'] at h
  have i1 := List.idxOf_lt_length_of_mem he
  have i2 := List.idxOf_lt_length_of_mem he'
  have hpp : p = p' := by
    rcases Nat.lt_trichotomy p p' with h1 | h1 | h1
    · have := allSum_mono (f := fun q => ((l q).length : Int)) (fun _ => by simp) (show p + 1 ≤ p' from h1)
      simp only [allSum] at this
      omega
    · exact h1
    · have := allSum_mono (f := fun q => ((l q).length : Int)) (fun _ => by simp) (show p' + 1 ≤ p from h1)
      simp only [allSum] at this
      omega
  subst hpp
  refine ⟨rfl, ?_⟩
  have hi : (l p).idxOf e = (l p).idxOf e' := by omega
  have g1 := List.getElem_idxOf i1
  have g2 := List.getElem_idxOf i2
  simp only [hi] at g1
  exact g1.symm.trans g2

theorem Blocks.surj {n : Nat} {l : Nat → List El} {start : Int} {num : Nat → El → Int}
    (B : Blocks n l start num) {i : Int} (h0 : start ≤ i)
    (h1 : i < start + allSum (fun q => ((l q).length : Int)) n) : ∃ p e, p < n ∧ e ∈ l p ∧ num p e = i := by
  obtain ⟨p, hp, h2, h3⟩ := find_block (f := fun q => ((l q).length : Int)) (fun _ => by simp) n (i - start)
    (by omega) (by omega)
  have hlt : (i - start - allSum (fun q => ((l q).length : Int)) p).toNat < (l p).length := by omega
  refine ⟨p, (l p)[(i - start - allSum (fun q => ((l q).length : Int)) p).toNat], hp, List.getElem_mem _, ?_⟩
  rw [B.num p hp _ (List.getElem_mem _), List.Nodup.idxOf_getElem (B.nodup p hp)]
  omega

end Verif.Parallel
