import Verif.Iterators.Counts

/-!
# C22, C23: iteration over the elements of a mesh

`expected p mask` (Spec) is the list of visible elements of the types in the mask, by type and
then by local number.  A state is reachable if `run init ops` produces it.
-/

namespace Verif.Iterators

open Verif.Handles

/-- **C22.**  In every reachable state, and for every mask, the loop
`for(it = Begin(mask); it != End(); ++it)` terminates and sees exactly the existing, not hidden
elements of the types in the mask, each once, in order of type and local number. -/
theorem C22_begin_end (ops : List Op) (p : Pop) (hr : run init ops = some p) (mask : BitVec 8)
    (fuel : Nat) (hf : (expected p mask).length + 1 ≤ fuel) :
    forward p mask fuel = some (expected p mask) :=
  forward_spec p (run_out ops init p (by simp [init]) hr 5 (by omega)) mask fuel hf

/-- The expected list in words: it has no repetition, and contains the pair (q, i) exactly if the
type is in the mask and the element exists and is not hidden (or is the mesh itself). -/
theorem C22_expected_meaning (p : Pop) (mask : BitVec 8) :
    (expected p mask).Pairwise (fun a b => a.1 < b.1 ∨ (a.1 = b.1 ∧ a.2 < b.2)) ∧
    ∀ q i : Nat, (q, (i : Int)) ∈ expected p mask ↔
      mask.getLsbD q = true ∧ ((q < 5 ∧ Visible (p.links q) i) ∨ (q = 5 ∧ i = 0)) := by
  have hmemq : ∀ q x, x ∈ (if mask.getLsbD q then (visibleOf p q).map (fun i : Nat => (q, (i : Int)))
      else []) → x.1 = q := by
    intro q x hx
    split at hx
    · rw [List.mem_map] at hx; obtain ⟨i, _, rfl⟩ := hx; rfl
    · simp at hx
  constructor
  · unfold expected
    rw [List.pairwise_flatMap]
    constructor
    · intro q _
      split
      · rw [List.pairwise_map]
        have : (visibleOf p q).Pairwise (· < ·) := by
          unfold visibleOf; split
          · simp
          · exact List.Pairwise.filter _ List.pairwise_lt_range
        exact this.imp (fun h => Or.inr ⟨rfl, by simpa using h⟩)
      · exact List.Pairwise.nil
    · exact List.pairwise_lt_range.imp (fun {a b} h x hx y hy => by
        have h1 := hmemq a x hx
        have h2 := hmemq b y hy
        left; rw [h1, h2]; exact h)
  · intro q i
    unfold expected
    rw [List.mem_flatMap]
    constructor
    · rintro ⟨r, hr, hx⟩
      have e := hmemq r _ hx
      simp only at e
      subst e
      rw [List.mem_range] at hr
      split at hx
      · rename_i hb
        rw [List.mem_map] at hx
        obtain ⟨j, hj, he⟩ := hx
        have : j = i := by have := congrArg Prod.snd he; simp only at this; omega
        subst this
        refine ⟨hb, ?_⟩
        unfold visibleOf at hj
        split at hj
        · right; exact ⟨by assumption, by simpa using hj⟩
        · left
          rw [List.mem_filter] at hj
          exact ⟨by omega, by simpa using hj.2⟩
      · simp at hx
    · rintro ⟨hb, h⟩
      refine ⟨q, by rw [List.mem_range]; omega, ?_⟩
      rw [if_pos hb, List.mem_map]
      refine ⟨i, ?_, rfl⟩
      unfold visibleOf
      rcases h with ⟨hq, hv⟩ | ⟨hq, rfl⟩
      · rw [if_neg (by omega), List.mem_filter, List.mem_range]
        refine ⟨?_, by simpa using hv⟩
        obtain ⟨n, hn⟩ := hv
        rw [List.getElem?_eq_some_iff] at hn; exact hn.1
      · rw [if_pos hq]; simp

/-- **C22, counts.**  In every state reached without `SwapModification`, `NumberOf(mask)` is the
number of elements the loop visits.  Partial: with `SwapModification` it is false
(`C22_swap_fails`). -/
theorem C22_number_of_partial (ops : List Op) (p : Pop) (hs : NoSwap ops)
    (hr : run init ops = some p) (mask : BitVec 8) :
    numberOf p mask = (expected p mask).length :=
  numberOf_ok p (run_ok ops init p hs init_ok hr) mask

/-- Non-vacuity of the above: two nodes, three edges, an edge destroyed and its number reused, an
epoch of modification with a hidden node and a new edge. -/
def demo : List Op :=
  [.create 0, .create 0, .create 1, .create 1, .create 1, .destroy 1 0, .destroy 1 2, .create 1,
   .beginModification, .hide 0 0, .create 1, .create 4]

example : NoSwap demo ∧ ∃ p, run init demo = some p ∧ expected p 0x33#8 =
      [(0, 1), (1, 0), (1, 1), (1, 2), (4, 0), (5, 0)] ∧ numberOf p 0x33#8 = 6 := by
  exact ⟨by unfold NoSwap; decide, _, rfl, by decide +kernel, by decide +kernel⟩

/-- **C22 fails with `SwapModification`.**  An element created during the epoch is hidden after the
swap and no loop visits it, but `NumberOf` counts it: only `Hide` updates `hidden_count`, so the
array swapped in is zero. -/
theorem C22_swap_fails :
    ∃ ops p, run init ops = some p ∧ expected p NODE = [] ∧ numberOf p NODE = 1 :=
  ⟨[.beginModification, .create 0, .swapModification], _, rfl, by decide +kernel, by decide +kernel⟩

/-- **C22, end of modification.**  The elements that exist after `EndModification` are exactly the
ones that were not hidden before, and none is hidden. -/
theorem C22_end_modification (p p' : Pop) (h : step p .endModification = some p') (q i : Nat)
    (hq : q < 5) :
    (Alive (p'.links q) i ↔ Visible (p.links q) i) ∧
    (Visible (p'.links q) i ↔ Visible (p.links q) i) := by
  simp only [step] at h
  split at h
  · injection h with h; subst h
    unfold Alive Visible
    rw [endMod_links p q i hq]
    rcases (p.links q)[i]? with _ | s
    · simp
    · cases s with
      | dead => simp
      | live a b => cases a <;> simp
  · cases h

/-- Lexicographic order of (element number, local number). -/
def Before (a b : Nat × Nat) : Prop := a.1 < b.1 ∨ (a.1 = b.1 ∧ a.2 < b.2)

/-- An element of one of the five types exists. -/
def Exists (p : Pop) (h : Nat × Nat) : Prop := h.1 < 5 ∧ Alive (p.links h.1) h.2

/-- **C22, `NextHandle`.**  From an existing element, `NextHandle` gives the next existing element
(hidden or not) in order of type and local number; after the last one it gives the mesh. -/
theorem C22_next_handle (p : Pop) (h : Nat × Nat) (hh : Exists p h) :
    Before h (nextHandle p h) ∧
    (Exists p (nextHandle p h) ∨ nextHandle p h = (5, 0)) ∧
    ∀ x, Exists p x → Before h x → ¬ Before x (nextHandle p h) := by
  have key : ∀ n q id, 6 - q ≤ n → q ≤ 5 → (q < 5 → id ≤ (p.links q).length) → (q = 5 → id = 0) →
      let r := nextHandleLoop p n q id
      (q < r.1 ∨ (q = r.1 ∧ id ≤ r.2)) ∧ (Exists p r ∨ r = (5, 0)) ∧
      ∀ x, Exists p x → (q < x.1 ∨ (q = x.1 ∧ id ≤ x.2)) → ¬ Before x r := by
    intro n
    induction n with
    | zero => intro q id h1 h2; omega
    | succ n ih =>
      intro q id h1 h2 h3 h4
      simp only [nextHandleLoop]
      by_cases hq : q < 5
      · rw [if_pos hq]
        obtain ⟨e1, e2, e3, e4⟩ := skipUp_elem deadSlot (p.links q) id (h3 hq)
        by_cases hl : skipUp deadSlot (p.links q) id = (p.links q).length
        · rw [if_pos hl]
          obtain ⟨i1, i2, i3⟩ := ih (q + 1) 0 (by omega) (by omega) (fun _ => Nat.zero_le _) (fun _ => rfl)
          refine ⟨by omega, i2, ?_⟩
          intro x hx hqx
          rcases hqx with hqx | ⟨hqx, hid⟩
          · exact i3 x hx (by omega)
          · exfalso
            have ha := hx.2
            rw [← hqx] at ha
            have hlen : x.2 < (p.links q).length := by
              obtain ⟨a, b, hab⟩ := ha
              rw [List.getElem?_eq_some_iff] at hab; exact hab.1
            have := e3 x.2 hid (by omega)
            rw [vis_alive] at this
            simp only [decide_eq_false_iff_not] at this
            exact this ha
        · rw [if_neg hl]
          refine ⟨Or.inr ⟨rfl, e1⟩, Or.inl ⟨hq, ?_⟩, ?_⟩
          · have := e4 (by omega)
            rw [vis_alive] at this
            simpa using this
          · intro x hx hqx hb
            unfold Before at hb
            simp only at hb
            have hqx' : x.1 = q ∧ x.2 < skipUp deadSlot (p.links q) id ∧ id ≤ x.2 := by omega
            have ha := hx.2
            rw [hqx'.1] at ha
            have := e3 x.2 hqx'.2.2 hqx'.2.1
            rw [vis_alive] at this
            simp only [decide_eq_false_iff_not] at this
            exact this ha
      · rw [if_neg hq]
        have : q = 5 := by omega
        subst this
        refine ⟨by simp, Or.inr (by rw [h4 rfl]), ?_⟩
        intro x hx hqx
        have := hx.1
        omega
  obtain ⟨a, b, hab⟩ := hh.2
  have hlen : h.2 < (p.links h.1).length := by rw [List.getElem?_eq_some_iff] at hab; exact hab.1
  have hq := hh.1
  obtain ⟨k1, k2, k3⟩ := key 6 h.1 (h.2 + 1) (by omega) (by omega) (fun _ => hlen) (by omega)
  have hr : nextHandle p h = nextHandleLoop p 6 h.1 (h.2 + 1) := by
    unfold nextHandle
    simp only
    rw [if_neg]
    rintro ⟨c1, c2⟩
    rcases k2 with k2 | k2
    · have := k2.1; omega
    · rw [k2] at c2; simp at c2
  rw [hr]
  refine ⟨?_, k2, ?_⟩
  · unfold Before; omega
  · intro x hx hb
    unfold Before at hb
    exact k3 x hx (by omega)

/-- Non-vacuity: stepping over a dead edge and over empty types. -/
example : ∃ p, run init [.create 0, .create 1, .create 1, .create 4, .destroy 1 0] = some p ∧
    Exists p (0, 0) := by
  refine ⟨_, rfl, by decide, ⟨false, false, by decide⟩⟩

/-- **C23, one type.**  If the element with local number 0 of a type exists and is not hidden (or
the type has no numbers at all), iterating backwards over that type visits exactly the elements of the forward
loop in the opposite order.  Partial: the conditions cannot be dropped, see
`C23_deleted_fails`, `C23_hidden_fails` and `C23_types_fails`. -/
theorem C23_single_type_partial (ops : List Op) (p : Pop) (_ : run init ops = some p) (q : Nat)
    (hq : q < 5) (h0 : p.links q = [] ∨ Visible (p.links q) 0) (fuel : Nat)
    (hf : (p.links q).length + 1 ≤ fuel) :
    backward p (1#8 <<< q) fuel = some (expected p (1#8 <<< q)).reverse := by
  have hnum := num_ty ⟨q, by omega⟩
  simp only at hnum
  have hp := prev_single ⟨q, by omega⟩
  simp only at hp
  have hex : expected p (ty q) =
      (below skipSlot (p.links q) (p.links q).length).map (fun i : Nat => (q, (i : Int))) := by
    have hbits : ∀ a b : Fin 6, (ty a).getLsbD b = decide (a = b) := by decide +kernel
    rw [expected_eq]
    have hv : (fromN skipSlot (eff p q) 0) = below skipSlot (p.links q) (p.links q).length := by
      rw [fromN, eff, if_neg (by omega), Nat.sub_zero, ← List.range_eq_range']; rfl
    have ht : ∀ j : Fin 6, typeList p (ty q) j = if (⟨q, by omega⟩ : Fin 6) = j then
        (below skipSlot (p.links q) (p.links q).length).map (fun i : Nat => (q, (i : Int))) else [] := by
      intro j
      have := hbits ⟨q, by omega⟩ j
      simp only at this
      rw [typeList, this]
      by_cases h : (⟨q, by omega⟩ : Fin 6) = j
      · subst h; simp [hv]
      · simp [h]
    have e := fun (j : Nat) (hj : j < 6) => ht ⟨j, hj⟩
    simp only at e
    rw [show List.range' 0 6 = [0, 1, 2, 3, 4, 5] from rfl]
    simp only [List.flatMap_cons, List.flatMap_nil, e 0 (by omega), e 1 (by omega), e 2 (by omega),
      e 3 (by omega), e 4 (by omega), e 5 (by omega), Fin.mk.injEq]
    have : q = 0 ∨ q = 1 ∨ q = 2 ∨ q = 3 ∨ q = 4 := by omega
    rcases this with rfl | rfl | rfl | rfl | rfl <;> simp
  show backward p (ty q) fuel = some (expected p (ty q)).reverse
  rw [backward, rbegin, hp.2, if_neg hnum.2, hnum.1]
  have hl : lastLocalIDNum p q = ((p.links q).length : Nat) := by
    unfold lastLocalIDNum; rw [if_neg (by omega)]
  rw [hl, hex]
  obtain ⟨f, rfl⟩ : ∃ f, fuel = f + 1 := ⟨fuel - 1, by omega⟩
  rcases h0 with h0 | h0
  · rw [h0]
    have : decr p (ty q) 8 ⟨ty q, (([] : List Slot).length : Nat)⟩ = some endIt := by
      rw [decr]
      simp only [hnum.1, if_neg hnum.2]
      have : prevLocalIDIter p q ((([] : List Slot).length : Nat) : Int) = -1 := by
        unfold prevLocalIDIter; simp
      rw [this, if_pos rfl, if_pos hp.1]; rfl
    rw [this]
    simp [loopDown, below]
  · have hv : vis skipSlot (p.links q) 0 = true := by rw [vis_visible]; simpa using h0
    have hpos : 0 < (p.links q).length := by
      obtain ⟨n, hn⟩ := h0
      rw [List.getElem?_eq_some_iff] at hn; exact hn.1
    rcases decr_single p q hq hv _ (Nat.le_refl _) with ⟨h1, _⟩ | ⟨m, hm, h2, h3⟩
    · omega
    · rw [h2, h3]
      simp only
      rw [loopDown_single p q hq hv m (f + 1) hm (by omega)]
      simp

/-- Non-vacuity: four nodes, one destroyed. -/
example : ∃ p, run init [.create 0, .create 0, .create 0, .create 0, .destroy 0 2] = some p ∧
    Visible (p.links 0) 0 ∧ expected p NODE = [(0, 0), (0, 1), (0, 3)] :=
  ⟨_, rfl, by decide, by decide +kernel⟩

/-- **C23 fails on deleted elements.**  Two nodes are created and the first destroyed: the
backward loop over nodes visits the destroyed number 0. -/
theorem C23_deleted_fails :
    ∃ ops p, run init ops = some p ∧ expected p NODE = [(0, 1)] ∧
      ∀ fuel, 3 ≤ fuel → backward p NODE fuel = some [(0, 1), (0, 0)] := by
  refine ⟨[.create 0, .create 0, .destroy 0 0], _, rfl, by decide +kernel, ?_⟩
  intro fuel hf
  obtain ⟨f, rfl⟩ : ∃ f, fuel = f + 3 := ⟨fuel - 3, by omega⟩
  rfl

/-- **C23 fails on hidden elements** in the same way. -/
theorem C23_hidden_fails :
    ∃ ops p, run init ops = some p ∧ expected p NODE = [(0, 1)] ∧
      ∀ fuel, 3 ≤ fuel → backward p NODE fuel = some [(0, 1), (0, 0)] := by
  refine ⟨[.create 0, .create 0, .beginModification, .hide 0 0], _, rfl, by decide +kernel, ?_⟩
  intro fuel hf
  obtain ⟨f, rfl⟩ : ∃ f, fuel = f + 3 := ⟨fuel - 3, by omega⟩
  rfl

/-- **C23 fails across types.**  With two nodes and one edge, all alive, the backward loop over nodes and
edges misses the last node. -/
theorem C23_types_fails :
    ∃ ops p, run init ops = some p ∧ expected p (NODE ||| EDGE) = [(0, 0), (0, 1), (1, 0)] ∧
      ∀ fuel, 3 ≤ fuel → backward p (NODE ||| EDGE) fuel = some [(1, 0), (0, 0)] := by
  refine ⟨[.create 0, .create 0, .create 1], _, rfl, by decide +kernel, ?_⟩
  intro fuel hf
  obtain ⟨f, rfl⟩ : ∃ f, fuel = f + 3 := ⟨fuel - 3, by omega⟩
  rfl

/-- **C23, `PrevHandle`.**  From an existing element, a result of `PrevHandle` is the closest existing
element before it; and if `PrevHandle` reports that there is none, nothing but nodes can exist before it,
and if it is a node then nothing exists before it.  Partial: from an edge, face, cell or set it never steps to a node
(`C23_prev_handle_fails`), and from the mesh it never steps to a set
(`C23_prev_handle_mesh_fails`). -/
theorem C23_prev_handle_partial (p : Pop) (h : Nat × Nat) (hh : Exists p h) :
    (∀ r, prevHandle p h = some r → Exists p r ∧ Before r h ∧
      ∀ x, Exists p x → Before x h → ¬ Before r x) ∧
    (prevHandle p h = none → ∀ x, Exists p x → Before x h → x.1 = 0 ∧ h.1 ≠ 0) := by
  have key : ∀ q id1, q < 5 → id1 ≤ (p.links q).length →
      (∀ r, prevHandleLoop p (q + 1) id1 = some r → Exists p r ∧ (r.1 < q ∨ (r.1 = q ∧ r.2 < id1)) ∧
        ∀ x, Exists p x → (x.1 < q ∨ (x.1 = q ∧ x.2 < id1)) → ¬ Before r x) ∧
      (prevHandleLoop p (q + 1) id1 = none →
        ∀ x, Exists p x → (x.1 < q ∨ (x.1 = q ∧ x.2 < id1)) → x.1 = 0 ∧ (q ≠ 0)) := by
    intro q
    induction q with
    | zero =>
      intro id1 _ hid
      obtain ⟨e1, e2, e3⟩ := skipDownAll_elem deadSlot (p.links 0) id1 hid
      have hno : ∀ x, Exists p x → x.1 = 0 → skipDownAll deadSlot (p.links 0) id1 ≤ x.2 →
          x.2 < id1 → False := by
        intro x hx hx0 ha hb
        have := e2 x.2 ha hb
        rw [vis_alive] at this
        simp only [decide_eq_false_iff_not] at this
        have h2 := hx.2
        rw [hx0] at h2
        exact this h2
      rcases hs : skipDownAll deadSlot (p.links 0) id1 with _ | k
      · simp only [prevHandleLoop, hs]
        refine ⟨by simp, ?_⟩
        intro _ x hx hb
        exact (hno x hx (by omega) (by omega) (by omega)).elim
      · simp only [prevHandleLoop, hs]
        refine ⟨?_, by simp⟩
        intro r hr
        injection hr with hr; subst hr
        have := e3 k hs
        rw [vis_alive] at this
        refine ⟨⟨by omega, by simpa using this⟩, by simp; omega, ?_⟩
        intro x hx hb hbf
        unfold Before at hbf
        simp only at hbf
        exact hno x hx (by omega) (by omega) (by omega)
    | succ q ih =>
      intro id1 hq hid
      obtain ⟨e1, e2, e3⟩ := skipDownAll_elem deadSlot (p.links (q + 1)) id1 hid
      have hno : ∀ x, Exists p x → x.1 = q + 1 → skipDownAll deadSlot (p.links (q + 1)) id1 ≤ x.2 →
          x.2 < id1 → False := by
        intro x hx hx0 ha hb
        have := e2 x.2 ha hb
        rw [vis_alive] at this
        simp only [decide_eq_false_iff_not] at this
        have h2 := hx.2
        rw [hx0] at h2
        exact this h2
      rw [prevHandleLoop]
      rcases hs : skipDownAll deadSlot (p.links (q + 1)) id1 with _ | k
      · simp only [Nat.add_sub_cancel]
        by_cases hq0 : q > 0
        · rw [if_pos hq0]
          obtain ⟨i1, i2⟩ := ih (p.links q).length (by omega) (Nat.le_refl _)
          have hx2 : ∀ x, Exists p x → x.1 = q → x.2 < (p.links q).length := by
            intro x hx e
            obtain ⟨a, b, hab⟩ := hx.2
            rw [e, List.getElem?_eq_some_iff] at hab; exact hab.1
          constructor
          · intro r hr
            obtain ⟨j1, j2, j3⟩ := i1 r hr
            refine ⟨j1, by omega, ?_⟩
            intro x hx hb
            apply j3 x hx
            rcases Nat.lt_or_ge x.1 q with hxq | hxq
            · left; exact hxq
            · right
              have : x.1 = q := by
                rcases Nat.lt_or_ge q x.1 with hc | hc
                · exact (hno x hx (by omega) (by omega) (by omega)).elim
                · omega
              exact ⟨this, hx2 x hx this⟩
          · intro hr x hx hb
            refine ⟨?_, by omega⟩
            rcases Nat.lt_or_ge q x.1 with hc | hc
            · exact (hno x hx (by omega) (by omega) (by omega)).elim
            · refine (i2 hr x hx ?_).1
              rcases Nat.lt_or_ge x.1 q with hxq | hxq
              · left; exact hxq
              · right; exact ⟨by omega, hx2 x hx (by omega)⟩
        · have hq0 : q = 0 := by omega
          subst hq0
          rw [if_neg (by omega)]
          have hn : prevHandleLoop p (0 + 1) 0 = none := by
            simp [prevHandleLoop, skipDownAll]
          rw [hn]
          refine ⟨by simp, ?_⟩
          intro _ x hx hb
          refine ⟨?_, by omega⟩
          rcases Nat.lt_or_ge 0 x.1 with hc | hc
          · exact (hno x hx (by omega) (by omega) (by omega)).elim
          · omega
      · simp only
        refine ⟨?_, by simp⟩
        intro r hr
        injection hr with hr; subst hr
        have := e3 k hs
        rw [vis_alive] at this
        refine ⟨⟨by omega, by simpa using this⟩, by simp; omega, ?_⟩
        intro x hx hb hbf
        unfold Before at hbf
        simp only at hbf
        exact hno x hx (by omega) (by omega) (by omega)
  have hq := hh.1
  have hlen : h.2 ≤ (p.links h.1).length := by
    obtain ⟨a, b, hab⟩ := hh.2
    rw [List.getElem?_eq_some_iff] at hab
    exact Nat.le_of_lt hab.1
  obtain ⟨k1, k2⟩ := key h.1 h.2 hq hlen
  unfold prevHandle
  rw [if_neg (by omega)]
  unfold Before at *
  refine ⟨?_, ?_⟩
  · intro r hr; exact k1 r hr
  · intro hr x hx hb; exact k2 hr x hx hb

/-- Non-vacuity: from a face over an empty gap to an edge. -/
example : ∃ p, run init [.create 1, .create 1, .create 2, .destroy 1 1] = some p ∧
    Exists p (2, 0) ∧ prevHandle p (2, 0) = some (1, 0) :=
  ⟨_, rfl, ⟨by decide, false, false, by decide⟩, by decide⟩

/-- **C23 fails for `PrevHandle` at the first edge**: a node exists before it, yet the answer is the
invalid handle. -/
theorem C23_prev_handle_fails :
    ∃ ops p, run init ops = some p ∧ Exists p (0, 0) ∧ Exists p (1, 0) ∧ prevHandle p (1, 0) = none :=
  ⟨[.create 0, .create 1], _, rfl, ⟨by decide, false, false, by decide⟩,
    ⟨by decide, false, false, by decide⟩, by decide⟩

/-- **C23 fails for `PrevHandle` at the mesh**: it never answers with a set, whatever sets exist. -/
theorem C23_prev_handle_mesh_fails (p : Pop) (r : Nat × Nat) (h : prevHandle p (5, 0) = some r) :
    r.1 < 4 := by
  have lt : ∀ q id1 r, prevHandleLoop p q id1 = some r → r.1 < q := by
    intro q
    induction q with
    | zero => intro id1 r h; simp [prevHandleLoop] at h
    | succ q ih =>
      intro id1 r h
      rw [prevHandleLoop] at h
      split at h
      · have := ih _ _ h; omega
      · injection h with h; subst h; exact Nat.lt_succ_self q
  unfold prevHandle at h
  simp only [if_true] at h
  rw [prevHandleLoop] at h
  simp only [skipDownAll] at h
  exact lt 4 _ r h

end Verif.Iterators
