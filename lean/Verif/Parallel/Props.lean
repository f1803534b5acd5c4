import Verif.Parallel.Check

/-!
# Properties of ExchangeData and ReduceData (C60, C61)

`Run C G tr S`: starting from the distributed mesh `G`, the events `tr` happened and led to `S`; the
events of different processors, and messages of different senders, interleave in any way.
`Done C S`: all processors have returned from the call.
-/

namespace Verif.Parallel

variable {V : Type}

/-- C60.  ExchangeData on a distributed mesh: whatever happened so far, no assertion fails next; if
not all processors have returned, something can happen next (no deadlock); and the number of events is
bounded, so every execution ends with all processors having returned. -/
theorem C60_terminates (n : Nat) (tags : List (Nat × TagInfo)) (mask : Nat → Bool) (G : Nat → Local V)
    (hG : Distributed n G) (hs : Sized n tags G) (ht : (tags.map (·.1)).Nodup)
    (tr : List Event) (S : Sys V) (h : Run (exchangeCall n tags mask) G tr S) :
    (∀ ev, step (exchangeCall n tags mask) S ev ≠ .failed) ∧
    (¬ Done (exchangeCall n tags mask) S → ∃ ev S', step (exchangeCall n tags mask) S ev = .ok S') ∧
    tr.length ≤ n + n * n := by
  have H := exchange_ok (mask := mask) hG hs ht
  have I := run_inv H h
  exact ⟨fun ev => (step_inv H I ev).1, progress H I, run_length I⟩

/-- C60 for tags with values everywhere and a fixed positive number of scalars: when all have returned, the
value on every selected ghost is the value on the owner's copy. -/
theorem C60_ghosts_equal_owner (n : Nat) (tags : List (Nat × TagInfo)) (mask : Nat → Bool)
    (G : Nat → Local V) (hG : Distributed n G) (hs : Sized n tags G) (ht : (tags.map (·.1)).Nodup)
    (tr : List Event) (S : Sys V) (h : Run (exchangeCall n tags mask) G tr S)
    (hd : Done (exchangeCall n tags mask) S)
    (k : Nat) (T : TagInfo) (m : Nat) (hk : (k, T) ∈ tags) (hm : T.size = some (m + 1))
    (p q : Nat) (hp : p < n) (e e' : El) (hg : GhostOf G p e q e') (hmask : mask e.ty = true)
    (hdef : T.defd e.ty = true) (hdense : T.sparse e.ty = false) (hsel : (G p).sel e = true) :
    (S.loc p).data k e = (S.loc q).data k e' ∧ (S.loc q).data k e' = (G q).data k e' := by
  have hq : q < n := by
    have := (hG.owner p hp e hg.mem hg.ghost).1
    rw [hg.owner] at this
    exact this
  obtain ⟨d, h1, h2, _, _⟩ := exchange_final hG hs ht h hd hp
  obtain ⟨d', h1', _, h3', _⟩ := exchange_final hG hs ht h hd hq
  have hty := hg.same.1
  have hsz := hs (k, T) hk q hq e' hg.mem' (by simp only; rw [← hty]; exact hdef)
  rw [h1, h1']
  simp only
  have e2 : d' k e' = (G q).data k e' := by
    refine h3' (k, T) hk e' fun q' e2 hg' => ?_
    have := hg'.ghost
    rw [hg.shared] at this
    cases this
  refine ⟨?_, e2⟩
  rw [e2]
  cases hv : (G q).data k e' with
  | none => exact absurd hv (hsz.dense (by simp only; rw [← hty]; exact hdense))
  | some x =>
    have := hsz.size x (m + 1) hv hm
    cases x with
    | nil => simp at this
    | cons a l => exact h2 (k, T) hk e q e' a l hg hmask hdef hsel hv

/-- C60 for all tags, sparse tags and tags of variable length included.  Missing from the full statement:
if the owner's copy has no value, or a value of length zero, the ghost does not become equal to it
(`C60_absent_fails`, `C60_empty_fails`). -/
theorem C60_values_partial (n : Nat) (tags : List (Nat × TagInfo)) (mask : Nat → Bool)
    (G : Nat → Local V) (hG : Distributed n G) (hs : Sized n tags G) (ht : (tags.map (·.1)).Nodup)
    (tr : List Event) (S : Sys V) (h : Run (exchangeCall n tags mask) G tr S)
    (hd : Done (exchangeCall n tags mask) S)
    (k : Nat) (T : TagInfo) (hk : (k, T) ∈ tags)
    (p q : Nat) (hp : p < n) (e e' : El) (hg : GhostOf G p e q e') (hmask : mask e.ty = true)
    (hdef : T.defd e.ty = true) (hsel : (G p).sel e = true) (x : List V)
    (hx : (G q).data k e' = some x) (hne : x ≠ []) :
    (S.loc p).data k e = some x := by
  obtain ⟨d, h1, h2, _, _⟩ := exchange_final hG hs ht h hd hp
  rw [h1]
  cases x with
  | nil => exact absurd rfl hne
  | cons a l => exact h2 (k, T) hk e q e' a l hg hmask hdef hsel hx

/-- C60: nothing else is changed: not the mesh itself, not tags that were not exchanged, not values on
elements that are not ghosts, not in the mask, or not selected. -/
theorem C60_elsewhere (n : Nat) (tags : List (Nat × TagInfo)) (mask : Nat → Bool)
    (G : Nat → Local V) (hG : Distributed n G) (hs : Sized n tags G) (ht : (tags.map (·.1)).Nodup)
    (tr : List Event) (S : Sys V) (h : Run (exchangeCall n tags mask) G tr S)
    (hd : Done (exchangeCall n tags mask) S) (p : Nat) (hp : p < n) :
    S.loc p = { G p with data := (S.loc p).data } ∧
    (∀ k, (∀ T, (k, T) ∉ tags) → (S.loc p).data k = (G p).data k) ∧
    ∀ k e, ((G p).status e ≠ .ghost ∨ mask e.ty = false ∨ (G p).sel e = false) →
      (S.loc p).data k e = (G p).data k e := by
  obtain ⟨d, h1, _, h3, h4⟩ := exchange_final hG hs ht h hd hp
  have h4' : ∀ k, (∀ T, (k, T) ∉ tags) → d k = (G p).data k := by
    intro k hk
    refine h4 k ?_
    rintro ⟨k', T⟩ hT rfl
    exact hk T hT
  rw [h1]
  refine ⟨rfl, h4', ?_⟩
  intro k e hno
  simp only
  by_cases hk : ∃ T, (k, T) ∈ tags
  · obtain ⟨T, hT⟩ := hk
    refine h3 (k, T) hT e fun q e' hg hm _ hsel => ?_
    rcases hno with h | h | h
    · exact absurd hg.ghost h
    · rw [h] at hm; cases hm
    · rw [h] at hsel; cases hsel
  · rw [h4' k fun T hT => hk ⟨T, hT⟩]

/-- C61.  ReduceData with any operation that accepts values of the size of the tag: no assertion fails, no
deadlock, executions end. -/
theorem C61_terminates (n : Nat) (tags : List (Nat × TagInfo)) (mask : Nat → Bool) (op : Op V)
    (G : Nat → Local V) (hG : Distributed n G) (hs : Sized n tags G) (ht : (tags.map (·.1)).Nodup)
    (hop : ∀ t, t ∈ tags → OpSafe op t.2)
    (tr : List Event) (S : Sys V) (h : Run (reduceCall n tags mask op) G tr S) :
    (∀ ev, step (reduceCall n tags mask op) S ev ≠ .failed) ∧
    (¬ Done (reduceCall n tags mask op) S → ∃ ev S', step (reduceCall n tags mask op) S ev = .ok S') ∧
    tr.length ≤ n + n * n := by
  have H : CallOk (reduceCall n tags mask op) G := ⟨hG, hs, ht, hop⟩
  have I := run_inv H h
  exact ⟨fun ev => (step_inv H I ev).1, progress H I, run_length I⟩

/-- C61: at the end, the value on a selected shared element is what the operation makes of the owner's value
and the values of all ghosts of the element, each ghost once, in some order; values that are
not set or empty are left out.  `val p` is the value on the ghost on processor `p`. -/
theorem C61_each_ghost_once (n : Nat) (tags : List (Nat × TagInfo)) (mask : Nat → Bool) (op : Op V)
    (G : Nat → Local V) (hG : Distributed n G) (hs : Sized n tags G) (ht : (tags.map (·.1)).Nodup)
    (hop : ∀ t, t ∈ tags → OpSafe op t.2)
    (tr : List Event) (S : Sys V) (h : Run (reduceCall n tags mask op) G tr S)
    (hd : Done (reduceCall n tags mask op) S) (k : Nat) (T : TagInfo) (hk : (k, T) ∈ tags)
    (q : Nat) (hq : q < n) (e' : El) (he : e' ∈ (G q).elems) (hst : (G q).status e' = .shared)
    (hmask : mask e'.ty = true) (hdef : T.defd e'.ty = true) (hsel : (G q).sel e' = true)
    (val : Nat → Option (List V))
    (hval : ∀ p e, GhostOf G p e q e' → val p = present ((G p).data k e)) :
    ∃ order : List Nat, order.Perm (((G q).procs e').filter fun p => p != q) ∧
      foldOp op T e' val order ((G q).data k e') = some ((S.loc q).data k e') := by
  obtain ⟨d, h1, h2, _, _⟩ := reduce_final hG hs ht hop h hd hq
  rw [h1]
  exact h2 (k, T) hk e' he hst hmask hdef hsel val hval

/-- C61 for an operation for which the order of two values does not matter: the result does not depend on the
order in which messages arrive. -/
theorem C61_order_irrelevant (n : Nat) (tags : List (Nat × TagInfo)) (mask : Nat → Bool) (op : Op V)
    (G : Nat → Local V) (hG : Distributed n G) (hs : Sized n tags G) (ht : (tags.map (·.1)).Nodup)
    (hop : ∀ t, t ∈ tags → OpSafe op t.2) (hc : OpComm op)
    (tr : List Event) (S : Sys V) (h : Run (reduceCall n tags mask op) G tr S)
    (hd : Done (reduceCall n tags mask op) S) (k : Nat) (T : TagInfo) (hk : (k, T) ∈ tags)
    (q : Nat) (hq : q < n) (e' : El) (he : e' ∈ (G q).elems) (hst : (G q).status e' = .shared)
    (hmask : mask e'.ty = true) (hdef : T.defd e'.ty = true) (hsel : (G q).sel e' = true)
    (val : Nat → Option (List V))
    (hval : ∀ p e, GhostOf G p e q e' → val p = present ((G p).data k e)) :
    foldOp op T e' val (((G q).procs e').filter fun p => p != q) ((G q).data k e') =
      some ((S.loc q).data k e') := by
  obtain ⟨order, h1, h2⟩ := C61_each_ghost_once n tags mask op G hG hs ht hop tr S h hd k T hk q hq e'
    he hst hmask hdef hsel val hval
  rw [← foldOp_perm hc h1]
  exact h2

/-- Sum of scalars, an operation used with ReduceData. -/
def addOp : Op Int := fun _ _ d x =>
  match d, x with
  | some [a], [b] => some (some [a + b])
  | _, _ => none

/-- C61 for the sum of integers: the owner's value becomes the sum of the values on all copies. -/
theorem C61_sum (n k : Nat) (T : TagInfo) (mask : Nat → Bool) (G : Nat → Local Int)
    (hG : Distributed n G) (hs : Sized n [(k, T)] G) (hT : T.size = some 1)
    (hdense : ∀ i, T.sparse i = false)
    (tr : List Event) (S : Sys Int) (h : Run (reduceCall n [(k, T)] mask addOp) G tr S)
    (hd : Done (reduceCall n [(k, T)] mask addOp) S)
    (q : Nat) (hq : q < n) (e' : El) (he : e' ∈ (G q).elems) (hst : (G q).status e' = .shared)
    (hmask : mask e'.ty = true) (hdef : T.defd e'.ty = true) (hsel : (G q).sel e' = true)
    (own : Int) (hown : (G q).data k e' = some [own]) (val : Nat → Int)
    (hval : ∀ p e, GhostOf G p e q e' → (G p).data k e = some [val p]) :
    (S.loc q).data k e' =
      some [own + ((((G q).procs e').filter fun p => p != q).map val).sum] := by
  have hop : ∀ t, t ∈ [(k, T)] → OpSafe addOp t.2 := by
    intro t ht e d x _ hd hx hl
    rw [List.mem_singleton] at ht
    subst ht
    simp only at hd hl
    have hx1 := hl 1 hT
    cases hd0 : d with
    | none => exact absurd hd0 (hd.dense (hdense _))
    | some y =>
      have hy1 := hd.size y 1 hd0 hT
      obtain ⟨b, rfl⟩ := List.length_eq_one_iff.1 hx1
      obtain ⟨a, rfl⟩ := List.length_eq_one_iff.1 hy1
      exact ⟨some [a + b], rfl, fun z m hz hm => by
        cases hz; simp only at hm; rw [hT] at hm; cases hm; rfl, fun _ => by simp⟩
  have hc : OpComm addOp := by
    intro T e d x y
    match d, x, y with
    | none, _, _ => rfl
    | some [], _, _ => rfl
    | some (_ :: _ :: _), _, _ => rfl
    | some [_], [], y => cases y with | nil => rfl | cons b l => cases l <;> rfl
    | some [_], _ :: _ :: _, y => cases y with | nil => rfl | cons b l => cases l <;> rfl
    | some [_], [_], [] => rfl
    | some [_], [_], _ :: _ :: _ => rfl
    | some [a], [b], [c] =>
      simp only [addOp]
      rw [Int.add_assoc, Int.add_comm b c, ← Int.add_assoc]
  have := C61_order_irrelevant n [(k, T)] mask addOp G hG hs (by simp) hop hc tr S h hd k T (by simp) q hq
    e' he hst hmask hdef hsel (fun p => some [val p]) (fun p e hg => by rw [hval p e hg]; rfl)
  rw [hown] at this
  have key : ∀ (l : List Nat) (a : Int),
      foldOp addOp T e' (fun p => some [val p]) l (some [a]) = some (some [a + (l.map val).sum]) := by
    intro l
    induction l with
    | nil => intro a; simp [foldOp]
    | cons p l ih =>
      intro a
      simp only [foldOp, addOp, List.map_cons, List.sum_cons]
      rw [ih, Int.add_assoc]
  rw [key] at this
  injection this with this
  exact this.symm

/-- C61: values on ghosts, on elements that are not shared, not in the mask or not selected, and tags that
were not reduced are not changed; the mesh itself is not changed. -/
theorem C61_elsewhere (n : Nat) (tags : List (Nat × TagInfo)) (mask : Nat → Bool) (op : Op V)
    (G : Nat → Local V) (hG : Distributed n G) (hs : Sized n tags G) (ht : (tags.map (·.1)).Nodup)
    (hop : ∀ t, t ∈ tags → OpSafe op t.2)
    (tr : List Event) (S : Sys V) (h : Run (reduceCall n tags mask op) G tr S)
    (hd : Done (reduceCall n tags mask op) S) (q : Nat) (hq : q < n) :
    S.loc q = { G q with data := (S.loc q).data } ∧
    (∀ k, (∀ T, (k, T) ∉ tags) → (S.loc q).data k = (G q).data k) ∧
    ∀ k e, ((G q).status e ≠ .shared ∨ mask e.ty = false ∨ (G q).sel e = false) →
      (S.loc q).data k e = (G q).data k e := by
  obtain ⟨d, h1, _, h3, h4⟩ := reduce_final hG hs ht hop h hd hq
  have h4' : ∀ k, (∀ T, (k, T) ∉ tags) → d k = (G q).data k := by
    intro k hk
    refine h4 k ?_
    rintro ⟨k', T⟩ hT rfl
    exact hk T hT
  rw [h1]
  refine ⟨rfl, h4', ?_⟩
  intro k e hno
  simp only
  by_cases hk : ∃ T, (k, T) ∈ tags
  · obtain ⟨T, hT⟩ := hk
    refine h3 (k, T) hT e ?_
    rcases hno with h | h | h
    · exact .inl h
    · exact .inr (.inl h)
    · exact .inr (.inr (.inr h))
  · rw [h4' k fun T hT => hk ⟨T, hT⟩]

/-! ## A concrete mesh

Three processors.  Node 10 is owned by processor 0, with ghosts on 1 and 2; node 20 is owned by 1, with a
ghost on 0; node 5 and a cell have one copy. -/

def exMesh (data : Nat → Nat → El → Option (List Int)) : Nat → Local Int
  | 0 => {
      elems := [⟨0, 0⟩, ⟨0, 1⟩, ⟨0, 2⟩]
      status := fun e => if e.id = 0 then .shared else if e.id = 1 then .ghost else .owned
      owner := fun e => if e.id = 1 then 1 else 0
      procs := fun e => if e.id = 0 then [0, 1, 2] else if e.id = 1 then [0, 1] else [0]
      key := fun e => if e.id = 0 then 10 else if e.id = 1 then 20 else 5
      sel := fun _ => true
      data := data 0 }
  | 1 => {
      elems := [⟨0, 0⟩, ⟨0, 3⟩]
      status := fun e => if e.id = 0 then .shared else .ghost
      owner := fun e => if e.id = 0 then 1 else 0
      procs := fun e => if e.id = 0 then [0, 1] else [0, 1, 2]
      key := fun e => if e.id = 0 then 20 else 10
      sel := fun _ => true
      data := data 1 }
  | p => {
      elems := if p = 2 then [⟨0, 7⟩, ⟨3, 0⟩] else []
      status := fun e => if e.id = 7 then .ghost else .owned
      owner := fun e => if e.id = 7 then 0 else 2
      procs := fun e => if e.id = 7 then [0, 1, 2] else [2]
      key := fun _ => 10
      sel := fun _ => true
      data := data p }

theorem exMesh_ok (data : Nat → Nat → El → Option (List Int)) : Distributed 3 (exMesh data) := by
  apply distributed_of
  have : distributedB 3 (exMesh data) = distributedB 3 (exMesh fun _ _ _ => none) := rfl
  rw [this]
  decide +kernel

/-- Tag 0: two integers on nodes; tag 1: a sparse integer; tag 2: variable length. -/
def exTags : List (Nat × TagInfo) :=
  [(0, ⟨some 2, fun i => i == 0, fun _ => false⟩), (1, ⟨some 1, fun i => i == 0, fun _ => true⟩),
   (2, ⟨none, fun _ => true, fun _ => false⟩)]

def exData (p k : Nat) (e : El) : Option (List Int) :=
  if k = 0 then some [p, e.id]
  else if k = 1 then (if p = 1 then some [7] else none)
  else some (List.replicate p 3)

def exOrder : List Event := [.start 2, .start 0, .deliver 2 0, .start 1, .deliver 1 0, .deliver 0 1]

def exFinal : Sys Int :=
  (runEvents (exchangeCall 3 exTags fun i => i < 4) exOrder (initSys (exMesh exData))).getD
    (initSys (exMesh exData))

example : (exMesh exData 0).data 1 ⟨0, 1⟩ = none ∧ sizedB 3 exTags (exMesh exData) = true ∧
    ∃ tr S, Run (exchangeCall 3 exTags fun i => i < 4) (exMesh exData) tr S ∧
      Done (exchangeCall 3 exTags fun i => i < 4) S ∧
      (S.loc 0).data 0 ⟨0, 1⟩ = some [1, 0] ∧ (S.loc 0).data 1 ⟨0, 1⟩ = some [7] ∧
      (S.loc 0).data 2 ⟨0, 1⟩ = some [3] ∧ (S.loc 2).data 0 ⟨0, 7⟩ = some [0, 0] ∧
      GhostOf (exMesh exData) 0 ⟨0, 1⟩ 1 ⟨0, 0⟩ := by
  refine ⟨rfl, by decide +kernel, exOrder, exFinal, ?_, ?_, by decide +kernel, by decide +kernel,
    by decide +kernel, by decide +kernel, ghostOfB_iff.1 (by decide +kernel)⟩
  · apply run_of
    have : (runEvents (exchangeCall 3 exTags fun i => i < 4) exOrder (initSys (exMesh exData))).isSome = true := by
      decide +kernel
    unfold exFinal
    cases h : runEvents (exchangeCall 3 exTags fun i => i < 4) exOrder (initSys (exMesh exData)) with
    | none => rw [h] at this; cases this
    | some S => rfl
  · exact done_of (by decide +kernel)

/-- C60 fails for sparse tags: the owner's copy has no value, and a value left on the ghost survives
ExchangeData, because an element without value is not packed (parallel.cpp L3136) and so
DefaultUnpack never deletes data (L282-291). -/
theorem C60_absent_fails : ∃ (tags : List (Nat × TagInfo)) (G : Nat → Local Int) (tr : List Event)
    (S : Sys Int) (e e' : El), Distributed 3 G ∧ Sized 3 tags G ∧ (tags.map (·.1)).Nodup ∧
    Run (exchangeCall 3 tags fun _ => true) G tr S ∧ Done (exchangeCall 3 tags fun _ => true) S ∧
    GhostOf G 1 e 0 e' ∧ (S.loc 0).data 1 e' = none ∧ (S.loc 1).data 1 e = some [7] := by
  refine ⟨exTags, exMesh exData, [.start 0, .start 1, .start 2, .deliver 0 1, .deliver 1 0, .deliver 2 0],
    (runEvents (exchangeCall 3 exTags fun _ => true)
      [.start 0, .start 1, .start 2, .deliver 0 1, .deliver 1 0, .deliver 2 0]
      (initSys (exMesh exData))).get (by decide +kernel), ⟨0, 3⟩, ⟨0, 0⟩, exMesh_ok _,
    sized_of (by decide +kernel), by decide, run_of (Option.some_get _).symm, done_of (by decide +kernel),
    ghostOfB_iff.1 (by decide +kernel), by decide +kernel, by decide +kernel⟩

/-- C60 fails for tags of variable length: the owner's array is empty, and the array of the ghost is not
emptied, because a record of size zero is skipped (parallel.cpp L3365). -/
theorem C60_empty_fails : ∃ (tags : List (Nat × TagInfo)) (G : Nat → Local Int) (tr : List Event)
    (S : Sys Int) (e e' : El), Distributed 3 G ∧ Sized 3 tags G ∧ (tags.map (·.1)).Nodup ∧
    Run (exchangeCall 3 tags fun _ => true) G tr S ∧ Done (exchangeCall 3 tags fun _ => true) S ∧
    GhostOf G 1 e 0 e' ∧ (S.loc 0).data 2 e' = some [] ∧ (S.loc 1).data 2 e = some [3] := by
  refine ⟨exTags, exMesh exData, [.start 0, .start 1, .start 2, .deliver 0 1, .deliver 1 0, .deliver 2 0],
    (runEvents (exchangeCall 3 exTags fun _ => true)
      [.start 0, .start 1, .start 2, .deliver 0 1, .deliver 1 0, .deliver 2 0]
      (initSys (exMesh exData))).get (by decide +kernel), ⟨0, 3⟩, ⟨0, 0⟩, exMesh_ok _,
    sized_of (by decide +kernel), by decide, run_of (Option.some_get _).symm, done_of (by decide +kernel),
    ghostOfB_iff.1 (by decide +kernel), by decide +kernel, by decide +kernel⟩

/-- A sum over the three copies of node 10: `100 + 3 + 7`. -/
def exSum (p k : Nat) (e : El) : Option (List Int) :=
  if k = 0 then some [if p = 0 ∧ e.id = 0 then 100 else e.id] else none

def exSumTags : List (Nat × TagInfo) := [(0, ⟨some 1, fun i => i == 0, fun _ => false⟩)]

example : sizedB 3 exSumTags (exMesh exSum) = true ∧
    ∃ tr S, Run (reduceCall 3 exSumTags (fun _ => true) addOp) (exMesh exSum) tr S ∧
      Done (reduceCall 3 exSumTags (fun _ => true) addOp) S ∧ (S.loc 0).data 0 ⟨0, 0⟩ = some [110] := by
  refine ⟨by decide +kernel, [.start 0, .start 2, .deliver 0 2, .start 1, .deliver 1 0, .deliver 0 1],
    (runEvents (reduceCall 3 exSumTags (fun _ => true) addOp)
      [.start 0, .start 2, .deliver 0 2, .start 1, .deliver 1 0, .deliver 0 1]
      (initSys (exMesh exSum))).get (by decide +kernel), run_of (Option.some_get _).symm,
    done_of (by decide +kernel), by decide +kernel⟩

end Verif.Parallel
