import Verif.Topology.Queries

/-!
# Properties C11 - C14, C47: connectivity of the mesh
-/

namespace Verif.Topology

/-! ## A concrete mesh

Three nodes, two edges, two faces, two cells that share a face. -/

def nd (i : Nat) : El := ⟨0, i⟩
def ed (i : Nat) : El := ⟨1, i⟩
def fc (i : Nat) : El := ⟨2, i⟩
def cl (i : Nat) : El := ⟨3, i⟩

def w1 : Topo := ((Topo.init true).createNode 0).get (by decide +kernel)
def w2 : Topo := (w1.createNode 1).get (by decide +kernel)
def w3 : Topo := (w2.createNode 2).get (by decide +kernel)
def w4 : Topo := ((w3.create true 1 0 [nd 0, nd 1] []).get (by decide +kernel)).1
def w5 : Topo := ((w4.create true 1 1 [nd 1, nd 2] []).get (by decide +kernel)).1
def w6 : Topo := ((w5.create true 2 0 [ed 0, ed 1] []).get (by decide +kernel)).1
def w7 : Topo := ((w6.create false 2 1 [ed 1] []).get (by decide +kernel)).1
def w8 : Topo := ((w7.create true 3 0 [fc 0, fc 1] [nd 0, nd 1, nd 2]).get (by decide +kernel)).1
def w9 : Topo := ((w8.create false 3 1 [fc 0] [nd 0, nd 1, nd 2]).get (by decide +kernel)).1

theorem getEq {α : Type} {o : Option α} (h : o.isSome = true) : o = some (o.get h) := by simp

theorem getEq2 {α β : Type} {o : Option (α × β)} (h : o.isSome = true) :
    o = some ((o.get h).1, (o.get h).2) := getEq h

theorem goodArgs_of {T : Topo} {ty : Nat} {elems nodes : List El}
    (h1 : ty = 1 ∨ ty = 2 ∨ ty = 3) (h2 : ∀ x ∈ elems, T.alive x = true ∧ x.ty + 1 = ty)
    (h3 : ∀ x ∈ nodes, T.alive x = true ∧ x.ty = 0) (h4 : elems.Nodup) (h5 : nodes.Nodup)
    (h6 : ∀ x ∈ elems, T.hid x = false)
    (h7 : ty = 3 → (∀ n ∈ nodes, n ∈ elems.flatMap fun f => (T.low f).flatMap T.low) ∧
      ∀ n ∈ elems.flatMap fun f => (T.low f).flatMap T.low, n ∈ nodes) :
    GoodArgs T ty elems nodes := by
  refine ⟨⟨h1, h2, h3⟩, h4, h5, h6, fun h n => ?_⟩
  have : (∃ f ∈ elems, ∃ e ∈ T.low f, n ∈ T.low e) ↔
      n ∈ elems.flatMap fun f => (T.low f).flatMap T.low := by simp [List.mem_flatMap]
  rw [this]
  exact ⟨(h7 h).1 n, (h7 h).2 n⟩

theorem good_w3 : GoodReach true w3 :=
  .createNode 2 (.createNode 1 (.createNode 0 .init (getEq _)) (getEq _)) (getEq _)

theorem good_w9 : GoodReach true w9 := by
  have g4 : GoodReach true w4 := .create true 1 0 [nd 0, nd 1] [] good_w3
    (goodArgs_of (by decide) (by decide +kernel) (by decide +kernel) (by decide) (by decide)
      (by decide +kernel) (by decide)) (getEq2 _)
  have g5 : GoodReach true w5 := .create true 1 1 [nd 1, nd 2] [] g4
    (goodArgs_of (by decide) (by decide +kernel) (by decide +kernel) (by decide) (by decide)
      (by decide +kernel) (by decide)) (getEq2 _)
  have g6 : GoodReach true w6 := .create true 2 0 [ed 0, ed 1] [] g5
    (goodArgs_of (by decide) (by decide +kernel) (by decide +kernel) (by decide) (by decide)
      (by decide +kernel) (by decide)) (getEq2 _)
  have g7 : GoodReach true w7 := .create false 2 1 [ed 1] [] g6
    (goodArgs_of (by decide) (by decide +kernel) (by decide +kernel) (by decide) (by decide)
      (by decide +kernel) (by decide)) (getEq2 _)
  have g8 : GoodReach true w8 := .create true 3 0 [fc 0, fc 1] [nd 0, nd 1, nd 2] g7
    (goodArgs_of (by decide) (by decide +kernel) (by decide +kernel) (by decide) (by decide)
      (by decide +kernel) (by decide +kernel)) (getEq2 _)
  exact .create false 3 1 [fc 0] [nd 0, nd 1, nd 2] g8
    (goodArgs_of (by decide) (by decide +kernel) (by decide +kernel) (by decide) (by decide)
      (by decide +kernel) (by decide +kernel)) (getEq2 _)

theorem GoodReach.toReach {cn : Bool} {T : Topo} (r : GoodReach cn T) : Reach cn T := by
  induction r with
  | init => exact .init
  | createNode id _ e ih => exact .createNode id ih e
  | create dup ty id elems nodes _ A e ih => exact .create dup ty id elems nodes ih A.toCreateArgs e
  | delete flip h _ ha e ih => exact .delete flip h ih ha e
  | destroy flip h _ e ih => exact .destroy flip h ih e
  | beginMod _ e ih => exact .beginMod ih e
  | endMod flip _ e ih => exact .endMod flip ih e
  | fixNormal flip f _ e ih => exact .fixNormal flip f ih e
  | permLow x l _ hl e ih => exact .permLow x l ih hl e

/-- The mesh in which a modification has begun, edge 0 is deleted in it. -/
def m1 : Topo := (w9.beginMod).get (by decide +kernel)
def m2 : Topo := (m1.delete (fun _ _ => true) (fc 1)).get (by decide +kernel)
def m3 : Topo := (m2.endMod (fun _ _ => true)).get (by decide +kernel)

theorem good_m2 : GoodReach true m2 :=
  .delete (fun _ _ => true) (fc 1) (.beginMod good_w9 (getEq _)) (by decide +kernel) (getEq _)

/-! ## C11 -/

/-- C11: after any history of operations with a defined outcome, `a` occurs in the list of lower
neighbours of `b` as often as `b` in the list of upper neighbours of `a`; only existing elements
occur in the lists of existing elements.
Missing: `Connect`/`Disconnect` with cell-node connections, which have no defined
outcome (`C11_connect_fails`). -/
theorem C11_mirror_partial {cn : Bool} {T : Topo} (r : Reach cn T) (a b : El) :
    (T.low b).count a = (T.high a).count b ∧
    (a ∈ T.low b → T.alive a = true ∧ T.alive b = true) ∧
    (b ∈ T.high a → T.alive a = true ∧ T.alive b = true) := by
  obtain ⟨I, -⟩ := reach_inv r
  exact ⟨I.mirror a b (fun h => h), I.lowLive, I.highLive (fun h => h)⟩

/-- The lists connect neighbouring types only, and cells with nodes if this is switched on. -/
theorem C11_types {cn : Bool} {T : Topo} (r : Reach cn T) (a b : El) (h : a ∈ T.low b) :
    a.ty + 1 = b.ty ∨ (cn = true ∧ a.ty = 3 ∧ b.ty = 0) := by
  obtain ⟨I, hc⟩ := reach_inv r
  have := I.lowTy b a h
  by_cases h0 : b.ty = 0
  · exact Or.inr ⟨hc ▸ (this.2 h0).1, (this.2 h0).2, h0⟩
  · exact Or.inl (this.1 h0)

/-- A `Connect` of an existing edge to a face that belongs to a cell has no defined outcome when
cell-node connections are kept, which is the default (the value of a marker is stored as a handle,
modify.cpp L2646). -/
theorem C11_connect_fails : ∃ T h x, Reach true T ∧ T.alive h = true ∧ T.alive x = true ∧
    h.ty = 2 ∧ x.ty = 1 ∧ x ∉ T.low h ∧ T.connect h [x] = none :=
  ⟨w9, fc 1, ed 0, good_w9.toReach, by decide +kernel, by decide +kernel, rfl, rfl,
    by decide +kernel, by decide +kernel⟩

/-- Without cell-node connections `Connect` succeeds for the same arguments. -/
example : (((((({ w9 with cn := false } : Topo).connect (fc 1) [ed 0]))).isSome) = true) := by
  decide +kernel

example : (w9.low (cl 0)).count (fc 0) = 1 ∧ (w9.high (fc 0)).count (cl 0) = 1 := by decide +kernel

/-! ## C12, C13 -/

/-- C12: outside of modification `getAdjElements(mask)` returns, without repetition, exactly the
elements of the requested types incident to the element, and `nbAdjElements(mask)` is their number. -/
theorem C12_adjacency {cn : Bool} {T : Topo} (r : GoodReach cn T) (hh : T.hide = false) (x : El)
    (hx : T.alive x = true) (mask : Nat → Bool) :
    ∃ l, T.getAdj x mask [0, 1, 2, 3] = some l ∧ l.Nodup ∧
      T.nbAdj x mask [0, 1, 2, 3] = some l.length ∧
      ∀ y, y ∈ l ↔ T.alive y = true ∧ mask y.ty = true ∧ (Below T y x ∨ Below T x y) := by
  obtain ⟨I, -, G⟩ := goodReach r
  obtain ⟨l, h1, h2, h3, h4⟩ := getAdj_spec I G hx (by unfold Topo.hid; rw [hh]; rfl) mask [0, 1, 2, 3]
    (by decide) (by decide)
  refine ⟨l, h1, h2, h3, fun y => ?_⟩
  rw [h4]
  have hal := incident_alive I hx (y := y)
  constructor
  · rintro ⟨_, h⟩; exact ⟨hal h.2, h⟩
  · rintro ⟨ha, h⟩
    refine ⟨?_, h⟩
    have := I.tyLe y ha
    simp only [List.mem_cons, List.not_mem_nil, or_false]
    omega

/-- C13: in any state, also while a modification is in progress, for an element that is not hidden,
`getAdjElements(mask)` returns exactly the elements reachable through elements that are not hidden,
once each, and `nbAdjElements(mask)` is their number. -/
theorem C13_adjacency {cn : Bool} {T : Topo} (r : GoodReach cn T) (x : El)
    (hx : T.alive x = true) (hv : T.hid x = false) (mask : Nat → Bool) :
    ∃ l, T.getAdj x mask [0, 1, 2, 3] = some l ∧ l.Nodup ∧
      T.nbAdj x mask [0, 1, 2, 3] = some l.length ∧
      (∀ y, y ∈ l ↔ T.alive y = true ∧ mask y.ty = true ∧ (Below T y x ∨ Below T x y)) ∧
      ∀ y ∈ l, T.hid y = false := by
  obtain ⟨I, -, G⟩ := goodReach r
  obtain ⟨l, h1, h2, h3, h4⟩ := getAdj_spec I G hx hv mask [0, 1, 2, 3] (by decide) (by decide)
  refine ⟨l, h1, h2, h3, fun y => ?_, fun y hy => ?_⟩
  · rw [h4]
    have hal := incident_alive I hx (y := y)
    constructor
    · rintro ⟨_, h⟩; exact ⟨hal h.2, h⟩
    · rintro ⟨ha, h⟩
      refine ⟨?_, h⟩
      have := I.tyLe y ha
      simp only [List.mem_cons, List.not_mem_nil, or_false]
      omega
  · rcases ((h4 y).1 hy).2.2 with h | h
    · exact (below_vis h).1
    · exact (below_vis h).2

/-- The cells of a node and the nodes of a cell agree with the paths through faces and edges. -/
example : w9.getAdj (nd 0) (fun _ => true) [0, 1, 2, 3] =
    some [nd 0, ed 0, fc 0, cl 0, cl 1] := by decide +kernel

/-- After the deletion of face 1 during modification, cell 0 is hidden as well. -/
example : m2.getAdj (nd 2) (fun _ => true) [0, 1, 2, 3] =
    some [nd 2, ed 1, fc 0, cl 1] ∧ m2.alive (cl 0) = true ∧ m2.hid (cl 0) = true := by
  decide +kernel

/-! ## C14 -/

/-- C14: `FindSharedAdjacency` returns an element adjacent to all given elements that are not hidden,
and `InvalidHandle` only if there is none. -/
theorem C14_find {cn : Bool} {T : Topo} (r : Reach cn T) (arr : List El)
    (hne : ∃ x ∈ arr, T.hid x = false) (hok : ∀ x ∈ arr, T.alive x = true ∧ x.ty < 3) :
    ∃ r, T.findShared arr = some r ∧
      (∀ e, r = some e → T.hid e = false ∧ ∀ x ∈ arr, T.hid x = false → x ∈ T.low e) ∧
      (r = none → ¬ ∃ e, T.hid e = false ∧ ∀ x ∈ arr, T.hid x = false → x ∈ T.low e) := by
  obtain ⟨I, -⟩ := reach_inv r
  obtain ⟨r, h1, h2, h3⟩ := findShared_spec hne hok
  refine ⟨r, h1, fun e he => ⟨(h2 e he).1, fun x hx hv => (I.mem (fun h => h)).2 ((h2 e he).2 x hx hv)⟩,
    fun hr => ?_⟩
  rintro ⟨e, he, h⟩
  exact h3 hr ⟨e, he, fun x hx hv => (I.mem (fun h => h)).1 (h x hx hv)⟩

/-- C14: an element created over a boundary with the check of duplicates is returned by any later
attempt to create an element over the same boundary, given in any order. -/
theorem C14_create_again {cn : Bool} {T T1 : Topo} (r : Reach cn T) (ty id id' : Nat)
    (elems nodes elems' nodes' : List El) (e : El) (A : CreateArgs T ty elems nodes)
    (hv : ∀ x ∈ elems, T.hid x = false)
    (h : T.create true ty id elems nodes = some (T1, some e, true))
    (hsame : ∀ x, x ∈ elems' ↔ x ∈ elems) :
    T1.create true ty id' elems' nodes' = some (T1, some e, false) := by
  obtain ⟨I, -⟩ := reach_inv r
  unfold Topo.create at h
  split at h
  · simp at h
  next hne =>
  rw [if_pos rfl] at h
  split at h
  · cases h
  · simp at h
  next hf =>
  split at h
  · cases h
  next hd =>
  split at h
  · cases h
  next T2 h2 =>
  have e1 : T2 = T1 := by simpa using congrArg (Option.map Prod.fst) h
  have e2 : (⟨ty, id⟩ : El) = e := by simpa using congrArg (Option.map fun p => p.2.1) h
  subst e1
  have hd' : T.alive ⟨ty, id⟩ = false := by simpa using hd
  have h0 : ty ≠ 0 := by rcases A.tyOk with h | h | h <;> omega
  have h3 : ty ≤ 3 := by rcases A.tyOk with h | h | h <;> omega
  obtain ⟨c1, c2, c3, c4, c5, c6, c7⟩ := createUp_some I hd' h3
    (fun h => by have := (A.elemsOk _ h).2; simp at this) (fun h => h0 (A.nodesOk _ h).2) h0 h2
  rw [e2] at c2 c7
  have hhid : ∀ x, T2.hid x = T.hid x := fun x => by unfold Topo.hid; rw [c3, c4]
  have hxe : ∀ x ∈ elems, x ≠ e := by
    rintro x hx rfl
    have := (A.elemsOk _ hx).2
    rw [← e2] at this
    simp at this
  obtain ⟨x0, hx0⟩ := List.exists_mem_of_ne_nil _ hne
  have hne' : elems' ≠ [] := by
    rintro h
    have := (hsame x0).2 hx0
    rw [h] at this; cases this
  obtain ⟨ro, f1, f2, f3⟩ := findShared_spec (T := T) (arr := elems) ⟨x0, hx0, hv x0 hx0⟩ (fun x hx => by
    have := A.elemsOk x hx; exact ⟨this.1, by omega⟩)
  rw [hf] at f1
  cases f1
  have hnone := f3 rfl
  obtain ⟨rn, g1, g2, g3⟩ := findShared_spec (T := T2) (arr := elems')
    ⟨x0, (hsame x0).2 hx0, by rw [hhid]; exact hv x0 hx0⟩ (fun x hx => by
      have hx := (hsame x).1 hx
      have := A.elemsOk x hx
      refine ⟨?_, by omega⟩
      rw [c2, set1_ne _ _ (hxe x hx)]
      exact this.1)
  have hev : T2.hid e = false := by
    rw [hhid]; unfold Topo.hid
    rw [← e2, (I.dead _ hd').2.2]; simp
  have hin : ∀ x ∈ elems, e ∈ T2.high x := by
    intro x hx
    rw [c7, if_neg (hxe x hx)]
    refine List.mem_append_right _ ?_
    rw [List.mem_replicate]
    exact ⟨by have := List.count_pos_iff.2 hx; omega, rfl⟩
  have : rn = some e := by
    cases rn with
    | none => exact absurd ⟨e, hev, fun x hx _ => hin x ((hsame x).1 hx)⟩ (g3 rfl)
    | some u =>
      by_cases hue : u = e
      · rw [hue]
      · exfalso
        obtain ⟨k1, k2⟩ := g2 u rfl
        apply hnone
        refine ⟨u, by rw [← hhid]; exact k1, fun x hx hxv => ?_⟩
        have := k2 x ((hsame x).2 hx) (by rw [hhid]; exact hxv)
        rw [c7, if_neg (hxe x hx)] at this
        rcases List.mem_append.1 this with h | h
        · exact h
        · exact absurd (List.eq_of_mem_replicate h) hue
  unfold Topo.create
  rw [if_neg hne', if_pos rfl, g1, this]

example : ∃ T1, w3.create true 1 0 [nd 0, nd 1] [] = some (T1, some (ed 0), true) ∧
    T1.create true 1 7 [nd 1, nd 0] [] = some (T1, some (ed 0), false) :=
  ⟨w4, getEq2 _, C14_create_again good_w3.toReach 1 0 7 [nd 0, nd 1] [] [nd 1, nd 0] [] (ed 0)
    ⟨Or.inl rfl, by decide +kernel, by decide +kernel⟩ (by decide +kernel) (getEq2 _)
    (by intro x; simp [or_comm])⟩

example : w9.findShared [ed 0, ed 1] = some (some (fc 0)) ∧ w9.findShared [fc 1] = some (some (cl 0)) ∧
    w9.findShared [nd 0, nd 2] = some none := by decide +kernel

/-! ## C47 -/

/-- C47: outside of modification `Delete` removes the element and everything built on it, and nothing
else; the elements that stay keep their neighbours that stay, as often as before. -/
theorem C47_delete {cn : Bool} {T : Topo} (r : Reach cn T) (flip : Topo → El → Bool) (h : El)
    (hh : T.hide = false) (ha : T.alive h = true) :
    ∃ T', T.delete flip h = some T' ∧
      (∀ x, T'.alive x = true ↔ T.alive x = true ∧ ¬ Above T h x) ∧
      (∀ x, T'.alive x = true → (T'.low x).Perm ((T.low x).filter T'.alive) ∧
        (T'.high x).Perm ((T.high x).filter T'.alive)) ∧
      (∀ x, T'.alive x = false → T'.low x = [] ∧ T'.high x = []) := by
  obtain ⟨I, -⟩ := reach_inv r
  obtain ⟨T1, e1, R⟩ := delete_spec (flip := flip) 5 T _ h I hh ha (fun _ h => h.elim) (by omega)
  exact ⟨T1, e1, R.alive, fun x hx => ⟨R.low x hx, R.high x hx (fun h => h)⟩,
    fun x hx => ⟨(R.inv.dead x hx).1, (R.inv.dead x hx).2.1⟩⟩

/-- C47: during modification `Delete` hides the element and hides only elements built on it; no
connection is lost, and every element built on a newly hidden element is hidden as well. -/
theorem C47_delete_hides {cn : Bool} {T : Topo} (r : Reach cn T) (flip : Topo → El → Bool) (h : El)
    (hh : T.hide = true) (ha : T.alive h = true) :
    ∃ T', T.delete flip h = some T' ∧ T'.alive = T.alive ∧ T'.hidden h = true ∧
      (∀ x, T.hidden x = true → T'.hidden x = true) ∧
      (∀ x, T'.hidden x = true → T.hidden x = true ∨ Above T h x) ∧
      (∀ x y, T'.hidden x = true → (T.hidden x = false ∨ x = h) → x.ty < 3 → y ∈ T.high x →
        T'.hidden y = true) ∧
      (∀ x, (T'.low x).Perm (T.low x) ∧ (T'.high x).Perm (T.high x)) := by
  obtain ⟨I, -⟩ := reach_inv r
  obtain ⟨T1, e1, P, hA, hB, hC, hD, -⟩ := deleteHide_spec (flip := flip) 5 T h I hh ha (fun h => h)
    (fun _ h => h.elim) (by omega)
  exact ⟨T1, e1, P.alive, hC, hB, hA, hD, fun x => ⟨P.low x, P.high x⟩⟩

/-- C47: when elements are only hidden by `Delete`, everything built on the element is hidden. -/
theorem C47_delete_hides_all {cn : Bool} {T T' : Topo} (r : GoodReach cn T)
    (flip : Topo → El → Bool) (h : El) (hh : T.hide = true) (ha : T.alive h = true)
    (e : T.delete flip h = some T') (x : El) :
    T'.hidden x = true ↔ T.hidden x = true ∨ Above T h x := by
  obtain ⟨I, -, G⟩ := goodReach r
  obtain ⟨T1, e1, P, hA, hB, hC, hD, -⟩ := deleteHide_spec (flip := flip) 5 T h I hh ha (fun h => h)
    (fun _ h => h.elim) (by omega)
  unfold Topo.delete at e
  rw [e1] at e
  cases e
  refine ⟨hA x, ?_⟩
  rintro (h1 | h1)
  · exact hB x h1
  · induction h1 with
    | refl => exact hC
    | @step y x _ ht hm ih =>
      cases hy : T.hidden y with
      | false => exact hD y x ih (Or.inl hy) ht hm
      | true =>
        apply hB
        have := G.hiddenUp y x (by unfold Topo.hid; rw [hh, hy]; rfl) ht hm
        unfold Topo.hid at this
        rw [hh] at this
        simpa using this

/-- C47: `EndModification` removes exactly the hidden elements, whatever they are; the elements that
stay keep their neighbours that stay. -/
theorem C47_end {cn : Bool} {T : Topo} (r : Reach cn T) (flip : Topo → El → Bool)
    (hh : T.hide = true) :
    ∃ T', T.endMod flip = some T' ∧ T'.hide = false ∧
      (∀ x, T'.alive x = true ↔ T.alive x = true ∧ T.hidden x = false) ∧
      (∀ x, T'.alive x = true → (T'.low x).Perm ((T.low x).filter T'.alive) ∧
        (T'.high x).Perm ((T.high x).filter T'.alive)) ∧
      (∀ x, T'.alive x = false → T'.low x = [] ∧ T'.high x = []) := by
  obtain ⟨I, -⟩ := reach_inv r
  obtain ⟨T1, T2, e1, rfl, R⟩ := endMod_spec (flip := flip) I hh
  refine ⟨_, e1, rfl, fun x => ?_, fun x hx => ⟨R.low x hx, R.high x hx (fun h => h)⟩,
    fun x hx => ⟨(R.inv.dead x hx).1, (R.inv.dead x hx).2.1⟩⟩
  show T1.alive x = true ↔ _
  rw [R.alive]; simp

/-- Deleting edge 0 outside modification removes face 0 and both cells, not edge 1 or face 1. -/
example : ∃ T', w9.delete (fun _ _ => false) (ed 0) = some T' ∧ T'.alive (ed 1) = true ∧
    T'.alive (fc 1) = true ∧ T'.alive (fc 0) = false ∧ T'.alive (cl 0) = false ∧ T'.high (fc 1) = [] :=
  ⟨(w9.delete (fun _ _ => false) (ed 0)).get (by decide +kernel), getEq _, by decide +kernel,
    by decide +kernel, by decide +kernel, by decide +kernel, by decide +kernel⟩

example : m3.alive (cl 0) = false ∧ m3.alive (fc 1) = false ∧ m3.alive (cl 1) = true ∧
    m3.high (fc 0) = [cl 1] ∧ m3.low (nd 1) = [cl 1] := by decide +kernel

end Verif.Topology
