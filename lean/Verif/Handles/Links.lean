import Mathlib.Logic.Function.Basic
import Mathlib.Data.List.Basic

/-!
# Variables of elements and arrays of elements: model and properties (C141)

Models `Storage` of `/repo/Source/Headers/inmost_data.h` L470-481 with its assignment (`/repo/Source/Data/storage.cpp`
L8-15), and the access to elements of `ElementArray` (`/repo/Source/Headers/inmost_mesh.h` L236-249),
`Storage::reference_array` (storage.cpp L27-60) and `Storage::remote_reference_array` (storage.cpp L17-25, L79-87,
L129-132). An element is a mesh and a handle. Elements of an array keep their address until the array is changed in
length (then it may be moved) or destroyed.
-/

namespace Verif.Handles.Links

open Function

inductive Kind where
  /-- `ElementArray` -/
  | elements
  /-- `Storage::reference_array` -/
  | references
  /-- `Storage::remote_reference_array` -/
  | remote
  deriving DecidableEq

/-- An array: its mesh (L144 and inmost_data.h L339; not used by remote references), its slots, and a number that
changes when the slots are moved. -/
structure Arr where
  kind : Kind
  mesh : Nat
  slots : List (Nat × Nat)
  gen : Nat

/-- `handle_link`: array, its `gen`, position -/
structure Addr where
  arr : Nat
  gen : Nat
  pos : Nat

/-- inmost_data.h L470-473 -/
structure Obj where
  mesh : Nat
  handle : Nat
  link : Option Addr

structure St where
  var : Nat → Option Obj
  arr : Nat → Option Arr

inductive Op where
  /-- `Element v(mesh, handle)`, inmost_mesh.h L331 -/
  | fresh (v mesh handle : Nat)
  /-- `Element v = a[i]` -/
  | get (v a i : Nat)
  /-- `Element v = a[i]` of a constant array -/
  | getConst (v a i : Nat)
  /-- `Element v = w` -/
  | init (v w : Nat)
  /-- `v = w` for a variable made before -/
  | assign (v w : Nat)
  /-- `a[i] = w` -/
  | put (a i w : Nat)
  /-- `a.push_back(w)` -/
  | push (a w : Nat)
  /-- a new empty array of a mesh -/
  | make (a : Nat) (kind : Kind) (mesh : Nat)
  /-- an array is destroyed -/
  | destroy (a : Nat)

/-- `a[i]`: inmost_mesh.h L236, storage.cpp L27-30, L79-82 with L22-25; `none`: there is no such slot. -/
def St.slot (s : St) (a i : Nat) : Option (Nat × Nat × Nat) :=
  match s.arr a with
  | none => none
  | some A =>
    match A.slots[i]? with
    | none => none
    | some p => some (p.1, p.2, A.gen)

/-- `*handle_link = handle`: `none` if the address is no longer there. Only the handle is written. -/
def St.write (s : St) (p : Addr) (h : Nat) : Option St :=
  match s.arr p.arr with
  | none => none
  | some A =>
    if A.gen = p.gen then
      match A.slots[p.pos]? with
      | none => none
      | some x => some { s with arr := update s.arr p.arr (some { A with slots := A.slots.set p.pos (x.1, h) }) }
    else none

/-- `Storage::operator=`, storage.cpp L8-15, of an object `o` by `x`: the new object, and the state after L11. -/
def assignObj (s : St) (o x : Obj) : Option (Obj × St) :=
  match o.link with
  | none => some (⟨x.mesh, x.handle, none⟩, s)
  | some p =>
    match s.write p x.handle with
    | none => none
    | some s' => some (⟨x.mesh, x.handle, some p⟩, s')

def step (s : St) : Op → Option St
  -- inmost_data.h L476
  | .fresh v m h => some { s with var := update s.var v (some ⟨m, h, none⟩) }
  -- inmost_data.h L478
  | .get v a i =>
    match s.slot a i with
    | none => none
    | some (m, h, g) => some { s with var := update s.var v (some ⟨m, h, some ⟨a, g, i⟩⟩) }
  -- inmost_mesh.h L237, storage.cpp L32-35, L84-87
  | .getConst v a i =>
    match s.slot a i with
    | none => none
    | some (m, h, _) => some { s with var := update s.var v (some ⟨m, h, none⟩) }
  -- inmost_data.h L475
  | .init v w =>
    match s.var w with
    | none => none
    | some x => some { s with var := update s.var v (some x) }
  | .assign v w =>
    match s.var v, s.var w with
    | some o, some x =>
      match assignObj s o x with
      | none => none
      | some (o', s') => some { s' with var := update s'.var v (some o') }
    | _, _ => none
  | .put a i w =>
    match s.slot a i, s.var w with
    | some (m, h, g), some x =>
      match assignObj s ⟨m, h, some ⟨a, g, i⟩⟩ x with
      | none => none
      | some (_, s') => some s'
    | _, _ => none
  -- inmost_mesh.h L249 (asserts the mesh), storage.cpp L57-60, L129-132
  | .push a w =>
    match s.arr a, s.var w with
    | some A, some x =>
      match A.kind with
      | .elements =>
        if x.mesh = A.mesh then
          some { s with arr := update s.arr a (some { A with slots := A.slots ++ [(A.mesh, x.handle)], gen := A.gen + 1 }) }
        else none
      | .references =>
        some { s with arr := update s.arr a (some { A with slots := A.slots ++ [(A.mesh, x.handle)], gen := A.gen + 1 }) }
      | .remote =>
        some { s with arr := update s.arr a (some { A with slots := A.slots ++ [(x.mesh, x.handle)], gen := A.gen + 1 }) }
    | _, _ => none
  | .make a k m =>
    match s.arr a with
    | some _ => none
    | none => some { s with arr := update s.arr a (some ⟨k, m, [], 0⟩) }
  | .destroy a =>
    match s.arr a with
    | none => none
    | some _ => some { s with arr := update s.arr a none }

def run (s : St) : List Op → Option St
  | [] => some s
  | op :: ops =>
    match step s op with
    | none => none
    | some s' => run s' ops

def St.empty : St := ⟨fun _ => none, fun _ => none⟩

/-! ## specification: variables and slots hold elements -/

/-- What a user sees: an element is a mesh and a handle; every variable and every slot holds one. -/
structure View where
  var : Nat → Option (Nat × Nat)
  arr : Nat → Option (List (Nat × Nat))

/-- An assignment changes its target and nothing else. -/
def vstep (s : View) : Op → Option View
  | .fresh v m h => some { s with var := update s.var v (some (m, h)) }
  | .get v a i =>
    match s.arr a with
    | none => none
    | some l => if i < l.length then some { s with var := update s.var v l[i]? } else none
  | .getConst v a i =>
    match s.arr a with
    | none => none
    | some l => if i < l.length then some { s with var := update s.var v l[i]? } else none
  | .init v w =>
    match s.var w with
    | none => none
    | some x => some { s with var := update s.var v (some x) }
  | .assign v w =>
    match s.var v, s.var w with
    | some _, some x => some { s with var := update s.var v (some x) }
    | _, _ => none
  | .put a i w =>
    match s.arr a, s.var w with
    | some l, some x => if i < l.length then some { s with arr := update s.arr a (some (l.set i x)) } else none
    | _, _ => none
  | .push a w =>
    match s.arr a, s.var w with
    | some l, some x => some { s with arr := update s.arr a (some (l ++ [x])) }
    | _, _ => none
  | .make a _ _ =>
    match s.arr a with
    | some _ => none
    | none => some { s with arr := update s.arr a (some []) }
  | .destroy a =>
    match s.arr a with
    | none => none
    | some _ => some { s with arr := update s.arr a none }

def vrun (s : View) : List Op → Option View
  | [] => some s
  | op :: ops =>
    match vstep s op with
    | none => none
    | some s' => vrun s' ops

/-- What the program shows. -/
def St.view (s : St) : View :=
  ⟨fun v => (s.var v).map fun o => (o.mesh, o.handle), fun a => (s.arr a).map fun A => A.slots⟩

/-- A careful program: it does not assign to variables that were made from an element of an array (`made` tells which
were), and uses elements of one mesh `m` only. -/
def Careful (m : Nat) (made : Nat → Bool) : List Op → Prop
  | [] => True
  | .fresh v m' _ :: ops => m' = m ∧ Careful m (update made v false) ops
  | .get v _ _ :: ops => Careful m (update made v true) ops
  | .getConst v _ _ :: ops => Careful m (update made v false) ops
  | .init v w :: ops => Careful m (update made v (made w)) ops
  | .assign v _ :: ops => made v = false ∧ Careful m made ops
  | .put _ _ _ :: ops => Careful m made ops
  | .push _ _ :: ops => Careful m made ops
  | .make _ _ m' :: ops => m' = m ∧ Careful m made ops
  | .destroy _ :: ops => Careful m made ops

/-! ## helpers -/

structure Inv (m : Nat) (made : Nat → Bool) (s : St) : Prop where
  varMesh : ∀ v o, s.var v = some o → o.mesh = m
  free : ∀ v o, s.var v = some o → made v = false → o.link = none
  arrMesh : ∀ a A, s.arr a = some A → A.mesh = m
  slotMesh : ∀ a A, s.arr a = some A → ∀ p ∈ A.slots, p.1 = m

theorem view_var {s : St} {v : Nat} : s.view.var v = (s.var v).map fun o => (o.mesh, o.handle) := rfl
theorem view_arr {s : St} {a : Nat} : s.view.arr a = (s.arr a).map fun A => A.slots := rfl

theorem view_upd_var (s : St) (v : Nat) (o : Obj) :
    St.view { s with var := update s.var v (some o) } = { s.view with var := update s.view.var v (some (o.mesh, o.handle)) } := by
  simp only [St.view, View.mk.injEq, and_true]
  funext q
  simp only [update_apply]
  by_cases c : q = v <;> simp [c]

theorem view_upd_arr (s : St) (a : Nat) (A : Option Arr) :
    St.view { s with arr := update s.arr a A } = { s.view with arr := update s.view.arr a (A.map fun A => A.slots) } := by
  simp only [St.view, View.mk.injEq, true_and]
  funext q
  simp only [update_apply]
  by_cases c : q = a <;> simp [c]

theorem inv_var {m : Nat} {made : Nat → Bool} {s : St} (hi : Inv m made s) (v : Nat) (o : Obj) (b : Bool)
    (hm : o.mesh = m) (hl : b = false → o.link = none) :
    Inv m (update made v b) { s with var := update s.var v (some o) } := by
  refine ⟨?_, ?_, hi.arrMesh, hi.slotMesh⟩
  · intro q x h
    simp only [update_apply] at h
    by_cases c : q = v
    · rw [if_pos c] at h; simp only [Option.some.injEq] at h; exact h ▸ hm
    · rw [if_neg c] at h; exact hi.varMesh q x h
  · intro q x h hq
    simp only [update_apply] at h hq
    by_cases c : q = v
    · rw [if_pos c] at h hq; simp only [Option.some.injEq] at h; exact h ▸ hl hq
    · rw [if_neg c] at h hq; exact hi.free q x h hq

theorem inv_arr {m : Nat} {made : Nat → Bool} {s : St} (hi : Inv m made s) (a : Nat) (A : Option Arr)
    (hm : ∀ B, A = some B → B.mesh = m ∧ ∀ p ∈ B.slots, p.1 = m) : Inv m made { s with arr := update s.arr a A } := by
  refine ⟨hi.varMesh, hi.free, ?_, ?_⟩
  · intro b B h
    simp only [update_apply] at h
    by_cases c : b = a
    · rw [if_pos c] at h; exact (hm B h).1
    · rw [if_neg c] at h; exact hi.arrMesh b B h
  · intro b B h
    simp only [update_apply] at h
    by_cases c : b = a
    · rw [if_pos c] at h; exact (hm B h).2
    · rw [if_neg c] at h; exact hi.slotMesh b B h

/-- One operation of a careful program. -/
theorem step_spec {m : Nat} {made : Nat → Bool} {s : St} (hi : Inv m made s) (op : Op) (ops : List Op)
    (hc : Careful m made (op :: ops)) :
    (step s op).map St.view = vstep s.view op ∧
    ∃ made', Careful m made' ops ∧ ∀ s', step s op = some s' → Inv m made' s' := by
  cases op with
  | fresh v m' h =>
    obtain ⟨e, hc⟩ := hc
    refine ⟨by simp only [step, vstep, Option.map_some, view_upd_var], _, hc, ?_⟩
    rintro s' hs
    simp only [step, Option.some.injEq] at hs
    exact hs ▸ inv_var hi v ⟨m', h, none⟩ false e (fun _ => rfl)
  | get v a i =>
    refine ⟨?_, _, hc, ?_⟩
    · simp only [step, vstep, St.slot, view_arr]
      cases ha : s.arr a with
      | none => rfl
      | some A =>
        simp only [Option.map_some]
        by_cases c : i < A.slots.length
        · rw [if_pos c, List.getElem?_eq_getElem c]
          simp only [Option.map_some, view_upd_var]
        · rw [if_neg c, List.getElem?_eq_none (by omega)]
          rfl
    · rintro s' hs
      simp only [step, St.slot] at hs
      cases ha : s.arr a with
      | none => simp [ha] at hs
      | some A =>
        cases hp : A.slots[i]? with
        | none => simp [ha, hp] at hs
        | some p =>
          simp only [ha, hp, Option.some.injEq] at hs
          exact hs ▸ inv_var hi v _ true (hi.slotMesh a A ha p (List.mem_of_getElem? hp)) (fun h => by simp at h)
  | getConst v a i =>
    refine ⟨?_, _, hc, ?_⟩
    · simp only [step, vstep, St.slot, view_arr]
      cases ha : s.arr a with
      | none => rfl
      | some A =>
        simp only [Option.map_some]
        by_cases c : i < A.slots.length
        · rw [if_pos c, List.getElem?_eq_getElem c]
          simp only [Option.map_some, view_upd_var]
        · rw [if_neg c, List.getElem?_eq_none (by omega)]
          rfl
    · rintro s' hs
      simp only [step, St.slot] at hs
      cases ha : s.arr a with
      | none => simp [ha] at hs
      | some A =>
        cases hp : A.slots[i]? with
        | none => simp [ha, hp] at hs
        | some p =>
          simp only [ha, hp, Option.some.injEq] at hs
          exact hs ▸ inv_var hi v _ false (hi.slotMesh a A ha p (List.mem_of_getElem? hp)) (fun _ => rfl)
  | init v w =>
    refine ⟨?_, _, hc, ?_⟩
    · simp only [step, vstep, view_var]
      cases hw : s.var w with
      | none => rfl
      | some x => simp only [Option.map_some, view_upd_var]
    · rintro s' hs
      simp only [step] at hs
      cases hw : s.var w with
      | none => simp [hw] at hs
      | some x =>
        simp only [hw, Option.some.injEq] at hs
        exact hs ▸ inv_var hi v x _ (hi.varMesh w x hw) (fun h => hi.free w x hw h)
  | assign v w =>
    obtain ⟨e, hc⟩ := hc
    refine ⟨?_, _, hc, ?_⟩
    · simp only [step, vstep, view_var]
      cases hv : s.var v with
      | none => rfl
      | some o =>
        cases hw : s.var w with
        | none => rfl
        | some x =>
          simp only [Option.map_some, assignObj, hi.free v o hv e, view_upd_var]
    · rintro s' hs
      simp only [step] at hs
      cases hv : s.var v with
      | none => simp [hv] at hs
      | some o =>
        cases hw : s.var w with
        | none => simp [hv, hw] at hs
        | some x =>
          simp only [hv, hw, assignObj, hi.free v o hv e, Option.some.injEq] at hs
          have := inv_var hi v ⟨x.mesh, x.handle, none⟩ false (hi.varMesh w x hw) (fun _ => rfl)
          rw [hs] at this
          rwa [show update made v false = made from by rw [← e]; exact update_eq_self v made] at this
  | put a i w =>
    refine ⟨?_, _, hc, ?_⟩
    · simp only [step, vstep, St.slot, view_arr, view_var]
      cases ha : s.arr a with
      | none => rfl
      | some A =>
        cases hw : s.var w with
        | none =>
          cases hp : A.slots[i]? <;> simp [hp]
        | some x =>
          simp only [Option.map_some]
          by_cases c : i < A.slots.length
          · have hx := hi.varMesh w x hw
            have hp := hi.slotMesh a A ha A.slots[i] (List.getElem_mem c)
            simp only [if_pos c, List.getElem?_eq_getElem c, assignObj, St.write, ha, if_true, Option.map_some,
              view_upd_arr, hp, hx]
          · rw [if_neg c]
            simp only [List.getElem?_eq_none (show A.slots.length ≤ i by omega)]
            rfl
    · rintro s' hs
      simp only [step, St.slot] at hs
      cases ha : s.arr a with
      | none => simp [ha] at hs
      | some A =>
        cases hw : s.var w with
        | none =>
          cases hp : A.slots[i]? <;> simp [ha, hw, hp] at hs
        | some x =>
          cases hp : A.slots[i]? with
          | none => simp [ha, hp] at hs
          | some p =>
            simp only [ha, hw, hp, assignObj, St.write, if_true, Option.some.injEq] at hs
            refine hs ▸ inv_arr hi a _ ?_
            intro B hB
            simp only [Option.some.injEq] at hB
            subst hB
            refine ⟨hi.arrMesh a A ha, ?_⟩
            intro q hq
            rcases List.mem_or_eq_of_mem_set hq with h | h
            · exact hi.slotMesh a A ha q h
            · rw [h]; exact hi.slotMesh a A ha p (List.mem_of_getElem? hp)
  | push a w =>
    refine ⟨?_, _, hc, ?_⟩
    · simp only [step, vstep, view_arr, view_var]
      cases ha : s.arr a with
      | none => rfl
      | some A =>
        cases hw : s.var w with
        | none => rfl
        | some x =>
          have hx := hi.varMesh w x hw
          have hA := hi.arrMesh a A ha
          cases hk : A.kind <;> simp only [hk, Option.map_some]
          · rw [if_pos (hx.trans hA.symm)]; simp only [Option.map_some, view_upd_arr, hx, hA]
          · simp only [Option.map_some, view_upd_arr, hx, hA]
          · simp only [Option.map_some, view_upd_arr, hx]
    · rintro s' hs
      simp only [step] at hs
      cases ha : s.arr a with
      | none => simp [ha] at hs
      | some A =>
        cases hw : s.var w with
        | none => simp [ha, hw] at hs
        | some x =>
          have hx := hi.varMesh w x hw
          have hA := hi.arrMesh a A ha
          have key : ∀ (k : Kind) (y : Nat × Nat), y.1 = m →
              Inv m made { s with arr := update s.arr a (some ⟨k, A.mesh, A.slots ++ [y], A.gen + 1⟩) } := by
            intro k y hy
            refine inv_arr hi a _ ?_
            intro B hB
            simp only [Option.some.injEq] at hB
            subst hB
            refine ⟨hA, ?_⟩
            intro q hq
            rcases List.mem_append.1 hq with h | h
            · exact hi.slotMesh a A ha q h
            · simp only [List.mem_singleton] at h; rw [h]; exact hy
          cases hk : A.kind <;> simp only [ha, hw, hk] at hs
          · rw [if_pos (hx.trans hA.symm)] at hs
            simp only [Option.some.injEq] at hs
            exact hs ▸ key _ (A.mesh, x.handle) hA
          · simp only [Option.some.injEq] at hs
            exact hs ▸ key _ (A.mesh, x.handle) hA
          · simp only [Option.some.injEq] at hs
            exact hs ▸ key _ (x.mesh, x.handle) hx
  | make a k m' =>
    obtain ⟨e, hc⟩ := hc
    refine ⟨?_, _, hc, ?_⟩
    · simp only [step, vstep, view_arr]
      cases ha : s.arr a with
      | some A => rfl
      | none => simp [view_upd_arr]
    · rintro s' hs
      simp only [step] at hs
      cases ha : s.arr a with
      | some A => simp [ha] at hs
      | none =>
        simp only [ha, Option.some.injEq] at hs
        refine hs ▸ inv_arr hi a _ ?_
        intro B hB
        simp only [Option.some.injEq] at hB
        subst hB
        exact ⟨e, by simp⟩
  | destroy a =>
    refine ⟨?_, _, hc, ?_⟩
    · simp only [step, vstep, view_arr]
      cases ha : s.arr a with
      | none => rfl
      | some A => simp [view_upd_arr]
    · rintro s' hs
      simp only [step] at hs
      cases ha : s.arr a with
      | none => simp [ha] at hs
      | some A =>
        simp only [ha, Option.some.injEq] at hs
        exact hs ▸ inv_arr hi a none (by simp)

theorem run_spec {m : Nat} : ∀ (ops : List Op) (made : Nat → Bool) (s : St), Inv m made s → Careful m made ops →
    (run s ops).map St.view = vrun s.view ops := by
  intro ops
  induction ops with
  | nil => intro made s _ _; rfl
  | cons op ops ih =>
    intro made s hi hc
    obtain ⟨h1, made', h2, h3⟩ := step_spec hi op ops hc
    simp only [run, vrun]
    cases hs : step s op with
    | none => simp only [hs, Option.map_none] at h1; rw [← h1]; rfl
    | some s' =>
      simp only [hs, Option.map_some] at h1
      rw [← h1]
      exact ih made' s' (h3 s' hs) h2

/-! ## C141 -/

/-- Every careful program sees elements as values: an assignment to a variable or to a slot of an array changes it and
nothing else, and it fails only where a variable or a slot is missing. -/
theorem C141_values_partial (m : Nat) (ops : List Op) (hc : Careful m (fun _ => false) ops) :
    (run St.empty ops).map St.view = vrun St.empty.view ops :=
  run_spec ops _ St.empty ⟨by simp [St.empty], by simp [St.empty], by simp [St.empty], by simp [St.empty]⟩ hc

/-- The code does not do this for variables made from an element of an array: an assignment to the variable changes the
array. -/
theorem C141_alias_fails (k : Kind) (m h h' : Nat) (hne : h ≠ h') :
    ∃ s t, run St.empty [.make 0 k m, .fresh 0 m h, .push 0 0, .fresh 1 m h', .get 2 0 0] = some s ∧
      step s (.assign 2 1) = some t ∧ (s.view).arr 0 = some [(m, h)] ∧ (t.view).arr 0 = some [(m, h')] ∧
      (s.view).arr 0 ≠ (t.view).arr 0 := by
  cases k <;> exact ⟨_, _, by simp [run, step, St.empty, St.slot]; rfl, by simp [step, assignObj, St.write]; rfl,
    by simp [St.view], by simp [St.view], by simp [St.view, hne]⟩

/-- The code writes to memory that is gone: a variable made from an element of a temporary array (such as
`cell.getNodes()[0]`) must not be assigned to. -/
theorem C141_dangling_fails (m h h' : Nat) :
    run St.empty [.make 0 .elements m, .fresh 0 m h, .push 0 0, .fresh 1 m h', .get 2 0 0, .destroy 0, .assign 2 1] = none ∧
    (vrun St.empty.view
      [.make 0 .elements m, .fresh 0 m h, .push 0 0, .fresh 1 m h', .get 2 0 0, .destroy 0, .assign 2 1]).isSome := by
  refine ⟨?_, ?_⟩
  · simp [run, step, St.empty, St.slot, assignObj, St.write]
  · simp [vrun, vstep, St.view, St.empty]

/-- The code stores the handle without the mesh: after `a[i] = w` for an element of another mesh the array holds an
element of the old mesh, also for references to elements of other meshes. -/
theorem C141_mesh_fails (m m' h h' : Nat) (hm : m ≠ m') :
    ∃ s, run St.empty [.make 0 .remote m, .fresh 0 m h, .push 0 0, .fresh 1 m' h', .put 0 0 1] = some s ∧
      (s.view).arr 0 = some [(m, h')] ∧ (s.view).arr 0 ≠ some [(m', h')] :=
  ⟨_, by simp [run, step, St.empty, St.slot, assignObj, St.write]; rfl, by simp [St.view], by simp [St.view, hm]⟩

example : Careful 5 (fun _ => false) [.make 0 .elements 5, .fresh 0 5 7, .push 0 0, .fresh 1 5 8, .put 0 0 1, .get 2 0 0,
    .assign 1 2, .push 0 2, .destroy 0] := by simp [Careful]

end Verif.Handles.Links
