import Verif.Parallel.Final

/-!
# Model of SynchronizeMarker and helper lemmas

Source: `Source/Mesh/parallel.cpp`, UnpackSyncMarkerOR/XOR/AND L652-669, SynchronizeMarker L692-767.

Simplifications.  The bits a marker stands for on the copies of elements are given by a function; a bulk
value is a natural number (only 0 and 1 occur).  A processor may enter the second
collective call while others are in the first; since messages between two processors do not overtake, this is
the same as one call after the other, which is how the model runs them.
-/

namespace Verif.Parallel

variable {V : Type}

/-- A finished collective call: all events of some execution have happened and left the data `G'`. -/
def Collective (C : Call V) (G G' : Nat → Local V) : Prop :=
  ∃ tr S, Run C G tr S ∧ Done C S ∧ G' = S.loc

/-- `SyncBitOp` (inmost_mesh.h). -/
inductive BitOp where
  | set | or | xor | and
  deriving DecidableEq, Repr

/-- UnpackSyncMarkerOR/XOR/AND (parallel.cpp L652-669).  `element->Bulk(tag)` makes a zero if there is no
value (MGetSparseLink, inmost_mesh.h L1358-1369).  `none`: reading past the data. -/
def bitUnpack (f : Nat → Nat → Nat) : Op Nat := fun _ _ d x =>
  match x with
  | [] => none
  | b :: _ => some (some [f (match d with | some (a :: _) => a | _ => 0) b])

/-- The operation passed to ReduceData (parallel.cpp L724, L735, L746). -/
def bitFun : BitOp → Nat → Nat → Nat
  | .xor => (· ^^^ ·)
  | .and => (· &&& ·)
  | _ => (· ||| ·)

/-- The flags of the tag TEMP_SYNC_MARKER (parallel.cpp L698): one byte, sparse on all types of the mask. -/
def syncTag (mask : Nat → Bool) : TagInfo := ⟨some 1, mask, mask⟩

/-- The values set before the exchange (parallel.cpp L700-707).  The tag `k` is new, so no other element has a
value; no selection of elements is made (`select` is 0). -/
def syncInit (k : Nat) (mask : Nat → Bool) (op : BitOp) (mk : Nat → El → Bool) (G : Nat → Local Nat) :
    Nat → Local Nat := fun p =>
  { G p with
    sel := fun _ => true
    data := setTag (G p).data k fun e =>
      if e ∈ (G p).elems ∧ mask e.ty = true ∧ mk p e = true ∧
        ((G p).status e = .shared ∨ (op ≠ .set ∧ (G p).status e = .ghost)) then some [1] else none }

/-- `HaveData(t) && Bulk(t)`. -/
def nonzero : Option (List Nat) → Bool
  | some (a :: _) => a != 0
  | _ => false

/-- The marker after the exchange (parallel.cpp L715-721, L726-732, L737-743, L748-754). -/
def syncFinish (k : Nat) (mask : Nat → Bool) (op : BitOp) (G : Nat → Local Nat) (mk : Nat → El → Bool)
    (p : Nat) (e : El) : Bool :=
  if e ∈ (G p).elems ∧ mask e.ty = true then
    match op with
    | .set => if (G p).status e = .ghost then ((G p).data k e).isSome else mk p e
    | .or =>
      if (G p).status e = .ghost ∨ (G p).status e = .shared then mk p e || ((G p).data k e).isSome
      else mk p e
    | _ =>
      if (G p).status e = .ghost ∨ (G p).status e = .shared then nonzero ((G p).data k e) else mk p e
  else mk p e

/-- SynchronizeMarker on `n` processors (parallel.cpp L692-767): from the marker `mk` an execution leads to the
marker `mk'`. -/
def SyncMarker (n k : Nat) (mask : Nat → Bool) (op : BitOp) (G : Nat → Local Nat)
    (mk mk' : Nat → El → Bool) : Prop :=
  match op with
  | .set => ∃ G2, Collective (exchangeCall n [(k, syncTag mask)] mask) (syncInit k mask op mk G) G2 ∧
      mk' = syncFinish k mask op G2 mk
  | _ => ∃ G1 G2,
      Collective (reduceCall n [(k, syncTag mask)] mask (bitUnpack (bitFun op))) (syncInit k mask op mk G) G1 ∧
      Collective (exchangeCall n [(k, syncTag mask)] mask) G1 G2 ∧ mk' = syncFinish k mask op G2 mk

/-! ## Lemmas -/

/-- Same mesh, other data and selection. -/
structure SameMesh (n : Nat) (G H : Nat → Local V) : Prop where
  elems : ∀ p, p < n → (H p).elems = (G p).elems
  status : ∀ p, p < n → (H p).status = (G p).status
  owner : ∀ p, p < n → (H p).owner = (G p).owner
  procs : ∀ p, p < n → (H p).procs = (G p).procs
  key : ∀ p, p < n → (H p).key = (G p).key

theorem SameMesh.symm {n : Nat} {G H : Nat → Local V} (h : SameMesh n G H) : SameMesh n H G :=
  ⟨fun p hp => (h.elems p hp).symm, fun p hp => (h.status p hp).symm, fun p hp => (h.owner p hp).symm,
   fun p hp => (h.procs p hp).symm, fun p hp => (h.key p hp).symm⟩

theorem SameMesh.trans {n : Nat} {G H K : Nat → Local V} (h : SameMesh n G H) (g : SameMesh n H K) :
    SameMesh n G K :=
  ⟨fun p hp => (g.elems p hp).trans (h.elems p hp), fun p hp => (g.status p hp).trans (h.status p hp),
   fun p hp => (g.owner p hp).trans (h.owner p hp), fun p hp => (g.procs p hp).trans (h.procs p hp),
   fun p hp => (g.key p hp).trans (h.key p hp)⟩

theorem SameMesh.ghostOf {n : Nat} {G H : Nat → Local V} (h : SameMesh n G H) {p q : Nat} (hp : p < n)
    (hq : q < n) {e e' : El} (g : GhostOf G p e q e') : GhostOf H p e q e' :=
  ⟨by rw [h.elems p hp]; exact g.mem, by rw [h.elems q hq]; exact g.mem', by rw [h.status p hp]; exact g.ghost,
   by rw [h.owner p hp]; exact g.owner, by rw [h.status q hq]; exact g.shared,
   by rw [h.procs q hq]; exact g.procs, g.ne,
   ⟨g.same.1, by rw [h.key p hp, h.key q hq]; exact g.same.2⟩⟩

theorem SameMesh.distributed {n : Nat} {G H : Nat → Local V} (h : SameMesh n G H) (D : Distributed n G)
    (hsel : ∀ p q, p < n → q < n → ∀ e e', GhostOf G p e q e' → (H p).sel e = (H q).sel e') :
    Distributed n H where
  nodup p hp := by rw [h.elems p hp]; exact D.nodup p hp
  types p hp := by rw [h.elems p hp]; exact D.types p hp
  unique p hp := by rw [h.elems p hp, h.key p hp]; exact D.unique p hp
  procs p hp := by rw [h.elems p hp, h.procs p hp, h.status p hp]; exact D.procs p hp
  owner p hp := by
    rw [h.elems p hp, h.status p hp, h.owner p hp]
    intro e he hs
    obtain ⟨h1, e', h2⟩ := D.owner p hp e he hs
    exact ⟨h1, e', h.ghostOf hp h1 h2⟩
  ghosts q hq := by
    rw [h.elems q hq, h.status q hq, h.procs q hq]
    intro e' he hs p hpp hne
    obtain ⟨h1, e, h2⟩ := D.ghosts q hq e' he hs p hpp hne
    exact ⟨h1, e, h.ghostOf h1 hq h2⟩
  select p q hp hq e e' g := hsel p q hp hq e e' (h.symm.ghostOf hp hq g)

theorem sameMesh_data {n : Nat} {G H : Nat → Local V}
    (h : ∀ p, p < n → H p = { G p with data := (H p).data }) : SameMesh n G H :=
  ⟨fun p hp => by rw [h p hp], fun p hp => by rw [h p hp], fun p hp => by rw [h p hp],
   fun p hp => by rw [h p hp], fun p hp => by rw [h p hp]⟩

/-- What a finished ExchangeData leaves. -/
theorem exchange_collective {n : Nat} {tags : List (Nat × TagInfo)} {mask : Nat → Bool}
    {G G' : Nat → Local V} (D : Distributed n G) (hsz : Sized n tags G) (ht : (tags.map (·.1)).Nodup)
    (h : Collective (exchangeCall n tags mask) G G') :
    (∀ p, p < n → G' p = { G p with data := (G' p).data }) ∧
    ∀ p, p < n → ∀ t, t ∈ tags → ∀ e,
      (∀ q e' a l, GhostOf G p e q e' → mask e.ty = true → t.2.defd e.ty = true →
        (G p).sel e = true → (G q).data t.1 e' = some (a :: l) → (G' p).data t.1 e = some (a :: l)) ∧
      ((∀ q e', GhostOf G p e q e' → mask e.ty = true → t.2.defd e.ty = true → (G p).sel e = true →
        ∀ a l, (G q).data t.1 e' ≠ some (a :: l)) → (G' p).data t.1 e = (G p).data t.1 e) := by
  obtain ⟨tr, S, hr, hd, rfl⟩ := h
  constructor
  · intro p hp
    obtain ⟨d, h1, _⟩ := exchange_final D hsz ht hr hd hp
    rw [h1]
  · intro p hp t htm e
    obtain ⟨d, h1, h2, h3, _⟩ := exchange_final D hsz ht hr hd hp
    rw [h1]
    exact ⟨h2 t htm e, h3 t htm e⟩

theorem reduce_collective {n : Nat} {tags : List (Nat × TagInfo)} {mask : Nat → Bool} {op : Op V}
    {G G' : Nat → Local V} (D : Distributed n G) (hsz : Sized n tags G) (ht : (tags.map (·.1)).Nodup)
    (hop : ∀ t, t ∈ tags → OpSafe op t.2) (h : Collective (reduceCall n tags mask op) G G') :
    (∀ p, p < n → G' p = { G p with data := (G' p).data }) ∧
    ∀ q, q < n → ∀ t, t ∈ tags → ∀ e',
      (e' ∈ (G q).elems → (G q).status e' = .shared → mask e'.ty = true →
        t.2.defd e'.ty = true → (G q).sel e' = true →
        ∀ val : Nat → Option (List V),
        (∀ p e, GhostOf G p e q e' → val p = present ((G p).data t.1 e)) →
        ∃ order : List Nat, order.Perm (((G q).procs e').filter fun p => p != q) ∧
          foldOp op t.2 e' val order ((G q).data t.1 e') = some ((G' q).data t.1 e')) ∧
      (((G q).status e' ≠ .shared ∨ mask e'.ty = false ∨
        t.2.defd e'.ty = false ∨ (G q).sel e' = false) → (G' q).data t.1 e' = (G q).data t.1 e') := by
  obtain ⟨tr, S, hr, hd, rfl⟩ := h
  constructor
  · intro p hp
    obtain ⟨d, h1, _⟩ := reduce_final D hsz ht hop hr hd hp
    rw [h1]
  · intro p hp t htm e
    obtain ⟨d, h1, h2, h3, _⟩ := reduce_final D hsz ht hop hr hd hp
    rw [h1]
    exact ⟨h2 t htm e, h3 t htm e⟩

theorem syncInit_same {n k : Nat} {mask : Nat → Bool} {op : BitOp} {mk : Nat → El → Bool}
    {G : Nat → Local Nat} : SameMesh n G (syncInit k mask op mk G) :=
  ⟨fun _ _ => rfl, fun _ _ => rfl, fun _ _ => rfl, fun _ _ => rfl, fun _ _ => rfl⟩

theorem syncInit_ok {n k : Nat} {mask : Nat → Bool} {op : BitOp} {mk : Nat → El → Bool}
    {G : Nat → Local Nat} (D : Distributed n G) : Distributed n (syncInit k mask op mk G) :=
  syncInit_same.distributed D fun _ _ _ _ _ _ _ => rfl

theorem syncInit_data {k : Nat} {mask : Nat → Bool} {op : BitOp} {mk : Nat → El → Bool}
    {G : Nat → Local Nat} {p : Nat} {e : El} : (syncInit k mask op mk G p).data k e =
      if e ∈ (G p).elems ∧ mask e.ty = true ∧ mk p e = true ∧
        ((G p).status e = .shared ∨ (op ≠ .set ∧ (G p).status e = .ghost)) then some [1] else none := by
  simp only [syncInit, setTag, if_true]

theorem syncInit_sized {n k : Nat} {mask : Nat → Bool} {op : BitOp} {mk : Nat → El → Bool}
    {G : Nat → Local Nat} : Sized n [(k, syncTag mask)] (syncInit k mask op mk G) := by
  intro t ht p _ e _ hdef
  rw [List.mem_singleton] at ht
  subst ht
  simp only [syncTag] at hdef ⊢
  rw [syncInit_data]
  refine ⟨fun x m hx hm => ?_, fun h => ?_⟩
  · split at hx
    · cases hx; cases hm; rfl
    · cases hx
  · simp only at h
    rw [hdef] at h
    cases h

theorem bitUnpack_safe (f : Nat → Nat → Nat) (mask : Nat → Bool) : OpSafe (bitUnpack f) (syncTag mask) := by
  intro e d x _ _ hx _
  cases x with
  | nil => exact absurd rfl hx
  | cons b l =>
    exact ⟨_, rfl, fun y m hy hm => by cases hy; cases hm; rfl, fun _ => by simp⟩

/-- Sized data stay sized. -/
theorem sized_of_vals {n k : Nat} {mask : Nat → Bool} {G : Nat → Local Nat}
    (h : ∀ p, p < n → ∀ e, e ∈ (G p).elems → (G p).data k e = none ∨ ∃ a, (G p).data k e = some [a]) :
    Sized n [(k, syncTag mask)] G := by
  intro t ht p hp e he hdef
  rw [List.mem_singleton] at ht
  subst ht
  simp only [syncTag] at hdef ⊢
  refine ⟨fun x m hx hm => ?_, fun h => ?_⟩
  · rcases h p hp e he with h | ⟨a, h⟩
    · rw [hx] at h; cases h
    · rw [hx] at h; cases h; cases hm; rfl
  · simp only at h
    rw [hdef] at h
    cases h

/-- The number stored. -/
def valOf : Option (List Nat) → Nat
  | some (a :: _) => a
  | _ => 0

theorem bitUnpack_eq (f : Nat → Nat → Nat) (T : TagInfo) (e : El) (d : Option (List Nat)) (b : Nat) :
    bitUnpack f T e d [b] = some (some [f (valOf d) b]) := by
  unfold bitUnpack valOf
  match d with
  | none => rfl
  | some [] => rfl
  | some (_ :: _) => rfl

/-- Folding of bits: only processors with a marked copy send, and they send 1. -/
theorem foldOp_bits (f : Nat → Nat → Nat) (T : TagInfo) (e : El) (m : Nat → Bool) :
    ∀ (l : List Nat) (d : Option (List Nat)), (d = none ∨ ∃ a, d = some [a]) →
      foldOp (bitUnpack f) T e (fun p => if m p then some [1] else none) l d =
        some (if l.any m then some [l.foldl (fun a p => if m p then f a 1 else a) (valOf d)] else d)
  | [], d, _ => by simp [foldOp]
  | p :: l, d, hd => by
    simp only [foldOp, List.foldl_cons, List.any_cons]
    by_cases hm : m p = true
    case neg =>
      have hm : m p = false := by simpa using hm
      simp only [hm, Bool.false_eq_true, if_false, Bool.false_or]; exact foldOp_bits f T e m l d hd
    case pos =>
      simp only [hm, if_true, Bool.true_or]
      rw [bitUnpack_eq]
      simp only
      rw [foldOp_bits f T e m l _ (.inr ⟨_, rfl⟩)]
      simp only [valOf]
      split
      · rfl
      · rename_i hno
        congr 3
        symm
        have : ∀ q, q ∈ l → m q = false := by
          intro q hq
          cases h : m q with
          | false => rfl
          | true => exact absurd (List.any_eq_true.2 ⟨q, hq, h⟩) hno
        clear hno
        generalize f (valOf d) 1 = b
        induction l generalizing b with
        | nil => rfl
        | cons q l ih =>
          simp only [List.foldl_cons, this q List.mem_cons_self, Bool.false_eq_true, if_false]
          exact ih (fun q hq => this q (List.mem_cons_of_mem _ hq)) b

/-- After ReduceData. -/
theorem sync_mid {n k : Nat} {mask : Nat → Bool} {op : BitOp} (hop : op ≠ .set) {mk : Nat → El → Bool}
    {G G1 : Nat → Local Nat} (D : Distributed n G)
    (h1 : Collective (reduceCall n [(k, syncTag mask)] mask (bitUnpack (bitFun op)))
      (syncInit k mask op mk G) G1) :
    Distributed n G1 ∧ Sized n [(k, syncTag mask)] G1 ∧ SameMesh n G G1 ∧
    (∀ p, p < n → (G1 p).sel = fun _ => true) ∧
    (∀ q, q < n → ∀ e', e' ∈ (G q).elems → (G q).status e' = .shared → mask e'.ty = true →
      ∀ m : Nat → Bool, (∀ p e, GhostOf G p e q e' → m p = mk p e) →
      ∃ order : List Nat, order.Perm (((G q).procs e').filter fun p => p != q) ∧
        (G1 q).data k e' = (if order.any m then
          some [order.foldl (fun a p => if m p then bitFun op a 1 else a) (if mk q e' then 1 else 0)]
        else if mk q e' then some [1] else none)) ∧
    (∀ p, p < n → ∀ e, (G p).status e ≠ .shared →
      (G1 p).data k e = (syncInit k mask op mk G p).data k e) := by
  have D0 := syncInit_ok (k := k) (mask := mask) (op := op) (mk := mk) D
  have same0 : SameMesh n G (syncInit k mask op mk G) := syncInit_same
  have htags : ([(k, syncTag mask)].map (·.1)).Nodup := by simp
  obtain ⟨r1, r2⟩ := reduce_collective D0 syncInit_sized htags (fun t ht => by
    rw [List.mem_singleton] at ht
    subst ht
    exact bitUnpack_safe _ mask) h1
  have same1 : SameMesh n (syncInit k mask op mk G) G1 := sameMesh_data r1
  have s01 := same0.trans same1
  have sel1 : ∀ p, p < n → (G1 p).sel = fun _ => true := by
    intro p hp
    rw [r1 p hp]
    rfl
  have D1 : Distributed n G1 := s01.distributed D fun p q hp hq e e' _ => by rw [sel1 p hp, sel1 q hq]
  have hself : (k, syncTag mask) ∈ [(k, syncTag mask)] := by simp
  -- values of shared elements after ReduceData
  have shared1 : ∀ q, q < n → ∀ e', e' ∈ (G q).elems → (G q).status e' = .shared → mask e'.ty = true →
      ∀ m : Nat → Bool, (∀ p e, GhostOf G p e q e' → m p = mk p e) →
      ∃ order : List Nat, order.Perm (((G q).procs e').filter fun p => p != q) ∧
        (G1 q).data k e' = (if order.any m then
          some [order.foldl (fun a p => if m p then bitFun op a 1 else a) (if mk q e' then 1 else 0)]
        else if mk q e' then some [1] else none) := by
    intro q hq e' he hs hm m hmk
    obtain ⟨order, ho, hf⟩ := (r2 q hq (k, syncTag mask) hself e').1 he hs hm hm rfl
      (fun p => if m p then some [1] else none) (by
        intro p e hg
        have hp : p < n := by
          have := D0.ghosts q hq e' hg.mem' hg.shared p hg.procs hg.ne.symm
          exact this.1
        have hg0 : GhostOf G p e q e' := same0.symm.ghostOf hp hq hg
        rw [hmk p e hg0]
        simp only
        rw [syncInit_data]
        have hmask : mask e.ty = true := by rw [hg.same.1]; exact hm
        cases mk p e with
        | false => simp [present]
        | true => simp [present, hg0.mem, hmask, hop, hg0.ghost])
    refine ⟨order, ho, ?_⟩
    simp only at hf
    rw [syncInit_data] at hf
    have hv : (if e' ∈ (G q).elems ∧ mask e'.ty = true ∧ mk q e' = true ∧
        ((G q).status e' = .shared ∨ (op ≠ .set ∧ (G q).status e' = .ghost)) then some [1] else none) =
        if mk q e' then some [1] else none := by
      simp [he, hm, hs]
    rw [hv, foldOp_bits _ _ _ m order _ (by split <;> simp)] at hf
    injection hf with hf
    rw [← hf]
    split
    · congr 3
      split <;> rfl
    · rfl
  -- other elements after ReduceData
  have other1 : ∀ p, p < n → ∀ e, (G p).status e ≠ .shared →
      (G1 p).data k e = (syncInit k mask op mk G p).data k e := fun p hp e hs =>
    (r2 p hp (k, syncTag mask) hself e).2 (.inl hs)
  have hsz1 : Sized n [(k, syncTag mask)] G1 := by
    apply sized_of_vals
    intro p hp e he
    rw [s01.elems p hp] at he
    by_cases hs : (G p).status e = .shared
    · by_cases hm : mask e.ty = true
      · have hnd : ∀ p' e1 e2, p' < n → GhostOf G p' e1 p e → GhostOf G p' e2 p e → e1 = e2 := by
          intro p' e1 e2 hp' g1 g2
          exact D.unique p' hp' e1 e2 g1.mem g2.mem (g1.same.1.trans g2.same.1.symm)
            (g1.same.2.trans g2.same.2.symm)
        classical
        obtain ⟨order, _, ho⟩ := shared1 p hp e he hs hm
          (fun p' => decide (∃ e1, GhostOf G p' e1 p e ∧ mk p' e1 = true)) (by
            intro p' e1 g
            have hp' := (D.ghosts p hp e g.mem' g.shared p' g.procs g.ne.symm).1
            cases hb : mk p' e1 with
            | true => exact decide_eq_true ⟨e1, g, hb⟩
            | false =>
              apply decide_eq_false
              rintro ⟨e2, g2, h2⟩
              rw [hnd p' e1 e2 hp' g g2, h2] at hb
              cases hb)
        rw [ho]
        split
        · exact .inr ⟨_, rfl⟩
        · split
          · exact .inr ⟨1, rfl⟩
          · exact .inl rfl
      · have := (r2 p hp (k, syncTag mask) hself e).2 (.inr (.inl (by simpa using hm)))
        simp only at this
        rw [this, syncInit_data]
        split
        · exact .inr ⟨1, rfl⟩
        · exact .inl rfl
    · rw [other1 p hp e hs, syncInit_data]
      split
      · exact .inr ⟨1, rfl⟩
      · exact .inl rfl
  exact ⟨D1, hsz1, s01, sel1, shared1, other1⟩

/-- After ReduceData and ExchangeData: the value on the owner's copy and on the ghosts. -/
theorem sync_data {n k : Nat} {mask : Nat → Bool} {op : BitOp} (hop : op ≠ .set) {mk : Nat → El → Bool}
    {G G1 G2 : Nat → Local Nat} (D : Distributed n G)
    (h1 : Collective (reduceCall n [(k, syncTag mask)] mask (bitUnpack (bitFun op)))
      (syncInit k mask op mk G) G1)
    (h2 : Collective (exchangeCall n [(k, syncTag mask)] mask) G1 G2)
    {q : Nat} (hq : q < n) {e' : El} (he : e' ∈ (G q).elems) (hs : (G q).status e' = .shared)
    (hm : mask e'.ty = true) {m : Nat → Bool} (hmk : ∀ p e, GhostOf G p e q e' → m p = mk p e) :
    SameMesh n G G2 ∧ ∃ order : List Nat, order.Perm (((G q).procs e').filter fun p => p != q) ∧
      ∃ d, d = (if order.any m then
          some [order.foldl (fun a p => if m p then bitFun op a 1 else a) (if mk q e' then 1 else 0)]
        else if mk q e' then some [1] else none) ∧
      (G2 q).data k e' = d ∧
      ∀ p, p < n → ∀ e, GhostOf G p e q e' →
        (G2 p).data k e = if d = none then (if mk p e then some [1] else none) else d := by
  obtain ⟨D1, hsz1, s01, sel1, shared1, other1⟩ := sync_mid hop D h1
  have htags : ([(k, syncTag mask)].map (·.1)).Nodup := by simp
  have hself : (k, syncTag mask) ∈ [(k, syncTag mask)] := by simp
  obtain ⟨x1, x2⟩ := exchange_collective D1 hsz1 htags h2
  have same2 : SameMesh n G G2 := s01.trans (sameMesh_data x1)
  obtain ⟨order, ho, hd⟩ := shared1 q hq e' he hs hm m hmk
  refine ⟨same2, order, ho, _, rfl, ?_, ?_⟩
  · rw [← hd]
    refine (x2 q hq (k, syncTag mask) hself e').2 ?_
    intro q2 e2 hg _ _ _
    have := hg.ghost
    rw [s01.status q hq, hs] at this
    cases this
  · intro p hp e hg
    rw [← hd]
    have hg1 := s01.ghostOf hp hq hg
    have hmask : mask e.ty = true := by rw [hg.same.1]; exact hm
    by_cases hn : (G1 q).data k e' = none
    · rw [if_pos hn]
      have := (x2 p hp (k, syncTag mask) hself e).2 (by
        intro q2 e2 hg2 _ _ _ a l hc
        have hq2 : q2 = q := hg2.owner.symm.trans hg1.owner
        subst hq2
        have : e2 = e' := D1.unique q2 hq e2 e' hg2.mem' hg1.mem' (hg2.same.1.symm.trans hg1.same.1)
          (hg2.same.2.symm.trans hg1.same.2)
        subst this
        simp only at hc
        rw [hn] at hc
        cases hc)
      simp only at this
      rw [this, other1 p hp e (by rw [hg.ghost]; simp), syncInit_data]
      simp [hg.mem, hmask, hop, hg.ghost]
    · rw [if_neg hn]
      cases hv : (G1 q).data k e' with
      | none => exact absurd hv hn
      | some x =>
        have hx1 : x.length = 1 := by
          have := (hsz1 (k, syncTag mask) hself q hq e' hg1.mem' hm).size x 1 hv rfl
          exact this
        cases x with
        | nil => cases hx1
        | cons a l => exact (x2 p hp (k, syncTag mask) hself e).1 q e' a l hg1 hmask hmask (by rw [sel1 p hp]) hv

end Verif.Parallel
