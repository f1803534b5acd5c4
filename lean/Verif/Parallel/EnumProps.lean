import Verif.Parallel.Enum
import Verif.Parallel.SyncProps

/-!
# Properties of Enumerate and AssignGlobalID (C63, C64)
-/

namespace Verif.Parallel

theorem blocks_exact {n : Nat} {l : Nat → List El} {start : Int} {num : Nat → El → Int}
    (B : Blocks n l start num) {P : Nat → El → Prop} (hP : ∀ p, p < n → ∀ e, P p e ↔ e ∈ l p)
    {val : Nat → El → Option (List Int)} (hv : ∀ p, p < n → ∀ e, e ∈ l p → val p e = some [num p e]) :
    ExactNumbering n P val start (start + allSum (fun q => ((l q).length : Int)) n) where
  range p e hp h := by
    have he := (hP p hp e).1 h
    exact ⟨num p e, hv p hp e he, B.range hp he⟩
  distinct p p' e e' hp hp' h h' hval := by
    have he := (hP p hp e).1 h
    have he' := (hP p' hp' e').1 h'
    rw [hv p hp e he, hv p' hp' e' he'] at hval
    injection hval with hval
    injection hval with hval
    exact B.inj hp hp' he he' hval
  onto i h0 h1 := by
    obtain ⟨p, e, hp, he, h⟩ := B.surj h0 h1
    exact ⟨p, e, hp, (hP p hp e).2 he, by rw [hv p hp e he, h]⟩

theorem allSum_congr {f g : Nat → Int} : ∀ {n : Nat}, (∀ p, p < n → f p = g p) → allSum f n = allSum g n
  | 0, _ => rfl
  | n + 1, h => by simp only [allSum]; rw [allSum_congr fun p hp => h p (by omega), h n (by omega)]

theorem enumInit_same {n k : Nat} {ds : Bool} {els : Nat → List El} {start : Int} {G : Nat → Local Int} :
    SameMesh n G (enumInit k ds els start G) :=
  ⟨fun _ _ => rfl, fun _ _ => rfl, fun _ _ => rfl, fun _ _ => rfl, fun _ _ => rfl⟩

/-- What a call of Enumerate may rely on. -/
structure EnumOk (n k : Nat) (T : TagInfo) (els : Nat → List El) (G : Nat → Local Int) : Prop where
  mesh : Distributed n G
  sized : Sized n [(k, T)] G
  one : T.size = some 1
  nodup : ∀ p, p < n → (els p).Nodup
  sub : ∀ p, p < n → ∀ e, e ∈ els p → e ∈ (G p).elems

theorem enumInit_data {k : Nat} {ds : Bool} {els : Nat → List El} {start : Int} {G : Nat → Local Int}
    {p : Nat} (hn : (els p).Nodup) :
    (∀ e, e ∈ numbered k ds (els p) (G p) → (enumInit k ds els start G p).data k e =
      some [allSum (fun q => ((numbered k ds (els q) (G q)).length : Int)) p + start +
        ((numbered k ds (els p) (G p)).idxOf e : Nat)]) ∧
    ∀ e, e ∉ numbered k ds (els p) (G p) → (enumInit k ds els start G p).data k e = (G p).data k e := by
  have h1 : exclusiveSum (fun q => (enumCount k ds (els q) (G q) : Int)) p =
      allSum (fun q => ((numbered k ds (els q) (G q)).length : Int)) p := by
    rw [exclusiveSum_eq]
    exact allSum_congr fun q _ => by rw [numbered_length]
  obtain ⟨_, h2, h3⟩ := enumLocal_spec (k := k) (ds := ds) (els := els p) (L := G p)
    (i := exclusiveSum (fun q => (enumCount k ds (els q) (G q) : Int)) p + start) hn
  simp only [enumInit, setTag, if_true]
  refine ⟨fun e he => ?_, fun e he => ?_⟩
  · rw [h2 e he, h1]
  · exact h3 e he

theorem enumInit_sized {n k : Nat} {T : TagInfo} {ds : Bool} {els : Nat → List El} {start : Int}
    {G : Nat → Local Int} (H : EnumOk n k T els G) : Sized n [(k, T)] (enumInit k ds els start G) := by
  intro t ht p hp e he hdef
  rw [List.mem_singleton] at ht
  subst ht
  obtain ⟨h2, h3⟩ := enumInit_data (k := k) (ds := ds) (start := start) (G := G) (H.nodup p hp)
  by_cases hm : e ∈ numbered k ds (els p) (G p)
  · simp only
    rw [h2 e hm]
    exact ⟨fun x m hx hm => by cases hx; rw [H.one] at hm; cases hm; rfl, fun _ => by simp⟩
  · simp only
    rw [h3 e hm]
    exact H.sized (k, T) (by simp) p hp e he hdef

theorem enumInit_ok {n k : Nat} {T : TagInfo} {ds : Bool} {els : Nat → List El} {start : Int}
    {G : Nat → Local Int} {mask : Nat → Bool} (H : EnumOk n k T els G) :
    CallOk (exchangeCall n [(k, T)] mask) (enumInit k ds els start G) :=
  exchange_ok (enumInit_same.distributed H.mesh fun _ _ _ _ _ _ _ => rfl) (enumInit_sized H) (by simp)

/-- Values of elements that are not ghosts stay. -/
theorem exchange_keeps {V : Type} {n : Nat} {tags : List (Nat × TagInfo)} {mask : Nat → Bool}
    {G G' : Nat → Local V} (D : Distributed n G) (hsz : Sized n tags G) (ht : (tags.map (·.1)).Nodup)
    (h : Collective (exchangeCall n tags mask) G G') {p : Nat} (hp : p < n) {t : Nat × TagInfo} (htm : t ∈ tags)
    {e : El} (hs : (G p).status e ≠ .ghost) : (G' p).data t.1 e = (G p).data t.1 e :=
  ((exchange_collective D hsz ht h).2 p hp t htm e).2 fun _ _ g => absurd g.ghost hs

/-- C63: in no execution of Enumerate an assertion fails or processors wait for each other; it has
an execution that ends. -/
theorem C63_terminates (n k : Nat) (T : TagInfo) (mask : Nat → Bool) (ds : Bool) (els : Nat → List El)
    (start : Int) (G : Nat → Local Int) (hG : EnumOk n k T els G) :
    (∃ G', Enumerate n k T mask ds els start G G') ∧
    ∀ tr S, Run (exchangeCall n [(k, T)] mask) (enumInit k ds els start G) tr S →
      (∀ ev, step (exchangeCall n [(k, T)] mask) S ev ≠ .failed) ∧
      (¬ Done (exchangeCall n [(k, T)] mask) S → ∃ ev S', step (exchangeCall n [(k, T)] mask) S ev = .ok S') ∧
      tr.length ≤ n + n * n := by
  have H := enumInit_ok (ds := ds) (start := start) (mask := mask) hG
  exact ⟨collective_exists H, fun tr S hr =>
    ⟨fun ev => (step_inv H (run_inv H hr) ev).1, progress H (run_inv H hr), run_length (run_inv H hr)⟩⟩

/-- C63: after Enumerate the elements in the given lists that are not ghosts (without `define_sparse` only those
that had a value) have pairwise different numbers over all processors, and these are exactly the integers from
`start` up to the returned value. -/
theorem C63_exact (n k : Nat) (T : TagInfo) (mask : Nat → Bool) (ds : Bool) (els : Nat → List El)
    (start : Int) (G G' : Nat → Local Int) (hn : 0 < n) (hG : EnumOk n k T els G)
    (h : Enumerate n k T mask ds els start G G') :
    ExactNumbering n
      (fun p e => e ∈ els p ∧ (G p).status e ≠ .ghost ∧ (ds = true ∨ (G p).data k e ≠ none))
      (fun p e => (G' p).data k e) start (enumResult n k ds els start G) := by
  have D0 : Distributed n (enumInit k ds els start G) :=
    enumInit_same.distributed hG.mesh fun _ _ _ _ _ _ _ => rfl
  let l : Nat → List El := fun p => numbered k ds (els p) (G p)
  have B : Blocks n l start (fun p e => allSum (fun q => ((l q).length : Int)) p + start + ((l p).idxOf e : Nat)) :=
    ⟨fun p hp => numbered_nodup (hG.nodup p hp), fun _ _ _ _ => rfl⟩
  have hret : enumResult n k ds els start G = start + allSum (fun q => ((l q).length : Int)) n := by
    unfold enumResult
    rw [(enumLocal_spec (hG.nodup (n - 1) (by omega))).1, exclusiveSum_eq]
    have : n = (n - 1) + 1 := by omega
    conv => rhs; rw [this]
    simp only [allSum]
    have e1 : allSum (fun q => (enumCount k ds (els q) (G q) : Int)) (n - 1) =
        allSum (fun q => ((l q).length : Int)) (n - 1) :=
      allSum_congr fun q _ => by simp only [l]; rw [numbered_length]
    have e2 : (l (n - 1)).length = enumCount k ds (els (n - 1)) (G (n - 1)) := numbered_length
    rw [e1, e2]
    omega
  rw [hret]
  refine blocks_exact B (fun p _ e => ?_) (fun p hp e he => ?_)
  · show _ ↔ e ∈ numbered k ds (els p) (G p)
    rw [mem_numbered]
    unfold wanted
    rw [Bool.or_eq_true, Option.isSome_iff_ne_none]
  · have hns : (enumInit k ds els start G p).status e ≠ .ghost := (mem_numbered.1 he).2.1
    have := exchange_keeps D0 (enumInit_sized hG) (by simp) h hp (t := (k, T)) (by simp) hns
    simp only at this
    rw [this]
    exact (enumInit_data (hG.nodup p hp)).1 e he

/-- C63: the returned value is `start` plus the number of elements that got numbers; with `define_sparse` and all
elements of a mask it is `start` plus TotalNumberOf. -/
theorem C63_total (n k : Nat) (ds : Bool) (els : Nat → List El) (start : Int) (G : Nat → Local Int) (hn : 0 < n)
    (mask : Nat → Bool) (hds : ds = true) (hnd : ∀ p, p < n → (G p).elems.Nodup)
    (hels : ∀ p, els p = (G p).elems.filter fun e => mask e.ty) :
    enumResult n k ds els start G = start + totalNumberOf n mask G := by
  subst hds
  have hnd' : (els (n - 1)).Nodup := by
    rw [hels]
    exact (hnd (n - 1) (by omega)).sublist List.filter_sublist
  unfold enumResult totalNumberOf
  rw [(enumLocal_spec hnd').1, exclusiveSum_eq]
  have hc : ∀ q, (enumCount k true (els q) (G q) : Int) =
      (((G q).elems.filter fun e => mask e.ty && (G q).status e != .ghost).length : Int) := by
    intro q
    unfold enumCount
    rw [hels, List.filter_filter]
    congr 2
    apply List.filter_congr
    intro e _
    simp only [wanted, Bool.true_or, Bool.and_true]
    rw [Bool.and_comm]
  have : n = (n - 1) + 1 := by omega
  conv => rhs; rw [this]
  simp only [allSum]
  rw [allSum_congr fun q _ => hc q, hc]
  omega

/-- C63: on one processor elements with one copy come before shared ones. -/
theorem C63_owned_first (n k : Nat) (T : TagInfo) (mask : Nat → Bool) (ds : Bool) (els : Nat → List El)
    (start : Int) (G G' : Nat → Local Int) (hG : EnumOk n k T els G)
    (h : Enumerate n k T mask ds els start G G') (p : Nat) (hp : p < n) (e f : El) (he : e ∈ els p)
    (hf : f ∈ els p) (hse : (G p).status e = .owned ∨ (G p).status e = .any) (hsf : (G p).status f = .shared)
    (hwe : ds = true ∨ (G p).data k e ≠ none) (hwf : ds = true ∨ (G p).data k f ≠ none) :
    ∃ i j, (G' p).data k e = some [i] ∧ (G' p).data k f = some [j] ∧ i < j := by
  have D0 : Distributed n (enumInit k ds els start G) :=
    enumInit_same.distributed hG.mesh fun _ _ _ _ _ _ _ => rfl
  have hw : ∀ x, (ds = true ∨ (G p).data k x ≠ none) → wanted k ds (G p) x = true := by
    intro x hx
    unfold wanted
    rw [Bool.or_eq_true, Option.isSome_iff_ne_none]
    exact hx
  have me : e ∈ numbered k ds (els p) (G p) :=
    mem_numbered.2 ⟨he, by rcases hse with h | h <;> rw [h] <;> simp, hw e hwe⟩
  have mf : f ∈ numbered k ds (els p) (G p) := mem_numbered.2 ⟨hf, by rw [hsf]; simp, hw f hwf⟩
  have ke := exchange_keeps D0 (enumInit_sized hG) (by simp) h hp (t := (k, T)) (by simp)
    (show (enumInit k ds els start G p).status e ≠ .ghost from (mem_numbered.1 me).2.1)
  have kf := exchange_keeps D0 (enumInit_sized hG) (by simp) h hp (t := (k, T)) (by simp)
    (show (enumInit k ds els start G p).status f ≠ .ghost from (mem_numbered.1 mf).2.1)
  simp only at ke kf
  refine ⟨_, _, ke.trans ((enumInit_data (hG.nodup p hp)).1 e me),
    kf.trans ((enumInit_data (hG.nodup p hp)).1 f mf), ?_⟩
  have h1 : (numbered k ds (els p) (G p)).idxOf e < (numbered k ds (els p) (G p)).idxOf f := by
    unfold numbered
    have m1 : e ∈ (els p).filter fun e => ((G p).status e == .owned || (G p).status e == .any) &&
        wanted k ds (G p) e := by
      refine List.mem_filter.2 ⟨he, ?_⟩
      rw [hw e hwe]
      rcases hse with h | h <;> rw [h] <;> rfl
    have m2 : f ∉ (els p).filter fun e => ((G p).status e == .owned || (G p).status e == .any) &&
        wanted k ds (G p) e := by
      simp [List.mem_filter, hsf]
    rw [List.idxOf_append_of_mem m1, List.idxOf_append_of_notMem m2]
    have := List.idxOf_lt_length_of_mem m1
    omega
  omega

/-- C63: a ghost in the mask of the exchange has the number of the owner's copy, if that has one. -/
theorem C63_copies (n k : Nat) (T : TagInfo) (mask : Nat → Bool) (ds : Bool) (els : Nat → List El)
    (start : Int) (G G' : Nat → Local Int) (hG : EnumOk n k T els G)
    (h : Enumerate n k T mask ds els start G G') (p q : Nat) (hp : p < n) (e e' : El) (g : GhostOf G p e q e')
    (hm : mask e.ty = true) (hdef : T.defd e.ty = true)
    (hw : (e' ∈ els q ∧ ds = true) ∨ (G q).data k e' ≠ none) :
    (G' p).data k e = (G' q).data k e' ∧ (G' p).data k e ≠ none := by
  have hq : q < n := by
    have := (hG.mesh.owner p hp e g.mem g.ghost).1
    rw [g.owner] at this
    exact this
  have D0 : Distributed n (enumInit k ds els start G) :=
    enumInit_same.distributed hG.mesh fun _ _ _ _ _ _ _ => rfl
  have hk := exchange_keeps D0 (enumInit_sized hG) (by simp) h hq (t := (k, T)) (by simp)
    (show (enumInit k ds els start G q).status e' ≠ .ghost from by
      show (G q).status e' ≠ .ghost
      rw [g.shared]
      simp)
  simp only at hk
  have hval : ∃ a, (enumInit k ds els start G q).data k e' = some [a] := by
    obtain ⟨h1, h2⟩ := enumInit_data (k := k) (ds := ds) (start := start) (G := G) (hG.nodup q hq)
    by_cases hmem : e' ∈ numbered k ds (els q) (G q)
    · exact ⟨_, h1 e' hmem⟩
    · rw [h2 e' hmem]
      rcases hw with hw | hw
      · exact absurd (mem_numbered.2 ⟨hw.1, by rw [g.shared]; simp, by rw [wanted, hw.2]; rfl⟩) hmem
      · cases hv : (G q).data k e' with
        | none => exact absurd hv hw
        | some x =>
          have := (hG.sized (k, T) (by simp) q hq e' g.mem' (by simp only; rw [← g.same.1]; exact hdef)).size
            x 1 hv hG.one
          obtain ⟨a, rfl⟩ := List.length_eq_one_iff.1 this
          exact ⟨a, rfl⟩
  obtain ⟨a, ha⟩ := hval
  have := ((exchange_collective D0 (enumInit_sized hG) (by simp) h).2 p hp (k, T) (by simp) e).1 q e' a []
    (enumInit_same.ghostOf hp hq g) hm hdef rfl ha
  simp only at this
  rw [this, hk, ha]
  simp

/-! ## AssignGlobalID -/

/-- Elements of type `i` that are not ghosts. -/
def gidList (L : Local Int) (i : Nat) : List El :=
  (L.elems.filter fun e => e.ty == i).filter fun e => L.status e != .ghost

theorem gidTypes_spec {mask : Nat → Bool} {L : Local Int} {before : Nat → Int} (hnd : L.elems.Nodup) :
    ∀ (is : List Nat) (d : El → Option (List Int)), is.Nodup →
      (∀ e, e.ty ∈ is → mask e.ty = true → e ∈ gidList L e.ty →
        gidTypes mask L before is d e = some [before e.ty + ((gidList L e.ty).idxOf e : Nat)]) ∧
      ∀ e, (e.ty ∉ is ∨ mask e.ty = false ∨ e ∉ gidList L e.ty) → gidTypes mask L before is d e = d e
  | [], d, _ => ⟨fun _ h => (by cases h), fun _ _ => rfl⟩
  | i :: is, d, hn => by
    rw [List.nodup_cons] at hn
    simp only [gidTypes]
    by_cases hm : mask i = true
    · rw [if_pos hm]
      obtain ⟨_, a2, a3⟩ := assign_spec (cond := fun _ e => L.status e != .ghost)
        (c := fun e => L.status e != .ghost) (L.elems.filter fun e => e.ty == i) (before i) d
        (hnd.sublist List.filter_sublist) (fun _ _ _ _ => rfl)
      obtain ⟨b1, b2⟩ := gidTypes_spec (mask := mask) (before := before) hnd is
        (assign (fun _ e => L.status e != .ghost) (L.elems.filter fun e => e.ty == i) (before i, d)).2 hn.2
      constructor
      · intro e he hme hge
        by_cases hi : e.ty ∈ is
        · exact b1 e hi hme hge
        · have hty : e.ty = i := (List.mem_cons.1 he).resolve_right hi
          rw [b2 e (.inl hi)]
          subst hty
          have hg := List.mem_filter.1 hge
          exact a2 e hg.1 hg.2
      · intro e he
        rw [b2 e (he.imp (fun h h' => h (List.mem_cons_of_mem _ h')) id)]
        apply a3
        by_cases hty : e.ty = i
        · subst hty
          rcases he with h | h | h
          · exact absurd List.mem_cons_self h
          · rw [hm] at h; cases h
          · by_cases h1 : e ∈ L.elems.filter fun x => x.ty == e.ty
            · refine .inr ?_
              cases hs : (L.status e != .ghost) with
              | false => rfl
              | true => exact absurd (List.mem_filter.2 ⟨h1, hs⟩) h
            · exact .inl h1
        · left
          simp [List.mem_filter, hty]
    · rw [if_neg hm]
      obtain ⟨b1, b2⟩ := gidTypes_spec (mask := mask) (before := before) hnd is d hn.2
      constructor
      · intro e he hme hge
        refine b1 e ((List.mem_cons.1 he).resolve_left ?_) hme hge
        intro h; rw [h] at hme; exact hm hme
      · intro e he
        apply b2
        by_cases hty : e.ty = i
        · exact .inr (.inl (by rw [hty]; simpa using hm))
        · rcases he with h | h | h
          · exact .inl fun h' => h (List.mem_cons_of_mem _ h')
          · exact .inr (.inl h)
          · exact .inr (.inr h)

theorem mem_gidList {L : Local Int} {e : El} {i : Nat} :
    e ∈ gidList L i ↔ e ∈ L.elems ∧ e.ty = i ∧ L.status e ≠ .ghost := by
  unfold gidList
  simp only [List.mem_filter, beq_iff_eq, bne_iff_ne, and_assoc]

theorem gidInit_same {n k : Nat} {mask : Nat → Bool} {G : Nat → Local Int} :
    SameMesh n G (gidInit k mask G) :=
  ⟨fun _ _ => rfl, fun _ _ => rfl, fun _ _ => rfl, fun _ _ => rfl, fun _ _ => rfl⟩

theorem gidInit_data {n k : Nat} {mask : Nat → Bool} {G : Nat → Local Int} (D : Distributed n G) {p : Nat}
    (hp : p < n) :
    (∀ e, e ∈ (G p).elems → mask e.ty = true → (G p).status e ≠ .ghost → (gidInit k mask G p).data k e =
      some [allSum (fun q => ((gidList (G q) e.ty).length : Int)) p + ((gidList (G p) e.ty).idxOf e : Nat)]) ∧
    ∀ e, (e ∉ (G p).elems ∨ mask e.ty = false ∨ (G p).status e = .ghost) →
      (gidInit k mask G p).data k e = (G p).data k e := by
  obtain ⟨b1, b2⟩ := gidTypes_spec (mask := mask) (L := G p)
    (before := fun i => exclusiveSum (fun q => (gidCount (G q) i : Int)) p) (D.nodup p hp) [0, 1, 2, 3, 4]
    ((G p).data k) (by decide)
  simp only [gidInit, setTag, if_true]
  constructor
  · intro e he hm hs
    have ht := D.types p hp e he
    rw [b1 e (by simp only [List.mem_cons]; omega) hm (mem_gidList.2 ⟨he, rfl, hs⟩), exclusiveSum_eq]
    rfl
  · intro e he
    apply b2
    rcases he with h | h | h
    · exact .inr (.inr fun h' => h (mem_gidList.1 h').1)
    · exact .inr (.inl h)
    · exact .inr (.inr fun h' => (mem_gidList.1 h').2.2 h)

theorem gidInit_sized {n k : Nat} {mask : Nat → Bool} {G : Nat → Local Int} (D : Distributed n G)
    (hs : Sized n [(k, gidTag mask)] G) : Sized n [(k, gidTag mask)] (gidInit k mask G) := by
  intro t ht p hp e he hdef
  rw [List.mem_singleton] at ht
  subst ht
  obtain ⟨h1, h2⟩ := gidInit_data (k := k) (mask := mask) D hp
  by_cases hg : (G p).status e = .ghost
  · simp only
    rw [h2 e (.inr (.inr hg))]
    exact hs (k, gidTag mask) (by simp) p hp e he hdef
  · simp only
    rw [h1 e he hdef hg]
    exact ⟨fun x m hx hm => by cases hx; cases hm; rfl, fun _ => by simp⟩

theorem gidInit_ok {n k : Nat} {mask : Nat → Bool} {G : Nat → Local Int} (D : Distributed n G)
    (hs : Sized n [(k, gidTag mask)] G) :
    CallOk (exchangeCall n [(k, gidTag mask)] mask) (gidInit k mask G) :=
  exchange_ok (gidInit_same.distributed D fun _ _ _ _ _ _ _ => rfl) (gidInit_sized D hs) (by simp)

/-- C64: in no execution of AssignGlobalID an assertion fails or processors wait for each other; it has an
execution that ends. -/
theorem C64_terminates (n k : Nat) (mask : Nat → Bool) (G : Nat → Local Int) (hG : Distributed n G)
    (hs : Sized n [(k, gidTag mask)] G) :
    (∃ G', AssignGlobalID n k mask G G') ∧
    ∀ tr S, Run (exchangeCall n [(k, gidTag mask)] mask) (gidInit k mask G) tr S →
      (∀ ev, step (exchangeCall n [(k, gidTag mask)] mask) S ev ≠ .failed) ∧
      (¬ Done (exchangeCall n [(k, gidTag mask)] mask) S →
        ∃ ev S', step (exchangeCall n [(k, gidTag mask)] mask) S ev = .ok S') ∧
      tr.length ≤ n + n * n := by
  have H := gidInit_ok (k := k) (mask := mask) hG hs
  exact ⟨collective_exists H, fun tr S hr =>
    ⟨fun ev => (step_inv H (run_inv H hr) ev).1, progress H (run_inv H hr), run_length (run_inv H hr)⟩⟩

/-- C64: for every type in the mask the global numbers of the elements of this type that are not ghosts are
pairwise different over all processors and are exactly `0, 1, …, N - 1`, where `N` is the number TotalNumberOf
gives for the type. -/
theorem C64_exact (n k : Nat) (mask : Nat → Bool) (G G' : Nat → Local Int) (hG : Distributed n G)
    (hs : Sized n [(k, gidTag mask)] G) (h : AssignGlobalID n k mask G G') (i : Nat) (hi : mask i = true) :
    ExactNumbering n (fun p e => e ∈ (G p).elems ∧ e.ty = i ∧ (G p).status e ≠ .ghost)
      (fun p e => (G' p).data k e) 0 (totalNumberOf n (fun j => j == i) G) := by
  have D0 : Distributed n (gidInit k mask G) := gidInit_same.distributed hG fun _ _ _ _ _ _ _ => rfl
  let l : Nat → List El := fun p => gidList (G p) i
  have B : Blocks n l 0 (fun p e => allSum (fun q => ((l q).length : Int)) p + 0 + ((l p).idxOf e : Nat)) :=
    ⟨fun p hp => ((hG.nodup p hp).sublist List.filter_sublist).sublist List.filter_sublist, fun _ _ _ _ => rfl⟩
  have htot : totalNumberOf n (fun j => j == i) G = 0 + allSum (fun q => ((l q).length : Int)) n := by
    unfold totalNumberOf
    rw [Int.zero_add]
    apply allSum_congr
    intro p _
    simp only [l, gidList]
    rw [List.filter_filter]
    congr 2
    apply List.filter_congr
    intro e _
    rw [Bool.and_comm]
  rw [htot]
  refine blocks_exact B (fun p _ e => mem_gidList.symm) (fun p hp e he => ?_)
  obtain ⟨h1, h2, h3⟩ := mem_gidList.1 he
  have hk := exchange_keeps D0 (gidInit_sized hG hs) (by simp) h hp (t := (k, gidTag mask)) (by simp)
    (show (gidInit k mask G p).status e ≠ .ghost from h3)
  simp only at hk
  rw [hk, (gidInit_data hG hp).1 e h1 (by rw [h2]; exact hi) h3, h2]
  simp [l]

/-- C64: all copies of an element have the same global number. -/
theorem C64_copies (n k : Nat) (mask : Nat → Bool) (G G' : Nat → Local Int) (hG : Distributed n G)
    (hs : Sized n [(k, gidTag mask)] G) (h : AssignGlobalID n k mask G G') (p q : Nat) (hp : p < n)
    (e e' : El) (g : GhostOf G p e q e') (hm : mask e.ty = true) :
    (G' p).data k e = (G' q).data k e' ∧ ∃ i, (G' p).data k e = some [i] := by
  have hq : q < n := by
    have := (hG.owner p hp e g.mem g.ghost).1
    rw [g.owner] at this
    exact this
  have D0 : Distributed n (gidInit k mask G) := gidInit_same.distributed hG fun _ _ _ _ _ _ _ => rfl
  have hns : (G q).status e' ≠ .ghost := by rw [g.shared]; simp
  have hk := exchange_keeps D0 (gidInit_sized hG hs) (by simp) h hq (t := (k, gidTag mask)) (by simp)
    (show (gidInit k mask G q).status e' ≠ .ghost from hns)
  simp only at hk
  have hv := (gidInit_data (k := k) (mask := mask) hG hq).1 e' g.mem' (by rw [← g.same.1]; exact hm) hns
  have := ((exchange_collective D0 (gidInit_sized hG hs) (by simp) h).2 p hp (k, gidTag mask) (by simp) e).1
    q e' _ [] (gidInit_same.ghostOf hp hq g) hm hm rfl hv
  simp only at this
  rw [this, hk, hv]
  exact ⟨rfl, _, rfl⟩

/-- The global number of an element as the sorting of the lists reads it. -/
def gidOf (d : Option (List Int)) : Int := match d with | some (a :: _) => a | _ => 0

/-- C64: global numbers identify elements: two copies of elements of a type in the mask, on any processors, have
the same number if and only if one is a ghost of the other, both are ghosts of the same element, or they are the
same; on one processor the numbers of a type are different.  So the mesh whose lists are sorted by
the new numbers is a distributed mesh again. -/
theorem C64_distributed (n k : Nat) (mask : Nat → Bool) (G G' : Nat → Local Int) (hG : Distributed n G)
    (hs : Sized n [(k, gidTag mask)] G) (h : AssignGlobalID n k mask G G') :
    Distributed n (fun p => { G' p with
      key := fun e => if mask e.ty then gidOf ((G' p).data k e) else (G' p).key e }) := by
  have D0 : Distributed n (gidInit k mask G) := gidInit_same.distributed hG fun _ _ _ _ _ _ _ => rfl
  obtain ⟨x1, _⟩ := exchange_collective D0 (gidInit_sized hG hs) (by simp) h
  have s : SameMesh n G G' := gidInit_same.trans (sameMesh_data x1)
  have sel : ∀ p, p < n → (G' p).sel = fun _ => true := fun p hp => by rw [x1 p hp]; rfl
  -- the owner's copy behind a copy
  have src : ∀ p, p < n → ∀ e, e ∈ (G p).elems → mask e.ty = true → ∃ q e', q < n ∧
      (e' ∈ (G q).elems ∧ e'.ty = e.ty ∧ (G q).status e' ≠ .ghost) ∧ (G' p).data k e = (G' q).data k e' ∧
      ((q = p ∧ e' = e) ∨ GhostOf G p e q e') := by
    intro p hp e he hm
    by_cases hg : (G p).status e = .ghost
    · obtain ⟨hq, e', g⟩ := hG.owner p hp e he hg
      exact ⟨_, e', hq, ⟨g.mem', g.same.1.symm, by rw [g.shared]; simp⟩,
        (C64_copies n k mask G G' hG hs h p _ hp e e' g hm).1, .inr g⟩
    · exact ⟨p, e, hp, ⟨he, rfl, hg⟩, rfl, .inl ⟨rfl, rfl⟩⟩
  have ghost' : ∀ p q e e', p < n → q < n → GhostOf G p e q e' →
      GhostOf (fun p => { G' p with
        key := fun e => if mask e.ty then gidOf ((G' p).data k e) else (G' p).key e }) p e q e' := by
    intro p q e e' hp hq g
    have g' := s.ghostOf hp hq g
    refine ⟨g'.mem, g'.mem', g'.ghost, g'.owner, g'.shared, g'.procs, g'.ne, g'.same.1, ?_⟩
    simp only
    rw [← g.same.1]
    split
    · rename_i hm
      rw [(C64_copies n k mask G G' hG hs h p q hp e e' g hm).1]
    · exact g'.same.2
  refine ⟨?_, ?_, ?_, ?_, ?_, ?_, ?_⟩
  · intro p hp; simp only; rw [s.elems p hp]; exact hG.nodup p hp
  · intro p hp; simp only; rw [s.elems p hp]; exact hG.types p hp
  · intro p hp e e' he he' hty hkey
    simp only at he he' hkey
    rw [s.elems p hp] at he he'
    rw [← hty] at hkey
    split at hkey
    · rename_i hm
      obtain ⟨q1, f1, hq1, m1, v1, c1⟩ := src p hp e he hm
      obtain ⟨q2, f2, hq2, m2, v2, c2⟩ := src p hp e' he' (by rw [← hty]; exact hm)
      have EN := C64_exact n k mask G G' hG hs h e.ty hm
      obtain ⟨i1, w1, _⟩ := EN.range q1 f1 hq1 m1
      obtain ⟨i2, w2, _⟩ := EN.range q2 f2 hq2 ⟨m2.1, by rw [m2.2.1, hty], m2.2.2⟩
      rw [v1, v2, w1, w2] at hkey
      have hi : i1 = i2 := hkey
      obtain ⟨e1, e2⟩ := EN.distinct q1 q2 f1 f2 hq1 hq2 m1 ⟨m2.1, by rw [m2.2.1, hty], m2.2.2⟩
        (by rw [w1, w2, hi])
      subst e1 e2
      rcases c1 with ⟨a1, a2⟩ | g1
      · rcases c2 with ⟨b1, b2⟩ | g2
        · rw [← a2, ← b2]
        · exact absurd a1 g2.ne
      · rcases c2 with ⟨b1, b2⟩ | g2
        · exact absurd b1 g1.ne
        · exact hG.unique p hp e e' he he' hty (g1.same.2.trans g2.same.2.symm)
    · rw [s.key p hp] at hkey
      exact hG.unique p hp e e' he he' hty hkey
  · intro p hp; simp only; rw [s.elems p hp, s.procs p hp, s.status p hp]; exact hG.procs p hp
  · intro p hp
    simp only
    rw [s.elems p hp, s.status p hp, s.owner p hp]
    intro e he hst
    obtain ⟨hq, e', g⟩ := hG.owner p hp e he hst
    exact ⟨hq, e', ghost' p _ e e' hp hq g⟩
  · intro q hq
    simp only
    rw [s.elems q hq, s.status q hq, s.procs q hq]
    intro e' he hst p hpp hne
    obtain ⟨hp, e, g⟩ := hG.ghosts q hq e' he hst p hpp hne
    exact ⟨hp, e, ghost' p q e e' hp hq g⟩
  · intro p q hp hq e e' _
    simp only
    rw [sel p hp, sel q hq]

/-! ## Concrete case -/

def enumTag : TagInfo := ⟨some 1, fun i => i < 4, fun _ => true⟩

/-- Nodes of the three processors. -/
def enumEls (p : Nat) : List El := (exMesh (fun _ _ _ => none) p).elems.filter fun e => e.ty == 0

theorem enum_ok : EnumOk 3 0 enumTag enumEls (exMesh fun _ _ _ => none) := by
  refine ⟨exMesh_ok _, sized_of (by decide +kernel), rfl, ?_, ?_⟩
  · intro p hp
    exact ((exMesh_ok _).nodup p hp).sublist List.filter_sublist
  · intro p _ e he
    exact (List.mem_filter.1 he).1

/-- Two nodes are owned by processor 0, one by processor 1; numbers from 100 to 102. -/
example : (∃ G', Enumerate 3 0 enumTag (fun i => i == 0) true enumEls 100 (exMesh fun _ _ _ => none) G') ∧
    enumResult 3 0 true enumEls 100 (exMesh fun _ _ _ => none) = 103 ∧
    totalNumberOf 3 (fun i => i == 0) (exMesh fun _ _ _ => none) = 3 :=
  ⟨(C63_terminates _ _ _ _ _ _ _ _ enum_ok).1, by decide +kernel, by decide +kernel⟩

theorem gid_sized : Sized 3 [(0, gidTag fun _ => true)] (exMesh fun _ _ _ => some [0]) :=
  sized_of (by decide +kernel)

example : (∃ G', AssignGlobalID 3 0 (fun _ => true) (exMesh fun _ _ _ => some [0]) G') ∧
    GhostOf (exMesh fun _ _ _ => some [0]) 1 ⟨0, 3⟩ 0 ⟨0, 0⟩ :=
  ⟨(C64_terminates _ _ _ _ (exMesh_ok _) gid_sized).1, ghostOfB_iff.1 (by decide +kernel)⟩

end Verif.Parallel
