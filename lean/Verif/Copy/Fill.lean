import Verif.Copy.Spec
import Verif.Storage.Cells

/-! # The loops of the copy of a mesh -/

namespace Verif.Copy

open Verif.Storage

variable {V : Type} {zero : Nat → Option Nat → V}

theorem upd_upd {α β : Type} [DecidableEq α] (f : α → β) (a : α) (b c : β) : upd (upd f a b) a c = upd f a c := by
  funext x; unfold upd; split <;> rfl

theorem upd_eq {α β : Type} [DecidableEq α] (f : α → β) (a : α) : upd f a (f a) = f := by
  funext x; unfold upd; split
  · next h => rw [h]
  · rfl

theorem renamed_colOf (addr : Nat → Nat) (τ : TagRec) (t : ET) : (renamed addr τ).colOf t = τ.colOf t := rfl

theorem renamed_defined (addr : Nat → Nat) (τ : TagRec) (t : ET) : (renamed addr τ).defined t = τ.defined t := rfl

theorem find_renamed {addr : Nat → Nat} {o s : Sto V} {live} (I : DInv zero o live) (A : Addr addr o)
    (ht : s.tags = o.tags.map (renamed addr)) {τ : TagRec} (hτ : τ ∈ o.tags) :
    findTag s (addr τ.id) = some (renamed addr τ) := by
  unfold findTag
  rw [ht]
  have hnd : ((o.tags.map (renamed addr)).map (·.id)).Nodup := by
    rw [List.map_map]
    have h1 : o.tags.map ((·.id) ∘ renamed addr) = (o.tags.map (·.id)).map addr := by
      rw [List.map_map]; rfl
    rw [h1]
    refine List.Nodup.map_on ?_ I.ids
    intro x hx y hy e
    obtain ⟨τ, h1, rfl⟩ := List.mem_map.1 hx
    obtain ⟨σ, h2, rfl⟩ := List.mem_map.1 hy
    exact A.inj τ h1 σ h2 e
  exact find_of_mem_nodup hnd (List.mem_map.2 ⟨τ, hτ, rfl⟩)

/-- A record of a dense tag is copied. -/
theorem copyRec_dense {addr : Nat → Nat} {o s : Sto V} (I : Inv zero o) (A : Addr addr o)
    (ht : s.tags = o.tags.map (renamed addr)) (hnd : s.ndense = o.ndense) {t : ET} {τ : TagRec} (hτ : τ ∈ o.tags)
    {p a lid : Nat} (hp : τ.colOf t = some p) (hso : slot o t lid = some a) (hss : slot s t lid = some a)
    (hn : (s.dense p).n = (o.dense p).n) :
    copyRec addr o t lid τ.id s =
      some { s with dense := upd s.dense p { s.dense p with f := upd (s.dense p).f a ((o.dense p).f a) } } := by
  have hpl := (I.D.colLt τ hτ t p hp).1
  have hal : a < (o.dense p).n := by rw [I.D.colSize τ hτ t p hp]; exact I.D.bound t a ⟨lid, hso⟩
  have hr : Storage.read o t lid τ.id = some (some ((o.dense p).f a)) := by
    unfold Storage.read
    rw [hso]
    show readAt o t a τ.id = _
    rw [readAt_dense (I.D.find hτ) hp, if_pos ⟨hpl, hal⟩]
  obtain ⟨hfl, hpos⟩ := colOf_some.1 hp
  have hd : (renamed addr τ).defined t = true := by
    rw [renamed_defined]; unfold TagRec.defined; rw [hpos]; rfl
  unfold copyRec
  rw [hr]
  simp only
  unfold write
  rw [hss, find_renamed I.D A ht hτ]
  simp only [hd, if_true]
  have hf' : (renamed addr τ).flag t = false := hfl
  have hp' : (renamed addr τ).pos t = .col p := hpos
  simp only [hf', hp']
  rw [if_neg (by simp), if_pos ⟨by rw [hnd]; exact hpl, by rw [hn]; exact hal⟩]

/-- The loop over elements of a dense tag. -/
theorem copyLids_dense {addr : Nat → Nat} {o : Sto V} (I : Inv zero o) (A : Addr addr o) {t : ET} {τ : TagRec}
    (hτ : τ ∈ o.tags) {p : Nat} (hp : τ.colOf t = some p) (l : List Nat) :
    ∀ s : Sto V, s.tags = o.tags.map (renamed addr) → s.ndense = o.ndense → (∀ j, slot s t j = slot o t j) →
      (s.dense p).n = (o.dense p).n →
      (∀ a, (s.dense p).f a = (o.dense p).f a ∨ ∃ lid ∈ l, slot o t lid = some a) →
      forEach (copyOne addr o t τ) l s = some { s with dense := upd s.dense p (o.dense p) } := by
  induction l with
  | nil =>
    intro s _ _ _ hn hf
    have e : s.dense p = o.dense p := by
      cases h1 : s.dense p with
      | mk n f => cases h2 : o.dense p with
        | mk n' f' =>
          rw [h1, h2] at hn
          rw [h1, h2] at hf
          have : f = f' := by
            funext a
            rcases hf a with h | ⟨_, h, _⟩
            · exact h
            · cases h
          rw [this]; simp only at hn; rw [hn]
    rw [← e, upd_eq]; rfl
  | cons lid l ih =>
    intro s ht hnd hsl hn hf
    have hfl := (colOf_some.1 hp).1
    rw [forEach]
    cases hs : slot o t lid with
    | none =>
      have e : copyOne addr o t τ s lid = some s := by
        unfold copyOne; rw [hsl, hs, if_pos rfl]
      rw [e]
      refine ih s ht hnd hsl hn fun a => ?_
      rcases hf a with h | ⟨j, hj, h⟩
      · exact .inl h
      · rcases List.mem_cons.1 hj with rfl | hj
        · rw [hs] at h; cases h
        · exact .inr ⟨j, hj, h⟩
    | some a =>
      have hss : slot s t lid = some a := by rw [hsl, hs]
      have e : copyOne addr o t τ s lid = copyRec addr o t lid τ.id s := by
        unfold copyOne; rw [hss, if_neg (by simp), hfl]; rfl
      rw [e, copyRec_dense I A ht hnd hτ hp hs hss hn]
      simp only
      rw [ih { s with dense := upd s.dense p { s.dense p with f := upd (s.dense p).f a ((o.dense p).f a) } } ht hnd hsl
        (by simp only [upd_self]; exact hn) (by
        intro b
        simp only [upd_self]
        by_cases hb : b = a
        · subst hb; left; rw [upd_self]
        · rw [upd_ne _ _ hb]
          rcases hf b with h | ⟨j, hj, h⟩
          · exact .inl h
          · rcases List.mem_cons.1 hj with rfl | hj
            · rw [hs] at h; cases h; exact absurd rfl hb
            · exact .inr ⟨j, hj, h⟩)]
      simp only [upd_upd]

theorem getRec_absent {i : Nat} {l : List (Nat × V)} (h : ∀ r ∈ l, r.1 ≠ i) : getRec i l = none := by
  induction l with
  | nil => rfl
  | cons r rs ih =>
    rw [getRec, if_neg (h r List.mem_cons_self), ih fun x hx => h x (List.mem_cons_of_mem _ hx)]

/-- The loop over elements of a sparse tag copies nothing. -/
theorem copyLids_sparse {addr : Nat → Nat} {o : Sto V} (I : Inv zero o) (A : Addr addr o) {t : ET} {τ : TagRec}
    (hτ : τ ∈ o.tags) (hd : τ.defined t = true) (hfl : τ.flag t = true) (s : Sto V) (hsl : ∀ j, slot s t j = slot o t j)
    (l : List Nat) : forEach (copyOne addr o t τ) l s = some s := by
  induction l with
  | nil => rfl
  | cons lid l ih =>
    have e : copyOne addr o t τ s lid = some s := by
      unfold copyOne
      cases hs : slot s t lid with
      | none => rw [if_pos rfl]
      | some a =>
        have hso : slot o t lid = some a := by rw [← hsl, hs]
        have hb : a < (o.ty t).nsparse := by rw [I.D.spNeed τ hτ t hd hfl]; exact I.D.bound t a ⟨lid, hso⟩
        have hg : getRec (addr τ.id) ((o.ty t).sparse a) = none := by
          refine getRec_absent fun r hr => ?_
          obtain ⟨-, σ, h1, h2, -⟩ := I.D.spTag t a r hr
          rw [← h2]
          exact fun h => A.new τ hτ σ h1 h.symm
        have ho : otherHas o t lid (addr τ.id) = some false := by
          unfold otherHas; rw [hso]; simp only [hb, if_true, hg]; rfl
        rw [if_neg (by simp), hfl, ho]; rfl
    rw [forEach, e]; exact ih

/-- The columns of the tags in `l` on `t` are those of `o`. -/
def putCols (o : Sto V) (t : ET) (l : List TagRec) (s : Sto V) : Sto V :=
  { s with dense := fun p => if p ∈ l.filterMap (·.colOf t) then o.dense p else s.dense p }

/-- The loop over tags. -/
theorem copyTags_eq {addr : Nat → Nat} {o : Sto V} (I : Inv zero o) (A : Addr addr o) {t : ET} (l : List TagRec) :
    (∀ τ ∈ l, τ ∈ o.tags) → ∀ s : Sto V, s.tags = o.tags.map (renamed addr) → s.ndense = o.ndense →
      (∀ j, slot s t j = slot o t j) →
      (∀ τ ∈ o.tags, ∀ p, τ.colOf t = some p → (s.dense p).n = (o.dense p).n ∧
        ∀ a, (s.dense p).f a = (o.dense p).f a ∨ ∃ lid, slot o t lid = some a) →
      forEach (copyTag addr o t) l s = some (putCols o t l s) := by
  induction l with
  | nil =>
    intro _ s _ _ _ _
    simp [forEach, putCols]
  | cons τ l ih =>
    intro hl s ht hnd hsl hc
    have hτ := hl τ List.mem_cons_self
    have hl' : ∀ σ ∈ l, σ ∈ o.tags := fun σ h => hl σ (List.mem_cons_of_mem _ h)
    rw [forEach]
    cases hp : τ.colOf t with
    | some p =>
      have hd : τ.defined t = true := by
        unfold TagRec.defined; rw [(colOf_some.1 hp).2]; rfl
      obtain ⟨hn, hf⟩ := hc τ hτ p hp
      have e : copyTag addr o t s τ = some { s with dense := upd s.dense p (o.dense p) } := by
        unfold copyTag
        rw [if_pos hd]
        refine copyLids_dense I A hτ hp _ s ht hnd hsl hn fun a => ?_
        rcases hf a with h | ⟨lid, h⟩
        · exact .inl h
        · refine .inr ⟨lid, List.mem_range.2 ?_, h⟩
          have : slot s t lid = some a := by rw [hsl, h]
          exact (slot_some.1 this).1
      rw [e]
      simp only
      rw [ih hl' { s with dense := upd s.dense p (o.dense p) } ht hnd hsl (by
        intro σ hσ q hq
        by_cases hqp : q = p
        · subst hqp; simp only [upd_self]; exact ⟨trivial, fun a => .inl trivial⟩
        · simp only [upd_ne _ _ hqp]; exact hc σ hσ q hq)]
      unfold putCols
      congr 2
      funext q
      rw [List.filterMap_cons, hp]
      simp only [List.mem_cons]
      by_cases hqp : q = p
      · subst hqp; simp [upd_self]
      · simp [hqp, upd_ne _ _ hqp]
    | none =>
      have e : copyTag addr o t s τ = some s := by
        unfold copyTag
        by_cases hd : τ.defined t = true
        · rw [if_pos hd]
          refine copyLids_sparse I A hτ hd ?_ s hsl _
          cases hfl : τ.flag t with
          | true => rfl
          | false =>
            obtain ⟨p, h⟩ := I.col hτ hd hfl
            rw [hp] at h; cases h
        · rw [if_neg hd]
      rw [e]
      simp only
      rw [ih hl' s ht hnd hsl hc]
      unfold putCols
      rw [List.filterMap_cons, hp]

/-- What the loops find: tags and elements of `o`, no data. -/
structure Start (zero : Nat → Option Nat → V) (addr : Nat → Nat) (o s : Sto V) (ts : List ET) : Prop where
  tags : s.tags = o.tags.map (renamed addr)
  nd : s.ndense = o.ndense
  slots : ∀ t j, slot s t j = slot o t j
  cap : ∀ t, clampSize t (s.ty t).capacity = (o.ty t).nback
  cols : ∀ t ∈ ts, ∀ τ ∈ o.tags, ∀ p, τ.colOf t = some p →
    (s.dense p).n = 0 ∨ ∀ a, (s.dense p).f a = zero τ.dtype τ.size
  sparse : ∀ t a, (s.ty t).sparse a = []

/-- Is there a sparse tag on the type? -/
def sparseOn (o : Sto V) (t : ET) : Bool := o.tags.any fun τ => τ.defined t && τ.flag t

/-- What the loops leave. -/
structure Filled (o s s' : Sto V) (ts : List ET) : Prop where
  tags : s'.tags = s.tags
  nd : s'.ndense = s.ndense
  ed : s'.emptyDense = s.emptyDense
  md : s'.modified = s.modified
  links : ∀ t, (s'.ty t).nlinks = (s.ty t).nlinks ∧ (s'.ty t).links = (s.ty t).links ∧
    (s'.ty t).emptySpace = (s.ty t).emptySpace ∧ (s'.ty t).emptyLinks = (s.ty t).emptyLinks
  nback : ∀ t ∈ ts, (s'.ty t).nback = (o.ty t).nback
  back : ∀ t ∈ ts, ∀ k, (s'.ty t).back k = if k < (s.ty t).nback then (s.ty t).back k else none
  nsparse : ∀ t ∈ ts, (s'.ty t).nsparse = if sparseOn o t then (o.ty t).nback else 0
  sparse : ∀ t a, (s'.ty t).sparse a = []
  ty : ∀ t, t ∉ ts → s'.ty t = s.ty t
  cols : ∀ t ∈ ts, ∀ τ ∈ o.tags, ∀ p, τ.colOf t = some p → s'.dense p = o.dense p
  cols' : ∀ t, t ∉ ts → ∀ τ ∈ o.tags, ∀ p, τ.colOf t = some p → s'.dense p = s.dense p

theorem resize_of {τ : TagRec} {c : Col V} (m : Nat) (h : c.n = 0 ∨ ∀ a, c.f a = zero τ.dtype τ.size) (a : Nat) :
    (c.resize zero τ m).f a = zero τ.dtype τ.size := by
  rcases h with h | h
  · unfold Col.resize
    simp only [h, Nat.not_lt_zero, false_and, if_false]
    have : physical 0 = 0 := by decide
    rw [this]
    simp
  · exact resize_zero (h a)

theorem tags_renamed {addr : Nat → Nat} {o s : Sto V} {live} (I : DInv zero o live)
    (ht : s.tags = o.tags.map (renamed addr)) (A : Addr addr o) :
    s.tags.Nodup ∧ ∀ t u p, ∀ τ ∈ s.tags, ∀ σ ∈ s.tags, τ.colOf t = some p → σ.colOf u = some p → τ = σ ∧ t = u := by
  refine ⟨?_, ?_⟩
  · rw [ht]
    refine List.Nodup.map_on ?_ I.nodup
    intro τ hτ σ hσ e
    have : addr τ.id = addr σ.id := congrArg TagRec.id e
    have h := A.inj τ hτ σ hσ this
    have h1 := I.find hτ
    have h2 := I.find hσ
    rw [h, h2] at h1; cases h1; rfl
  · intro t u p τ hτ σ hσ h1 h2
    rw [ht] at hτ hσ
    obtain ⟨τ0, g1, rfl⟩ := List.mem_map.1 hτ
    obtain ⟨σ0, g2, rfl⟩ := List.mem_map.1 hσ
    obtain ⟨e1, e2⟩ := I.dist τ0 g1 σ0 g2 t u p h1 h2
    rw [e1]; exact ⟨rfl, e2⟩

/-- One type. -/
theorem copyType_spec {addr : Nat → Nat} {o s : Sto V} (I : Inv zero o) (A : Addr addr o) {t : ET} {ts : List ET}
    (S : Start zero addr o s (t :: ts)) : ∃ s', copyType zero addr o s t = some s' ∧ Filled o s s' [t] := by
  obtain ⟨r1, r2, r3, r4, r5, r6⟩ := reallocate_ty (zero := zero) s t (s.ty t).capacity
  have rsp := reallocate_sparse (zero := zero) s t (s.ty t).capacity
  obtain ⟨nd, dist⟩ := tags_renamed I.D S.tags A
  have hsl : ∀ u j, slot (reallocate zero s t (s.ty t).capacity) u j = slot o u j := by
    intro u j
    rw [← S.slots]
    by_cases h : u = t
    · subst h; unfold slot; rw [r1, r2]
    · unfold slot; rw [reallocate_ty_ne _ _ h]
  have hcol : ∀ τ ∈ o.tags, ∀ p, τ.colOf t = some p →
      (reallocate zero s t (s.ty t).capacity).dense p =
        (s.dense p).resize zero τ (clampSize t (s.ty t).capacity) := by
    intro τ hτ p hp
    have := foldCols_mem (t := t) (g := fun τ c => c.resize zero τ (clampSize t (s.ty t).capacity)) s.tags s.dense nd
      (fun τ h1 σ h2 h3 h4 => (dist t t p τ h1 σ h2 h3 h4).1) (τ := renamed addr τ)
      (by rw [S.tags]; exact List.mem_map.2 ⟨τ, hτ, rfl⟩) (p := p) hp
    exact this
  have hcol' : ∀ u, u ≠ t → ∀ τ ∈ o.tags, ∀ p, τ.colOf u = some p →
      (reallocate zero s t (s.ty t).capacity).dense p = s.dense p := by
    intro u hu τ hτ p hp
    refine foldCols_other (g := fun τ c => c.resize zero τ (clampSize t (s.ty t).capacity)) s.tags s.dense
      (fun σ hσ hc => hu ?_)
    exact (dist u t p (renamed addr τ) (by rw [S.tags]; exact List.mem_map.2 ⟨τ, hτ, rfl⟩) σ hσ hp hc).2
  have e := copyTags_eq I A (t := t) o.tags (fun _ h => h) (reallocate zero s t (s.ty t).capacity) S.tags S.nd
    (hsl t) (by
      intro τ hτ p hp
      rw [hcol τ hτ p hp]
      refine ⟨?_, fun a => ?_⟩
      · show clampSize t (s.ty t).capacity = _
        rw [S.cap, I.D.colSize τ hτ t p hp]
      · rw [resize_of _ (S.cols t List.mem_cons_self τ hτ p hp)]
        by_cases hl : ∃ lid, slot o t lid = some a
        · exact .inr hl
        · exact .inl (I.D.colZero τ hτ t p hp a hl).symm)
  have hneed : (s.tags.any fun τ => τ.defined t && τ.flag t) = sparseOn o t := by
    rw [S.tags, sparseOn, List.any_map]; rfl
  rw [hneed] at rsp
  refine ⟨_, e, ⟨rfl, rfl, rfl, rfl, ?_, ?_, ?_, ?_, ?_, ?_, ?_, ?_⟩⟩
  · intro u
    by_cases h : u = t
    · subst h; exact ⟨r1, r2, r3, r4⟩
    · show ((reallocate zero s t (s.ty t).capacity).ty u).nlinks = _ ∧
        ((reallocate zero s t (s.ty t).capacity).ty u).links = _ ∧
        ((reallocate zero s t (s.ty t).capacity).ty u).emptySpace = _ ∧
        ((reallocate zero s t (s.ty t).capacity).ty u).emptyLinks = _
      rw [reallocate_ty_ne _ _ h]; exact ⟨rfl, rfl, rfl, rfl⟩
  · intro u hu
    rw [List.mem_singleton] at hu; subst hu
    exact r5.trans (S.cap u)
  · intro u hu
    rw [List.mem_singleton] at hu; subst hu
    exact r6
  · intro u hu
    rw [List.mem_singleton] at hu; subst hu
    show ((reallocate zero s u (s.ty u).capacity).ty u).nsparse = _
    split at rsp
    · next h => rw [if_pos h, rsp.1, S.cap]
    · next h => rw [if_neg h, rsp.1]
  · intro u a
    show ((reallocate zero s t (s.ty t).capacity).ty u).sparse a = _
    by_cases h : u = t
    · subst h
      split at rsp
      · rw [rsp.2]
        split
        · exact S.sparse _ _
        · simp only [S.sparse, ite_self]
      · rw [rsp.2]
    · rw [reallocate_ty_ne _ _ h]; exact S.sparse _ _
  · intro u hu
    rw [List.mem_singleton] at hu
    exact reallocate_ty_ne (zero := zero) _ _ hu
  · intro u hu τ hτ p hp
    rw [List.mem_singleton] at hu; subst hu
    show (if _ then _ else _) = _
    rw [if_pos (List.mem_filterMap.2 ⟨τ, hτ, hp⟩)]
  · intro u hu τ hτ p hp
    rw [List.mem_singleton] at hu
    show (if _ then _ else _) = _
    rw [if_neg, hcol' u hu τ hτ p hp]
    intro h
    obtain ⟨σ, hσ, h2⟩ := List.mem_filterMap.1 h
    exact hu (I.D.dist τ hτ σ hσ u t p hp h2).2

/-- All types. -/
theorem fill_spec {addr : Nat → Nat} {o : Sto V} (I : Inv zero o) (A : Addr addr o) (ts : List ET) (hts : ts.Nodup) :
    ∀ s, Start zero addr o s ts → ∃ s', forEach (copyType zero addr o) ts s = some s' ∧ Filled o s s' ts := by
  induction ts with
  | nil =>
    intro s S
    exact ⟨s, rfl, rfl, rfl, rfl, rfl, fun _ => ⟨rfl, rfl, rfl, rfl⟩, nofun, nofun, nofun, S.sparse,
      fun _ _ => rfl, nofun, fun _ _ _ _ _ _ => rfl⟩
  | cons t ts ih =>
    intro s S
    obtain ⟨h1, h2⟩ := List.nodup_cons.1 hts
    obtain ⟨s1, e1, F1⟩ := copyType_spec I A S
    have hne : ∀ u ∈ ts, u ∉ [t] := by
      intro u hu h; rw [List.mem_singleton] at h; subst h; exact h1 hu
    have S1 : Start zero addr o s1 ts := by
      refine ⟨F1.tags.trans S.tags, F1.nd.trans S.nd, ?_, ?_, ?_, F1.sparse⟩
      · intro u j
        rw [← S.slots]
        unfold slot; rw [(F1.links u).1, (F1.links u).2.1]
      · intro u
        rw [← S.cap]
        unfold TS.capacity TS.occupied
        rw [(F1.links u).1, (F1.links u).2.2.1, (F1.links u).2.2.2]
      · intro u hu τ hτ p hp
        rw [F1.cols' u (hne u hu) τ hτ p hp]
        exact S.cols u (List.mem_cons_of_mem _ hu) τ hτ p hp
    obtain ⟨s2, e2, F2⟩ := ih h2 s1 S1
    refine ⟨s2, by rw [forEach, e1]; exact e2, ?_⟩
    have hty : s2.ty t = s1.ty t := F2.ty t h1
    refine ⟨F2.tags.trans F1.tags, F2.nd.trans F1.nd, F2.ed.trans F1.ed, F2.md.trans F1.md, ?_, ?_, ?_, ?_, F2.sparse,
      ?_, ?_, ?_⟩
    · intro u
      obtain ⟨a1, a2, a3, a4⟩ := F1.links u
      obtain ⟨b1, b2, b3, b4⟩ := F2.links u
      exact ⟨b1.trans a1, b2.trans a2, b3.trans a3, b4.trans a4⟩
    · intro u hu
      rcases List.mem_cons.1 hu with rfl | hu
      · rw [hty]; exact F1.nback u List.mem_cons_self
      · exact F2.nback u hu
    · intro u hu
      rcases List.mem_cons.1 hu with rfl | hu
      · rw [hty]; exact F1.back u List.mem_cons_self
      · rw [← F1.ty u (hne u hu)]; exact F2.back u hu
    · intro u hu
      rcases List.mem_cons.1 hu with rfl | hu
      · rw [hty]; exact F1.nsparse u List.mem_cons_self
      · exact F2.nsparse u hu
    · intro u hu
      have h3 : u ∉ ts := fun h => hu (List.mem_cons_of_mem _ h)
      have h4 : u ∉ [t] := fun h => hu (by rw [List.mem_singleton] at h; rw [h]; exact List.mem_cons_self)
      rw [F2.ty u h3, F1.ty u h4]
    · intro u hu τ hτ p hp
      rcases List.mem_cons.1 hu with rfl | hu
      · rw [F2.cols' u h1 τ hτ p hp]; exact F1.cols u List.mem_cons_self τ hτ p hp
      · exact F2.cols u hu τ hτ p hp
    · intro u hu τ hτ p hp
      have h3 : u ∉ ts := fun h => hu (List.mem_cons_of_mem _ h)
      have h4 : u ∉ [t] := fun h => hu (by rw [List.mem_singleton] at h; rw [h]; exact List.mem_cons_self)
      rw [F2.cols' u h3 τ hτ p hp, F1.cols' u h4 τ hτ p hp]

end Verif.Copy
