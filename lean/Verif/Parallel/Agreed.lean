import Verif.Parallel.SyncProps
import Mathlib.Tactic.Choose

/-!
# A distributed mesh in which all copies of an element know all processors that have it
-/

namespace Verif.Parallel

variable {V : Type}

/-- All copies of an element have the same list of processors, in increasing order, which is the list of
the processors that have a copy, and the same owner, which is one of them; the status is owned, shared or
ghost according to the list and the owner. -/
structure Agreed (n : Nat) (G : Nat → Local V) : Prop where
  nodup : ∀ p, p < n → (G p).elems.Nodup
  types : ∀ p, p < n → ∀ e, e ∈ (G p).elems → e.ty < 5
  unique : ∀ p, p < n → ∀ e e', e ∈ (G p).elems → e' ∈ (G p).elems → SameElem G p e p e' → e = e'
  sorted : ∀ p, p < n → ∀ e, e ∈ (G p).elems → ((G p).procs e).Pairwise (· < ·)
  procs : ∀ p, p < n → ∀ e, e ∈ (G p).elems → ∀ q, q ∈ (G p).procs e ↔
    q < n ∧ ∃ e', e' ∈ (G q).elems ∧ SameElem G p e q e'
  owner : ∀ p, p < n → ∀ e, e ∈ (G p).elems → (G p).owner e ∈ (G p).procs e
  same : ∀ p q, p < n → q < n → ∀ e e', e ∈ (G p).elems → e' ∈ (G q).elems → SameElem G p e q e' →
    (G p).owner e = (G q).owner e'
  status : ∀ p, p < n → ∀ e, e ∈ (G p).elems → (G p).status e =
    if (G p).procs e = [p] then .owned else if (G p).owner e = p then .shared else .ghost

theorem SameElem.symm {G : Nat → Local V} {p q : Nat} {e e' : El} (h : SameElem G p e q e') :
    SameElem G q e' p e := ⟨h.1.symm, h.2.symm⟩

theorem SameElem.trans {G : Nat → Local V} {p q r : Nat} {e e' e'' : El} (h : SameElem G p e q e')
    (h' : SameElem G q e' r e'') : SameElem G p e r e'' := ⟨h.1.trans h'.1, h.2.trans h'.2⟩

theorem Agreed.self {n : Nat} {G : Nat → Local V} (A : Agreed n G) {p : Nat} (hp : p < n) {e : El}
    (he : e ∈ (G p).elems) : p ∈ (G p).procs e := (A.procs p hp e he p).2 ⟨hp, e, he, rfl, rfl⟩

theorem sorted_ext {l l' : List Nat} (h : l.Pairwise (· < ·)) (h' : l'.Pairwise (· < ·))
    (hm : ∀ x, x ∈ l ↔ x ∈ l') : l = l' :=
  ((List.perm_ext_iff_of_nodup (h.imp Nat.ne_of_lt) (h'.imp Nat.ne_of_lt)).2 hm).eq_of_pairwise
    (fun _ _ _ _ h1 h2 => absurd h1 (Nat.lt_asymm h2)) h h'

/-- Copies have the same list. -/
theorem Agreed.list {n : Nat} {G : Nat → Local V} (A : Agreed n G) {p q : Nat} (hp : p < n) (hq : q < n) {e e' : El}
    (he : e ∈ (G p).elems) (he' : e' ∈ (G q).elems) (hs : SameElem G p e q e') :
    (G p).procs e = (G q).procs e' := by
  refine sorted_ext (A.sorted p hp e he) (A.sorted q hq e' he') fun x => ?_
  rw [A.procs p hp e he, A.procs q hq e' he']
  constructor
  · rintro ⟨hx, y, hy, h⟩; exact ⟨hx, y, hy, hs.symm.trans h⟩
  · rintro ⟨hx, y, hy, h⟩; exact ⟨hx, y, hy, hs.trans h⟩

theorem single_of {l : List Nat} {p : Nat} (hs : l.Pairwise (· < ·)) (h : ∀ x, x ∈ l ↔ x = p) : l = [p] :=
  sorted_ext hs (List.pairwise_singleton _ _) fun x => by rw [h, List.mem_singleton]

/-- An element is owned iff there are no other copies. -/
theorem Agreed.owned {n : Nat} {G : Nat → Local V} (A : Agreed n G) {p : Nat} (hp : p < n) {e : El}
    (he : e ∈ (G p).elems) : (G p).status e = .owned ↔ (G p).procs e = [p] := by
  rw [A.status p hp e he]
  split
  · simp [*]
  · rename_i h
    split <;> simp [h]

theorem Agreed.shared {n : Nat} {G : Nat → Local V} (A : Agreed n G) {p : Nat} (hp : p < n) {e : El}
    (he : e ∈ (G p).elems) : (G p).status e = .shared ↔ (G p).owner e = p ∧ (G p).procs e ≠ [p] := by
  rw [A.status p hp e he]
  split
  · simp [*]
  · rename_i h
    split
    · simp [*]
    · simp [*]

theorem Agreed.ghost {n : Nat} {G : Nat → Local V} (A : Agreed n G) {p : Nat} (hp : p < n) {e : El}
    (he : e ∈ (G p).elems) : (G p).status e = .ghost ↔ (G p).owner e ≠ p := by
  have ho := A.owner p hp e he
  rw [A.status p hp e he]
  split
  · rename_i h
    rw [h, List.mem_singleton] at ho
    simp [ho]
  · split <;> simp [*]

/-- Owned on one copy means that there is no other. -/
theorem Agreed.notOwned {n : Nat} {G : Nat → Local V} (A : Agreed n G) {p q : Nat} (hp : p < n) (hq : q < n) {e e' : El}
    (he : e ∈ (G p).elems) (he' : e' ∈ (G q).elems) (hs : SameElem G p e q e')
    (h : (G p).status e ≠ .owned) : (G q).status e' ≠ .owned := by
  intro h'
  rw [A.owned hq he', ← A.list hp hq he he' hs] at h'
  have := A.self hp he
  rw [h', List.mem_singleton] at this
  subst this
  exact h ((A.owned hp he).2 h')

/-- A ghost and the owner's copy. -/
theorem Agreed.ghostOf {n : Nat} {G : Nat → Local V} (A : Agreed n G) {p q : Nat} (hp : p < n) (hq : q < n) {e e' : El}
    (he : e ∈ (G p).elems) (he' : e' ∈ (G q).elems) (hs : SameElem G p e q e') (hne : q ≠ p)
    (ho : (G p).owner e = q) : GhostOf G p e q e' := by
  refine ⟨he, he', (A.ghost hp he).2 (by rw [ho]; exact hne), ho, ?_, ?_, hne, hs⟩
  · rw [A.shared hq he', ← A.same p q hp hq e e' he he' hs]
    refine ⟨ho, fun h => ?_⟩
    have := A.self hp he
    rw [A.list hp hq he he' hs, h, List.mem_singleton] at this
    exact hne this.symm
  · rw [← A.list hp hq he he' hs]; exact A.self hp he

/-- An agreed mesh is distributed in the sense of C60-C65. -/
theorem Agreed.distributed {n : Nat} {G : Nat → Local V} (A : Agreed n G)
    (hsel : ∀ p q, p < n → q < n → ∀ e e', GhostOf G p e q e' → (G p).sel e = (G q).sel e') : Distributed n G where
  nodup := A.nodup
  types := A.types
  unique p hp e e' he he' h1 h2 := A.unique p hp e e' he he' ⟨h1, h2⟩
  procs p hp e he _ := (A.sorted p hp e he).imp Nat.ne_of_lt
  owner p hp e he hg := by
    have hne := (A.ghost hp he).1 hg
    obtain ⟨hq, e', he', hs⟩ := (A.procs p hp e he _).1 (A.owner p hp e he)
    exact ⟨hq, e', A.ghostOf hp hq he he' hs hne rfl⟩
  ghosts q hq e' he' hsh p hpm hne := by
    obtain ⟨ho, _⟩ := (A.shared hq he').1 hsh
    obtain ⟨hp, e, he, hs⟩ := (A.procs q hq e' he' p).1 hpm
    exact ⟨hp, e, A.ghostOf hp hq he he' hs.symm (Ne.symm hne) (by rw [← A.same q p hq hp e' e he' he hs, ho])⟩
  select := hsel

theorem SameMesh.agreed {n : Nat} {G H : Nat → Local V} (h : SameMesh n G H) (A : Agreed n G) : Agreed n H where
  nodup p hp := by rw [h.elems p hp]; exact A.nodup p hp
  types p hp := by rw [h.elems p hp]; exact A.types p hp
  unique p hp e e' := by
    rw [h.elems p hp]
    intro he he' hs
    exact A.unique p hp e e' he he' ⟨hs.1, by have := hs.2; rw [h.key p hp] at this; exact this⟩
  sorted p hp := by rw [h.elems p hp, h.procs p hp]; exact A.sorted p hp
  procs p hp e := by
    rw [h.elems p hp, h.procs p hp]
    intro he q
    rw [A.procs p hp e he]
    constructor
    · rintro ⟨hq, e', he', hs⟩
      exact ⟨hq, e', by rw [h.elems q hq]; exact he', hs.1, by rw [h.key p hp, h.key q hq]; exact hs.2⟩
    · rintro ⟨hq, e', he', hs⟩
      exact ⟨hq, e', by rw [← h.elems q hq]; exact he', hs.1, by have := hs.2; rw [h.key p hp, h.key q hq] at this; exact this⟩
  owner p hp := by rw [h.elems p hp, h.procs p hp, h.owner p hp]; exact A.owner p hp
  same p q hp hq e e' := by
    rw [h.elems p hp, h.elems q hq, h.owner p hp, h.owner q hq]
    intro he he' hs
    exact A.same p q hp hq e e' he he' ⟨hs.1, by have := hs.2; rw [h.key p hp, h.key q hq] at this; exact this⟩
  status p hp := by rw [h.elems p hp, h.status p hp, h.procs p hp, h.owner p hp]; exact A.status p hp

theorem SameMesh.sameElem {n : Nat} {G H : Nat → Local V} (h : SameMesh n G H) {p q : Nat} (hp : p < n) (hq : q < n)
    {e e' : El} : SameElem H p e q e' ↔ SameElem G p e q e' := by
  unfold SameElem
  rw [h.key p hp, h.key q hq]

/-! ## A reduction by a least value, followed by an exchange -/

/-- `best` chooses the lesser of two records of length `m`. -/
structure Chooses (op : Op Int) (T : TagInfo) (m : Nat) (best : List Int → List Int → List Int)
    (le : List Int → List Int → Prop) : Prop where
  op : ∀ e a b, a.length = m → b.length = m → op T e (some a) b = some (some (best a b))
  one : ∀ a b, best a b = a ∨ best a b = b
  left : ∀ a b, a.length = m → b.length = m → le (best a b) a
  right : ∀ a b, a.length = m → b.length = m → le (best a b) b
  refl : ∀ a, le a a
  trans : ∀ a b c, le a b → le b c → le a c

theorem fold_best {op : Op Int} {T : TagInfo} {m : Nat} {best : List Int → List Int → List Int}
    {le : List Int → List Int → Prop} (H : Chooses op T m best le) (e : El) (val : Nat → Option (List Int)) :
    ∀ (order : List Nat) (a : List Int), a.length = m → (∀ q, q ∈ order → ∃ x, val q = some x ∧ x.length = m) →
      ∃ v, foldOp op T e val order (some a) = some (some v) ∧ v.length = m ∧
        (v = a ∨ ∃ q, q ∈ order ∧ val q = some v) ∧ le v a ∧ ∀ q, q ∈ order → ∀ w, val q = some w → le v w
  | [], a, ha, _ => ⟨a, rfl, ha, Or.inl rfl, H.refl a, fun _ h => (by cases h)⟩
  | q :: order, a, ha, hv => by
    obtain ⟨x, hx, hxl⟩ := hv q List.mem_cons_self
    have hbl : (best a x).length = m := by rcases H.one a x with h | h <;> rw [h] <;> assumption
    obtain ⟨v, h1, h2, h3, h4, h5⟩ := fold_best H e val order (best a x) hbl
      (fun q' h => hv q' (List.mem_cons_of_mem _ h))
    refine ⟨v, ?_, h2, ?_, H.trans _ _ _ h4 (H.left a x ha hxl), ?_⟩
    · unfold foldOp
      rw [hx]
      simp only
      rw [H.op e a x ha hxl]
      exact h1
    · rcases h3 with h3 | ⟨q', hq', h3⟩
      · rcases H.one a x with h | h
        · exact Or.inl (h3.trans h)
        · exact Or.inr ⟨q, List.mem_cons_self, by rw [hx, h3, h]⟩
      · exact Or.inr ⟨q', List.mem_cons_of_mem _ hq', h3⟩
    · intro q' hq' w hw
      rcases List.mem_cons.1 hq' with rfl | hq'
      · rw [hx] at hw
        cases hw
        exact H.trans _ _ _ h4 (H.right a _ ha hxl)
      · exact h5 q' hq' w hw

/-- ReduceData with such an operation. -/
theorem combine_mid {n k t m : Nat} {T : TagInfo} {op : Op Int} {best : List Int → List Int → List Int}
    {le : List Int → List Int → Prop} (H : Chooses op T m best le) (hm : 0 < m) {G0 G1 : Nat → Local Int}
    (A : Agreed n G0) (hsel : ∀ p, p < n → (G0 p).sel = fun _ => true) (hdef : T.defd t = true)
    (hsize : T.size = some m) (hsz : Sized n [(k, T)] G0) (hsafe : OpSafe op T)
    (hd : ∀ p, p < n → ∀ e, e ∈ (G0 p).elems → e.ty = t → (G0 p).status e ≠ .owned →
      ∃ x, (G0 p).data k e = some x ∧ x.length = m)
    (c1 : Collective (reduceCall n [(k, T)] (fun i => i == t) op) G0 G1) :
    (∀ p, p < n → G1 p = { G0 p with data := (G1 p).data }) ∧ Distributed n G0 ∧ Distributed n G1 ∧
    Sized n [(k, T)] G1 ∧ (∀ q, q < n → ∀ f, f ∈ (G0 q).elems → f.ty = t → (G0 q).status f = .shared →
      ∃ v, (G1 q).data k f = some v ∧ v.length = m ∧
        (∃ q' e', q' < n ∧ e' ∈ (G0 q').elems ∧ SameElem G0 q f q' e' ∧ (G0 q').data k e' = some v) ∧
        ∀ q' e', q' < n → e' ∈ (G0 q').elems → SameElem G0 q f q' e' → ∀ w, (G0 q').data k e' = some w → le v w) := by
  have D0 : Distributed n G0 := A.distributed fun p q hp hq _ _ _ => by rw [hsel p hp, hsel q hq]
  obtain ⟨x1, x2⟩ := reduce_collective D0 hsz (by simp) (fun s hs => by
    rw [show s = (k, T) from List.mem_singleton.1 hs]; exact hsafe) c1
  have s1 : SameMesh n G0 G1 := sameMesh_data x1
  have hsel1 : ∀ p, p < n → (G1 p).sel = fun _ => true := fun p hp => by rw [x1 p hp]; exact hsel p hp
  have D1 : Distributed n G1 := s1.distributed D0 fun p q hp hq _ _ _ => by rw [hsel1 p hp, hsel1 q hq]
  -- the owner's value
  have own : ∀ q, q < n → ∀ f, f ∈ (G0 q).elems → f.ty = t → (G0 q).status f = .shared →
      ∃ v, (G1 q).data k f = some v ∧ v.length = m ∧
        (∃ q' e', q' < n ∧ e' ∈ (G0 q').elems ∧ SameElem G0 q f q' e' ∧ (G0 q').data k e' = some v) ∧
        ∀ q' e', q' < n → e' ∈ (G0 q').elems → SameElem G0 q f q' e' → ∀ w, (G0 q').data k e' = some w → le v w := by
    intro q hq f hf ht hst
    have hgo : ∀ p, p < n → p ≠ q → ∀ e, e ∈ (G0 p).elems → SameElem G0 q f p e → GhostOf G0 p e q f := by
      intro p hp hne e he hs
      exact A.ghostOf hp hq he hf hs.symm (Ne.symm hne)
        (by rw [← A.same q p hq hp f e hf he hs]; exact ((A.shared hq hf).1 hst).1)
    have hpn : ∀ p e, GhostOf G0 p e q f → p < n := fun p e hg => (D0.ghosts q hq f hf hst p hg.procs hg.ne.symm).1
    have hval : ∀ p, ∃ x : Option (List Int), ∀ e, GhostOf G0 p e q f → x = present ((G0 p).data k e) := by
      intro p
      by_cases h : ∃ e, GhostOf G0 p e q f
      · obtain ⟨e, hg⟩ := h
        refine ⟨present ((G0 p).data k e), fun e2 hg2 => ?_⟩
        have : e = e2 := A.unique p (hpn p e hg) e e2 hg.mem hg2.mem (hg.same.trans hg2.same.symm)
        rw [this]
      · exact ⟨none, fun e hg => absurd ⟨e, hg⟩ h⟩
    choose val hval using hval
    have hown : (G0 q).status f ≠ .owned := by rw [hst]; simp
    have hval2 : ∀ p e, GhostOf G0 p e q f → ∃ x, (G0 p).data k e = some x ∧ x.length = m ∧ val p = some x := by
      intro p e hg
      have hp := hpn p e hg
      obtain ⟨x, hx, hxl⟩ := hd p hp e hg.mem (by rw [hg.same.1]; exact ht)
        (A.notOwned hq hp hf hg.mem hg.same.symm hown)
      refine ⟨x, hx, hxl, ?_⟩
      rw [hval p e hg, hx]
      cases x with
      | nil => simp at hxl; omega
      | cons a l => rfl
    obtain ⟨order, ho, hf'⟩ := (x2 q hq (k, T) (by simp) f).1 hf hst (by simp [ht]) (by rw [ht]; exact hdef)
      (by rw [hsel q hq]) val (fun p e hg => hval p e hg)
    obtain ⟨a, ha, hal⟩ := hd q hq f hf ht hown
    have hord : ∀ p, p ∈ order → p < n ∧ ∃ e, GhostOf G0 p e q f := by
      intro p hp
      have := ho.mem_iff.1 hp
      rw [List.mem_filter] at this
      exact D0.ghosts q hq f hf hst p this.1 (by simpa using this.2)
    obtain ⟨v, h1, h2, h3, h4, h5⟩ := fold_best H f val order a hal (fun p hp => by
      obtain ⟨_, e, hg⟩ := hord p hp
      obtain ⟨x, _, hxl, hx⟩ := hval2 p e hg
      exact ⟨x, hx, hxl⟩)
    simp only at hf'
    rw [ha, h1] at hf'
    injection hf' with hf'
    refine ⟨v, hf'.symm, h2, ?_, ?_⟩
    · rcases h3 with rfl | ⟨p, hp, h3⟩
      · exact ⟨q, f, hq, hf, ⟨rfl, rfl⟩, ha⟩
      · obtain ⟨hpn, e, hg⟩ := hord p hp
        obtain ⟨x, hx, _, hx'⟩ := hval2 p e hg
        rw [h3] at hx'
        cases hx'
        exact ⟨p, e, hpn, hg.mem, hg.same.symm, hx⟩
    · intro p e hp he hs w hw
      by_cases hpq : p = q
      · subst hpq
        have := A.unique p hp f e hf he hs
        subst this
        rw [ha] at hw
        cases hw
        exact h4
      · have hg := hgo p hp hpq e he hs
        refine h5 p (ho.mem_iff.2 ?_) w ?_
        · rw [List.mem_filter]
          exact ⟨hg.procs, by simpa using hpq⟩
        · obtain ⟨x, hx, _, hx'⟩ := hval2 p e hg
          rw [hx] at hw
          cases hw
          exact hx'
  have hsz1 : Sized n [(k, T)] G1 := by
    intro s hs p hp e he hde
    have hk : s = (k, T) := List.mem_singleton.1 hs
    subst hk
    rw [s1.elems p hp] at he
    by_cases hc : e.ty = t ∧ (G0 p).status e = .shared
    · obtain ⟨v, v1, v2, _⟩ := own p hp e he hc.1 hc.2
      simp only
      rw [v1]
      refine ⟨fun x r hx hr => ?_, fun _ => by simp⟩
      cases hx
      rw [hsize] at hr
      cases hr
      exact v2
    · have := (x2 p hp (k, T) (by simp) e).2 (by
        by_cases h1 : e.ty = t
        · exact Or.inl fun h => hc ⟨h1, h⟩
        · exact Or.inr (Or.inl (by simpa using h1)))
      rw [this]
      exact hsz (k, T) (by simp) p hp e he hde
  exact ⟨x1, D0, D1, hsz1, own⟩

/-- ReduceData with such an operation and ExchangeData after it give every copy the least of the values of all
copies. -/
theorem combine {n k t m : Nat} {T : TagInfo} {op : Op Int} {best : List Int → List Int → List Int}
    {le : List Int → List Int → Prop} (H : Chooses op T m best le) (hm : 0 < m) {G0 G1 G2 : Nat → Local Int}
    (A : Agreed n G0) (hsel : ∀ p, p < n → (G0 p).sel = fun _ => true) (hdef : T.defd t = true)
    (hsize : T.size = some m) (hsz : Sized n [(k, T)] G0) (hsafe : OpSafe op T)
    (hd : ∀ p, p < n → ∀ e, e ∈ (G0 p).elems → e.ty = t → (G0 p).status e ≠ .owned →
      ∃ x, (G0 p).data k e = some x ∧ x.length = m)
    (c1 : Collective (reduceCall n [(k, T)] (fun i => i == t) op) G0 G1)
    (c2 : Collective (exchangeCall n [(k, T)] fun i => i == t) G1 G2) :
    (∀ p, p < n → G2 p = { G0 p with data := (G2 p).data }) ∧
    ∀ p, p < n → ∀ e, e ∈ (G0 p).elems → e.ty = t → (G0 p).status e ≠ .owned →
      ∃ v, (G2 p).data k e = some v ∧ v.length = m ∧
        (∃ q e', q < n ∧ e' ∈ (G0 q).elems ∧ SameElem G0 p e q e' ∧ (G0 q).data k e' = some v) ∧
        ∀ q e', q < n → e' ∈ (G0 q).elems → SameElem G0 p e q e' → ∀ w, (G0 q).data k e' = some w → le v w := by
  obtain ⟨x1, D0, D1, hsz1, own⟩ := combine_mid H hm A hsel hdef hsize hsz hsafe hd c1
  have s1 : SameMesh n G0 G1 := sameMesh_data x1
  have hsel1 : ∀ p, p < n → (G1 p).sel = fun _ => true := fun p hp => by rw [x1 p hp]; exact hsel p hp
  obtain ⟨y1, y2⟩ := exchange_collective D1 hsz1 (by simp) c2
  refine ⟨fun p hp => ?_, ?_⟩
  · rw [y1 p hp, x1 p hp]
  intro p hp e he ht hst
  have y := y2 p hp (k, T) (by simp) e
  by_cases hg : (G0 p).status e = .ghost
  · obtain ⟨hq, f, g⟩ := D0.owner p hp e he hg
    obtain ⟨v, v1, v2, ⟨q', e', a1, a2, a3, a4⟩, v4⟩ := own _ hq f g.mem' (by rw [← g.same.1]; exact ht) g.shared
    cases hv : v with
    | nil => rw [hv] at v2; simp at v2; omega
    | cons a l =>
      have := y.1 _ f a l (s1.ghostOf hp hq g) (by simp [ht]) (by rw [ht]; exact hdef) (by rw [hsel1 p hp])
        (by rw [← hv]; exact v1)
      rw [← hv] at this
      exact ⟨v, this, v2, ⟨q', e', a1, a2, g.same.trans a3, a4⟩,
        fun r x hr hx hs => v4 r x hr hx (g.same.symm.trans hs)⟩
  · have hsh : (G0 p).status e = .shared :=
      (A.shared hp he).2 ⟨Decidable.by_contra fun h => hg ((A.ghost hp he).2 h),
        fun h => hst ((A.owned hp he).2 h)⟩
    obtain ⟨v, v1, v2, v3, v4⟩ := own p hp e he ht hsh
    refine ⟨v, ?_, v2, v3, v4⟩
    rw [y.2 fun q f g => ?_]
    · exact v1
    · have := g.ghost
      rw [s1.status p hp] at this
      exact absurd this hg

end Verif.Parallel
