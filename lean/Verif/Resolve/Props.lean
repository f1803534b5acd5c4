import Verif.Resolve.Numbers
import Verif.Topology.Build

/-!
# Properties of ResolveShared (C84)
-/

namespace Verif.Resolve

open Verif.Topology (El Topo)

variable {K : Type} [CommRing K] [LinearOrder K] [IsStrictOrderedRing K]

theorem run_known {n : Nat} {eps big : K} {dim : Nat} {P : Nat → Part K} {key : Nat → El → Int} {order : Nat → List Nat}
    {pr : Nat → El → List Nat} {gid : Nat → El → Int} (H : ∀ p, p < n → PartOk (P p)) (W : Tolerance n eps dim P)
    (D : Distinct n eps P) (hk : Keys n eps P key) (R : Run n eps big dim P key order pr gid) :
    ∀ t, t ≤ 3 → Known n eps P t pr gid
  | 0, _ => by
    have I : ∀ p, p < n → Topology.Inv (P p).T fun _ => False := fun p hp => (H p hp).inv
    have hl : ∀ p, p < n → ∀ e, Has P p 0 e → Listed n eps P p 0 e (pr p e) := by
      intro p hp e he
      rw [R.nodes p hp e ((has_els I hp).2 he)]
      exact nodeProcs_listed I W (fun q hq => D.unique q hq 0 (by omega)) hp (R.arrive p hp) he
    obtain ⟨G', g1, g2⟩ := R.numbers 0 (by omega)
    exact ⟨hl, gid_same I W D (by omega) hk hl g1 g2⟩
  | t + 1, ht => by
    have I : ∀ p, p < n → Topology.Inv (P p).T fun _ => False := fun p hp => (H p hp).inv
    have ih := run_known H W D hk R t (by omega)
    have hl : ∀ p, p < n → ∀ e, Has P p (t + 1) e → Listed n eps P p (t + 1) e (pr p e) := by
      intro p hp e he
      obtain ⟨s, s1, s2⟩ := R.upper t (by omega) p hp
      obtain ⟨s', s1', s2'⟩ := stage_listed H W D (by omega) ih hp
      rw [s1] at s1'
      injection s1' with h
      rw [s2 e ((has_els I hp).2 he), h]
      exact s2' e he
    obtain ⟨G', g1, g2⟩ := R.numbers (t + 1) ht
    exact ⟨hl, gid_same I W D ht hk hl g1 g2⟩

/-- C84: after ResolveShared every node, edge, face and cell lists, in increasing order, exactly the processors
that have the same element. -/
theorem C84_processors (n : Nat) (eps big : K) (dim : Nat) (P : Nat → Part K) (key : Nat → El → Int)
    (order : Nat → List Nat) (pr : Nat → El → List Nat) (gid : Nat → El → Int) (H : ∀ p, p < n → PartOk (P p))
    (W : Tolerance n eps dim P) (D : Distinct n eps P) (hk : Keys n eps P key)
    (R : Run n eps big dim P key order pr gid) (p : Nat) (hp : p < n) (t : Nat) (ht : t ≤ 3) (e : El) (he : Has P p t e) :
    (pr p e).Pairwise (· < ·) ∧
      ∀ q, q ∈ pr p e ↔ q < n ∧ ∃ e', Has P q t e' ∧ Same eps P t p e q e' :=
  let h := (run_known H W D hk R t ht).listed p hp e he
  ⟨h.sorted, h.mem⟩

/-- C84: the owner of an element is the least processor that has it (before EquilibrateGhost); the element is a ghost
on the other processors, and on the owner it is owned or shared according to whether there are others. -/
theorem C84_owner (n : Nat) (eps big : K) (dim : Nat) (P : Nat → Part K) (key : Nat → El → Int)
    (order : Nat → List Nat) (pr : Nat → El → List Nat) (gid : Nat → El → Int) (H : ∀ p, p < n → PartOk (P p))
    (W : Tolerance n eps dim P) (D : Distinct n eps P) (hk : Keys n eps P key)
    (R : Run n eps big dim P key order pr gid) (p : Nat) (hp : p < n) (t : Nat) (ht : t ≤ 3) (e : El) (he : Has P p t e) :
    (ownerOf p (pr p e) < n ∧ ∃ e', Has P (ownerOf p (pr p e)) t e' ∧ Same eps P t p e (ownerOf p (pr p e)) e') ∧
    (∀ q e', q < n → Has P q t e' → Same eps P t p e q e' → ownerOf p (pr p e) ≤ q) ∧
    (statusOf p (pr p e) = .ghost ↔ ∃ q e', q < p ∧ Has P q t e' ∧ Same eps P t p e q e') ∧
    (statusOf p (pr p e) = .owned ↔ ∀ q e', q < n → Has P q t e' → Same eps P t p e q e' → q = p) ∧
    (statusOf p (pr p e) = .shared ↔ (∀ q e', q < p → Has P q t e' → ¬ Same eps P t p e q e') ∧
      ∃ q e', p < q ∧ q < n ∧ Has P q t e' ∧ Same eps P t p e q e') := by
  have h := (run_known H W D hk R t ht).listed p hp e he
  have hself := self_mem W.pos.le hp he h
  obtain ⟨o1, o2⟩ := owner_least h.sorted hself
  have hin : ∀ q e', q < n → Has P q t e' → Same eps P t p e q e' → q ∈ pr p e :=
    fun q e' hq he' hs => (h.mem q).2 ⟨hq, e', he', hs⟩
  have hghost : statusOf p (pr p e) = .ghost ↔ ∃ q e', q < p ∧ Has P q t e' ∧ Same eps P t p e q e' := by
    rw [status_ghost]
    constructor
    · intro hne
      obtain ⟨_, e', he', hs⟩ := (h.mem _).1 o1
      exact ⟨_, e', Nat.lt_of_le_of_ne (o2 p hself) (Ne.symm hne), he', hs⟩
    · rintro ⟨q, e', hq, he', hs⟩ heq
      have := o2 q (hin q e' (by omega) he' hs)
      omega
  have hshared : statusOf p (pr p e) = .shared ↔ (∀ q e', q < p → Has P q t e' → ¬ Same eps P t p e q e') ∧
      ∃ q e', p < q ∧ q < n ∧ Has P q t e' ∧ Same eps P t p e q e' := by
    rw [status_shared]
    constructor
    · rintro ⟨h1, h2⟩
      refine ⟨fun q e' hq he' hs => ?_, ?_⟩
      · have := o2 q (hin q e' (by omega) he' hs); omega
      · have : ∃ q, q ∈ pr p e ∧ q ≠ p := by
          by_contra hc
          apply h2
          have hall : ∀ q, q ∈ pr p e → q = p := fun q hq => by
            by_contra hqp
            exact hc ⟨q, hq, hqp⟩
          have hnd : (pr p e).Nodup := h.sorted.imp Nat.ne_of_lt
          have := (List.perm_ext_iff_of_nodup hnd (List.nodup_singleton p)).2 fun x => by
            rw [List.mem_singleton]
            exact ⟨hall x, fun hx => hx ▸ hself⟩
          simpa using this.length_eq
        obtain ⟨q, hq, hne⟩ := this
        obtain ⟨hqn, e', he', hs⟩ := (h.mem q).1 hq
        have := o2 q hq
        exact ⟨q, e', by omega, hqn, he', hs⟩
    · rintro ⟨h1, q, e', hpq, hq, he', hs⟩
      constructor
      · by_contra hne
        obtain ⟨_, x, hx, hs'⟩ := (h.mem _).1 o1
        exact h1 _ x (Nat.lt_of_le_of_ne (o2 p hself) (Ne.symm hne)) hx hs'
      · exact two_of_mem hself (hin q e' hq he' hs) (by omega)
  refine ⟨(h.mem _).1 o1, fun q e' hq he' hs => o2 q (hin q e' hq he' hs), hghost, ?_, hshared⟩
  constructor
  · intro hst q e' hq he' hs
    by_contra hne
    rcases Nat.lt_or_gt_of_ne hne with h1 | h1
    · have := hghost.2 ⟨q, e', h1, he', hs⟩
      rw [hst] at this; cases this
    · by_cases h2 : ∃ q e', q < p ∧ Has P q t e' ∧ Same eps P t p e q e'
      · have := hghost.2 h2
        rw [hst] at this; cases this
      · have := hshared.2 ⟨fun q e' h3 h4 h5 => h2 ⟨q, e', h3, h4, h5⟩, q, e', h1, hq, he', hs⟩
        rw [hst] at this; cases this
  · intro hall
    have h1 : statusOf p (pr p e) ≠ .ghost := fun hg => by
      obtain ⟨q, e', hq, he', hs⟩ := hghost.1 hg
      have := hall q e' (by omega) he' hs
      omega
    have h2 : statusOf p (pr p e) ≠ .shared := fun hg => by
      obtain ⟨_, q, e', hpq, hq, he', hs⟩ := hshared.1 hg
      have := hall q e' hq he' hs
      omega
    unfold statusOf at h1 h2 ⊢
    split
    · rename_i ho
      rw [if_pos ho] at h2
      split
      · rfl
      · rename_i hl
        rw [if_neg hl] at h2
        exact absurd rfl h2
    · rename_i ho
      rw [if_neg ho] at h1
      exact absurd rfl h1

/-- C84: global numbers are equal exactly for copies of one element. -/
theorem C84_numbers (n : Nat) (eps big : K) (dim : Nat) (P : Nat → Part K) (key : Nat → El → Int)
    (order : Nat → List Nat) (pr : Nat → El → List Nat) (gid : Nat → El → Int) (H : ∀ p, p < n → PartOk (P p))
    (W : Tolerance n eps dim P) (D : Distinct n eps P) (hk : Keys n eps P key)
    (R : Run n eps big dim P key order pr gid) (p q : Nat) (hp : p < n) (hq : q < n) (t : Nat) (ht : t ≤ 3) (e e' : El)
    (he : Has P p t e) (he' : Has P q t e') : gid p e = gid q e' ↔ Same eps P t p e q e' :=
  (run_known H W D hk R t ht).gid p q hp hq e e' he he'

/-- C84: the mesh is then distributed in the sense of C60-C65: ghosts have owners that list them, and every
processor listed at a shared element has a ghost. -/
theorem C84_distributed (n : Nat) (eps big : K) (dim : Nat) (P : Nat → Part K) (key : Nat → El → Int)
    (order : Nat → List Nat) (pr : Nat → El → List Nat) (gid : Nat → El → Int) (H : ∀ p, p < n → PartOk (P p))
    (W : Tolerance n eps dim P) (D : Distinct n eps P) (hk : Keys n eps P key)
    (R : Run n eps big dim P key order pr gid) :
    Parallel.Distributed n (localOf P gid pr [0, 1, 2, 3]) := by
  have h3 : ∀ t, t ∈ [0, 1, 2, 3] → t ≤ 3 := by decide
  exact distributed_localOf (fun p hp => (H p hp).inv) W D (by decide) h3
    (fun p q hp hq t ht => (run_known H W D hk R t (h3 t ht)).gid p q hp hq)
    (fun p hp t ht => (run_known H W D hk R t (h3 t ht)).listed p hp)

/-- C84: the lists of processors do not depend on the order in which messages arrive, nor on the exchanges of
global numbers. -/
theorem C84_schedule (n : Nat) (eps big big' : K) (dim : Nat) (P : Nat → Part K) (key : Nat → El → Int)
    (order order' : Nat → List Nat) (pr pr' : Nat → El → List Nat) (gid gid' : Nat → El → Int)
    (H : ∀ p, p < n → PartOk (P p)) (W : Tolerance n eps dim P) (D : Distinct n eps P) (hk : Keys n eps P key)
    (R : Run n eps big dim P key order pr gid) (R' : Run n eps big' dim P key order' pr' gid') (p : Nat) (hp : p < n)
    (t : Nat) (ht : t ≤ 3) (e : El) (he : Has P p t e) : pr p e = pr' p e :=
  listed_unique ((run_known H W D hk R t ht).listed p hp e he) ((run_known H W D hk R' t ht).listed p hp e he)

/-- C84: for every order of arrival ResolveShared has an execution that ends: no exception, no access beyond a
message, no processor waits for a message that is not sent. -/
theorem C84_terminates (n : Nat) (eps big : K) (dim : Nat) (P : Nat → Part K) (key : Nat → El → Int)
    (order : Nat → List Nat) (H : ∀ p, p < n → PartOk (P p))
    (W : Tolerance n eps dim P) (D : Distinct n eps P) (hk : Keys n eps P key)
    (ho : ∀ p, p < n → (order p).Perm (neigh n eps big dim P p)) :
    ∃ pr gid, Run n eps big dim P key order pr gid := by
  classical
  have I : ∀ p, p < n → Topology.Inv (P p).T fun _ => False := fun p hp => (H p hp).inv
  let pr : Nat → El → List Nat := fun p e =>
    (List.range n).filter fun q => decide (∃ e', Has P q e.ty e' ∧ Same eps P e.ty p e q e')
  have hl : ∀ p, p < n → ∀ t e, Has P p t e → Listed n eps P p t e (pr p e) := by
    rintro p hp t e ⟨rfl, he⟩
    constructor
    · exact List.pairwise_lt_range.sublist List.filter_sublist
    · intro q
      simp only [pr, List.mem_filter, List.mem_range, decide_eq_true_eq]
  have hG : ∀ t, ∃ G', t ≤ 3 → Parallel.AssignGlobalID n 0 (fun i => i == t) (localOf P key pr [t]) G' := by
    intro t
    by_cases ht : t ≤ 3
    swap
    · exact ⟨fun _ => ⟨[], fun _ => .any, fun _ => 0, fun _ => [], fun _ => 0, fun _ => true, fun _ _ => none⟩,
        fun h => absurd h ht⟩
    have Dm : Parallel.Distributed n (localOf P key pr [t]) :=
      distributed_localOf I W D (List.nodup_singleton t)
        (fun s hs => by rw [List.mem_singleton] at hs; subst hs; exact ht)
        (fun p q hp hq s hs => by rw [List.mem_singleton] at hs; subst hs; exact hk p q hp hq s ht)
        (fun p hp s hs => by rw [List.mem_singleton] at hs; subst hs; exact hl p hp s)
    obtain ⟨⟨G', h⟩, -⟩ := Parallel.C64_terminates n 0 (fun i => i == t) _ Dm (sized_localOf _)
    exact ⟨G', fun _ => h⟩
  choose G' hG' using hG
  let gid : Nat → El → Int := fun p e => Parallel.gidOf ((G' e.ty p).data 0 (toP e))
  have hnum : ∀ t, t ≤ 3 → ∀ p, p < n → ∀ e, e ∈ (P p).els t → (G' t p).data 0 (toP e) = some [gid p e] := by
    intro t ht p hp e he
    have he' := (has_els I hp).1 he
    have Dm : Parallel.Distributed n (localOf P key pr [t]) :=
      distributed_localOf I W D (List.nodup_singleton t)
        (fun s hs => by rw [List.mem_singleton] at hs; subst hs; exact ht)
        (fun p q hp hq s hs => by rw [List.mem_singleton] at hs; subst hs; exact hk p q hp hq s ht)
        (fun p hp s hs => by rw [List.mem_singleton] at hs; subst hs; exact hl p hp s)
    have hmem : toP e ∈ (localOf P key pr [t] p).elems :=
      (mem_localOf I hp).2 ⟨by show e.ty ∈ [t]; rw [he'.1]; simp, rfl, he'.2⟩
    have : ∃ i, (G' t p).data 0 (toP e) = some [i] := by
      by_cases hg : (localOf P key pr [t] p).status (toP e) = .ghost
      · obtain ⟨hq, e0, g⟩ := Dm.owner p hp (toP e) hmem hg
        exact (Parallel.C64_copies n 0 (fun i => i == t) _ (G' t) Dm (sized_localOf _) (hG' t ht) p _ hp (toP e) e0 g
          (by show (e.ty == t) = true; rw [he'.1]; simp)).2
      · obtain ⟨i, h, -⟩ := (Parallel.C64_exact n 0 (fun i => i == t) _ (G' t) Dm (sized_localOf _) (hG' t ht) t
          (by simp)).range p (toP e) hp ⟨hmem, he'.1, hg⟩
        exact ⟨i, h⟩
    obtain ⟨i, hi⟩ := this
    have hty : e.ty = t := he'.1
    show _ = some [Parallel.gidOf ((G' e.ty p).data 0 (toP e))]
    rw [hty, hi]
    rfl
  have known : ∀ t, t ≤ 3 → Known n eps P t pr gid := fun t ht =>
    ⟨fun p hp e he => hl p hp t e he, gid_same I W D ht hk (fun p hp e he => hl p hp t e he) (hG' t ht) (hnum t ht)⟩
  refine ⟨pr, gid, ho, fun p hp e he => ?_, fun t ht p hp => ?_, fun t ht => ⟨G' t, hG' t ht, hnum t ht⟩⟩
  · have he := (has_els I hp).1 he
    exact listed_unique (hl p hp 0 e he)
      (nodeProcs_listed I W (fun q hq => D.unique q hq 0 (by omega)) hp (ho p hp) he)
  · obtain ⟨s, s1, s2⟩ := stage_listed H W D ht (known t (by omega)) hp
    refine ⟨s, s1, fun e he => ?_⟩
    have he := (has_els I hp).1 he
    exact listed_unique (hl p hp (t + 1) e he) (s2 e he)

/-! ## Examples and counterexamples -/

instance decSame (eps : Int) (P : Nat → Part Int) : ∀ (t p : Nat) (e : El) (q : Nat) (e' : El),
    Decidable (Same eps P t p e q e')
  | 0, p, e, q, e' => inferInstanceAs (Decidable (List.Forall₂ _ _ _))
  | t + 1, p, e, q, e' =>
    have := decSame eps P t
    inferInstanceAs (Decidable ((∀ x, x ∈ (P p).T.low e → ∃ y, y ∈ (P q).T.low e' ∧ Same eps P t p x q y) ∧
      ∀ y, y ∈ (P q).T.low e' → ∃ x, x ∈ (P p).T.low e ∧ Same eps P t p x q y))

/-- Triangle with nodes `0, 1, 2`. -/
def triangle : Topo :=
  (Topology.build (Topo.init true) [(0, 0, [], []), (0, 1, [], []), (0, 2, [], []),
    (1, 0, [⟨0, 0⟩, ⟨0, 1⟩], []), (1, 1, [⟨0, 1⟩, ⟨0, 2⟩], []), (1, 2, [⟨0, 2⟩, ⟨0, 0⟩], []),
    (2, 0, [⟨1, 0⟩, ⟨1, 1⟩, ⟨1, 2⟩], [])]).get (by decide +kernel)

/-- Two triangles on two processors with a common edge; on the second processor the nodes and edges have
other numbers, and the nodes are a little off. -/
def pair : Nat → Part Int
  | 0 => ⟨triangle, fun e => [[0, 0], [100, 0], [0, 100]].getD e.id []⟩
  | _ => ⟨triangle, fun e => [[100, 100], [1, 99], [99, -1]].getD e.id []⟩

theorem triangle_reach : Topology.Reach true triangle :=
  Topology.build_reach _ _ _ .init (Topology.getEq _)

theorem triangle_ok (c : El → List Int) : PartOk (⟨triangle, c⟩ : Part Int) where
  reach := ⟨true, triangle_reach⟩
  shown e := by
    have : triangle.hide = false := by decide +kernel
    show (triangle.hide && triangle.hidden e) = false
    rw [this]; rfl
  filled e he h := by
    have I := (Topology.reach_inv triangle_reach).1
    have h1 := I.lastLt e he
    have h2 := I.tyLe e he
    have hall : ∀ t, t < 4 → ∀ i, i < triangle.last t → triangle.alive ⟨t, i⟩ = true → 0 < t →
        triangle.low ⟨t, i⟩ ≠ [] := by decide +kernel
    exact hall e.ty (by omega) e.id h1 he h

theorem pair_ok : ∀ p, p < 2 → PartOk (pair p)
  | 0, _ => triangle_ok _
  | 1, _ => triangle_ok _

/-- A check of the tolerance on lists of elements. -/
theorem tolerance_of {n : Nat} {eps : Int} {dim : Nat} {P : Nat → Part Int} (H : ∀ p, p < n → PartOk (P p))
    (h0 : 0 < eps) (h1 : ∀ p, p < n → ∀ e, e ∈ (P p).els 0 → ((P p).coord e).length = dim)
    (h2 : ∀ p, p < n → ∀ e, e ∈ (P p).els 0 → ∀ q, q < n → ∀ e', e' ∈ (P q).els 0 → ∀ i, i < dim →
      |((P p).coord e).getD i 0 - ((P q).coord e').getD i 0| ≠ eps)
    (h3 : ∀ p, p < n → ∀ e, e ∈ (P p).els 0 → ∀ q, q < n → ∀ e', e' ∈ (P q).els 0 →
      ∀ r, r < n → ∀ e'', e'' ∈ (P r).els 0 → ∀ i, i < dim →
      |((P p).coord e).getD i 0 - ((P q).coord e').getD i 0| ≤ eps →
      |((P q).coord e').getD i 0 - ((P r).coord e'').getD i 0| ≤ eps →
      |((P p).coord e).getD i 0 - ((P r).coord e'').getD i 0| ≤ eps) : Tolerance n eps dim P := by
  have I : ∀ p, p < n → Topology.Inv (P p).T fun _ => False := fun p hp => (H p hp).inv
  have hi : ∀ p, p < n → ∀ e, Has P p 0 e → ∀ (i : Nat) (x : Int), ((P p).coord e)[i]? = some x →
      i < dim ∧ ((P p).coord e).getD i 0 = x := by
    intro p hp e he i x hx
    rw [← h1 p hp e ((has_els I hp).2 he)]
    refine ⟨(List.getElem?_eq_some_iff.1 hx).1, ?_⟩
    rw [List.getD_eq_getElem?_getD, hx]; rfl
  refine ⟨h0, fun p hp e he => h1 p hp e ((has_els I hp).2 he), ?_, ?_⟩
  · intro p q hp hq e e' he he' i x y hx hy
    obtain ⟨hid, rfl⟩ := hi p hp e he i x hx
    obtain ⟨_, rfl⟩ := hi q hq e' he' i y hy
    exact h2 p hp e ((has_els I hp).2 he) q hq e' ((has_els I hq).2 he') i hid
  · intro p q r hp hq hr e e' e'' he he' he'' i x y z hx hy hz
    obtain ⟨hid, rfl⟩ := hi p hp e he i x hx
    obtain ⟨_, rfl⟩ := hi q hq e' he' i y hy
    obtain ⟨_, rfl⟩ := hi r hr e'' he'' i z hz
    exact h3 p hp e ((has_els I hp).2 he) q hq e' ((has_els I hq).2 he') r hr e'' ((has_els I hr).2 he'') i hid

set_option synthInstance.maxSize 1000 in
set_option synthInstance.maxHeartbeats 400000 in
theorem pair_tolerance : Tolerance 2 5 2 pair :=
  tolerance_of pair_ok (by decide) (by decide +kernel) (by decide +kernel) (by decide +kernel)

/-- A check on lists of elements. -/
theorem distinct_of {n : Nat} {eps : Int} {P : Nat → Part Int} (H : ∀ p, p < n → PartOk (P p))
    (h1 : ∀ p, p < n → ∀ t, t < 4 → ∀ e, e ∈ (P p).els t → ∀ e', e' ∈ (P p).els t → Same eps P t p e p e' → e = e')
    (h2 : ∀ p, p < n → ∀ q, q < n → ∀ t, t < 3 → ∀ e, e ∈ (P p).els (t + 1) → ∀ e', e' ∈ (P q).els (t + 1) →
      (∀ y, y ∈ (P q).T.low e' → ∃ x, x ∈ (P p).T.low e ∧ Same eps P t p x q y) → Same eps P (t + 1) p e q e') :
    Distinct n eps P := by
  have I : ∀ p, p < n → Topology.Inv (P p).T fun _ => False := fun p hp => (H p hp).inv
  exact ⟨fun p hp t ht e e' he he' => h1 p hp t (by omega) e ((has_els I hp).2 he) e' ((has_els I hp).2 he'),
    fun p q hp hq t ht e e' he he' => h2 p hp q hq t ht e ((has_els I hp).2 he) e' ((has_els I hq).2 he')⟩

theorem pair_distinct : Distinct 2 5 pair :=
  distinct_of pair_ok (by decide +kernel) (by decide +kernel)

/-- Numbers that tell the elements of `pair` apart. -/
def pairKey : Nat → El → Int
  | 0, e => e.id
  | _, e => if e.ty = 0 then [7, 2, 1].getD e.id 0 else if e.ty = 1 then [5, 1, 6].getD e.id 0 else 1

theorem pair_keys : Keys 2 5 pair pairKey := by
  have I : ∀ p, p < 2 → Topology.Inv (pair p).T fun _ => False := fun p hp => (pair_ok p hp).inv
  have h : ∀ p, p < 2 → ∀ q, q < 2 → ∀ t, t < 4 → ∀ e, e ∈ (pair p).els t → ∀ e', e' ∈ (pair q).els t →
      (pairKey p e = pairKey q e' ↔ Same 5 pair t p e q e') := by decide +kernel
  exact fun p q hp hq t ht e e' he he' =>
    h p hp q hq t (by omega) e ((has_els I hp).2 he) e' ((has_els I hq).2 he')

/-- The hypotheses of C84 are met, and the common edge and its nodes are found. -/
example : ∃ pr gid, Run 2 5 1000 2 pair pairKey (fun p => [1 - p]) pr gid ∧
    pr 0 ⟨1, 1⟩ = [0, 1] ∧ pr 1 ⟨1, 1⟩ = [0, 1] ∧ pr 0 ⟨1, 0⟩ = [0] ∧ pr 1 ⟨0, 2⟩ = [0, 1] ∧ pr 1 ⟨2, 0⟩ = [1] ∧
    gid 0 ⟨1, 1⟩ = gid 1 ⟨1, 1⟩ := by
  obtain ⟨pr, gid, R⟩ := C84_terminates 2 5 1000 2 pair pairKey (fun p => [1 - p]) pair_ok pair_tolerance pair_distinct
    pair_keys (by
      have : ∀ p, p < 2 → [1 - p] = neigh 2 5 1000 2 pair p := by decide +kernel
      intro p hp
      rw [← this p hp])
  have h := fun p hp t ht e he => (run_known pair_ok pair_tolerance pair_distinct pair_keys R t ht).listed p hp e he
  have hl : ∀ p, p < 2 → ∀ t, t ≤ 3 → ∀ e l, Has pair p t e → Listed 2 5 pair p t e l → pr p e = l :=
    fun p hp t ht e l he hl => listed_unique (h p hp t ht e he) hl
  have I : ∀ p, p < 2 → Topology.Inv (pair p).T fun _ => False := fun p hp => (pair_ok p hp).inv
  have mk : ∀ p t e l, l.Pairwise (· < ·) → (∀ q, q ∈ l → q < 2 ∧ ∃ e', e' ∈ (pair q).els t ∧ Same 5 pair t p e q e') →
      (∀ q, q < 2 → q ∉ l → ∀ e', e' ∈ (pair q).els t → ¬ Same 5 pair t p e q e') → Listed 2 5 pair p t e l := by
    intro p t e l h1 h2 h3
    refine ⟨h1, fun q => ⟨fun hq => ?_, ?_⟩⟩
    · obtain ⟨h4, e', h5, h6⟩ := h2 q hq
      exact ⟨h4, e', (has_els I h4).1 h5, h6⟩
    · rintro ⟨hq, e', h4, h5⟩
      by_contra hc
      exact h3 q hq hc e' ((has_els I hq).2 h4) h5
  have has : ∀ p, p < 2 → ∀ t, t < 3 → ∀ i, i < 3 → (pair p).T.alive ⟨t, i⟩ = true → Has pair p t ⟨t, i⟩ :=
    fun p _ t _ i _ h => ⟨rfl, h⟩
  refine ⟨pr, gid, R, ?_, ?_, ?_, ?_, ?_, ?_⟩
  · exact hl 0 (by omega) 1 (by omega) _ _ ⟨rfl, by decide +kernel⟩ (mk _ _ _ _ (by decide) (by decide +kernel) (by decide +kernel))
  · exact hl 1 (by omega) 1 (by omega) _ _ ⟨rfl, by decide +kernel⟩ (mk _ _ _ _ (by decide) (by decide +kernel) (by decide +kernel))
  · exact hl 0 (by omega) 1 (by omega) _ _ ⟨rfl, by decide +kernel⟩ (mk _ _ _ _ (by decide) (by decide +kernel) (by decide +kernel))
  · exact hl 1 (by omega) 0 (by omega) _ _ ⟨rfl, by decide +kernel⟩ (mk _ _ _ _ (by decide) (by decide +kernel) (by decide +kernel))
  · exact hl 1 (by omega) 2 (by omega) _ _ ⟨rfl, by decide +kernel⟩ (mk _ _ _ _ (by decide) (by decide +kernel) (by decide +kernel))
  · exact (C84_numbers 2 5 1000 2 pair pairKey _ pr gid pair_ok pair_tolerance pair_distinct pair_keys R 0 1 (by omega)
      (by omega) 1 (by omega) ⟨1, 1⟩ ⟨1, 1⟩ ⟨rfl, by decide +kernel⟩ ⟨rfl, by decide +kernel⟩).2 (by decide +kernel)

/-- One node. -/
def point : Topo := (Topology.build (Topo.init true) [(0, 0, [], [])]).get (by decide +kernel)

/-- C84 without the condition on the tolerance: nodes exactly `eps` apart are equal for the comparison of coordinates,
but are not found, because the test of the bounding box is strict. -/
theorem C84_boundary_fails : ∃ P : Nat → Part Int, Near 5 ((P 0).coord ⟨0, 0⟩) ((P 1).coord ⟨0, 0⟩) ∧
    nodeProcs 2 5 1000 1 P (neigh 2 5 1000 1 P 0) 0 ⟨0, 0⟩ = [0] ∧
    nodeProcs 2 5 1000 1 P (neigh 2 5 1000 1 P 1) 1 ⟨0, 0⟩ = [1] :=
  ⟨fun p => ⟨point, fun _ => [5 * p]⟩, by unfold Near; decide +kernel, by decide +kernel, by decide +kernel⟩

/-- C84 without the condition that being close is transitive: three nodes in a row on three processors.  The node
of processor 2 is a ghost owned by processor 1, where it is a ghost too. -/
theorem C84_chain_fails : ∃ P : Nat → Part Int,
    let pr := fun p => nodeProcs 3 5 1000 1 P (neigh 3 5 1000 1 P p) p ⟨0, 0⟩
    pr 0 = [0, 1] ∧ pr 1 = [0, 1, 2] ∧ pr 2 = [1, 2] ∧ statusOf 2 (pr 2) = .ghost ∧ ownerOf 2 (pr 2) = 1 ∧
      statusOf 1 (pr 1) = .ghost :=
  ⟨fun p => ⟨point, fun _ => [4 * p]⟩, by decide +kernel⟩

/-- A triangle whose face consists of two of its edges. -/
def open3 : Topo :=
  (Topology.build (Topo.init true) [(0, 0, [], []), (0, 1, [], []), (0, 2, [], []),
    (1, 0, [⟨0, 0⟩, ⟨0, 1⟩], []), (1, 1, [⟨0, 1⟩, ⟨0, 2⟩], []), (1, 2, [⟨0, 2⟩, ⟨0, 0⟩], []),
    (2, 0, [⟨1, 0⟩, ⟨1, 1⟩], [])]).get (by decide +kernel)

/-- C84 without the condition that no element is a part of another: a face of processor 1 consists of two of the
three edges of a face of processor 0.  Processor 0 takes the faces for the same, processor 1 does not. -/
theorem C84_part_fails : ∃ (P : Nat → Part Int) (gid : Nat → El → Int) (pr : Nat → El → List Nat),
    (∀ p, p < 2 → PartOk (P p)) ∧ Known 2 5 P 1 pr gid ∧ ¬ Same 5 P 2 0 ⟨2, 0⟩ 1 ⟨2, 0⟩ ∧
    ((stage 2 P 1 gid pr 0).map fun s => s ⟨2, 0⟩) = some [0, 1] ∧
    ((stage 2 P 1 gid pr 1).map fun s => s ⟨2, 0⟩) = some [1] := by
  let P : Nat → Part Int := fun p => ⟨if p = 0 then triangle else open3, fun e =>
    [[0, 0], [100, 0], [0, 100]].getD e.id []⟩
  have r1 : ∃ cn, Topology.Reach cn open3 := ⟨true, Topology.build_reach _ _ _ (.init) (Topology.getEq _)⟩
  have I1 : Topology.Inv open3 fun _ => False := (Topology.reach_inv r1.choose_spec).1
  have hok : ∀ p, p < 2 → PartOk (P p)
    | 0, _ => triangle_ok _
    | 1, _ => {
      reach := r1
      shown := fun e => by
        have : open3.hide = false := by decide +kernel
        show (open3.hide && open3.hidden e) = false
        rw [this]; rfl
      filled := fun e he h => by
        have h1 := I1.lastLt e he
        have h2 := I1.tyLe e he
        have hall : ∀ t, t < 4 → ∀ i, i < open3.last t → open3.alive ⟨t, i⟩ = true → 0 < t →
            open3.low ⟨t, i⟩ ≠ [] := by decide +kernel
        exact hall e.ty (by omega) e.id h1 he h }
  have I : ∀ p, p < 2 → Topology.Inv (P p).T fun _ => False := fun p hp => (hok p hp).inv
  refine ⟨P, fun _ e => e.id, fun _ _ => [0, 1], hok, ⟨fun p hp e he => ⟨by decide, fun q => ?_⟩, ?_⟩, ?_, ?_, ?_⟩
  · have h : ∀ p, p < 2 → ∀ e, e ∈ (P p).els 1 → ∀ q, q < 2 → ∃ e', e' ∈ (P q).els 1 ∧ Same 5 P 1 p e q e' := by
      decide +kernel
    constructor
    · intro hq
      have hq : q < 2 := by simp at hq; omega
      obtain ⟨e', h1, h2⟩ := h p hp e ((has_els I hp).2 he) q hq
      exact ⟨hq, e', (has_els I hq).1 h1, h2⟩
    · rintro ⟨hq, -⟩
      simp; omega
  · have h : ∀ p, p < 2 → ∀ q, q < 2 → ∀ e, e ∈ (P p).els 1 → ∀ e', e' ∈ (P q).els 1 →
        (((e.id : Nat) : Int) = ((e'.id : Nat) : Int) ↔ Same 5 P 1 p e q e') := by decide +kernel
    exact fun p q hp hq e e' he he' => h p hp q hq e ((has_els I hp).2 he) e' ((has_els I hq).2 he')
  · decide +kernel
  · decide +kernel
  · decide +kernel

end Verif.Resolve
