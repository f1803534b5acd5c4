import Verif.Resolve.UpperStage
import Verif.Parallel.EnumProps

/-!
# Global numbers between the stages
-/

namespace Verif.Resolve

open Verif.Topology (El Topo)

variable {K : Type} [CommRing K] [LinearOrder K] [IsStrictOrderedRing K]
variable {n : Nat} {eps big : K} {dim : Nat} {P : Nat → Part K}

theorem ofP_toP (e : El) : ofP (toP e) = e := rfl

theorem toP_ofP (e : Parallel.El) : toP (ofP e) = e := rfl

omit [CommRing K] [LinearOrder K] [IsStrictOrderedRing K] in
theorem mem_localOf (I : ∀ p, p < n → Topology.Inv (P p).T fun _ => False) {key : Nat → El → Int}
    {pr : Nat → El → List Nat} {ts : List Nat} {p : Nat} (hp : p < n) {e : Parallel.El} :
    e ∈ (localOf P key pr ts p).elems ↔ e.ty ∈ ts ∧ Has P p e.ty (ofP e) := by
  show e ∈ (ts.flatMap (P p).els).map toP ↔ _
  rw [List.mem_map]
  constructor
  · rintro ⟨x, hx, rfl⟩
    obtain ⟨t, ht, hx⟩ := List.mem_flatMap.1 hx
    have := (has_els I hp).1 hx
    have h1 : (toP x).ty = t := this.1
    rw [h1]
    exact ⟨ht, this⟩
  · rintro ⟨h1, h2⟩
    exact ⟨ofP e, List.mem_flatMap.2 ⟨e.ty, h1, (has_els I hp).2 h2⟩, rfl⟩

/-- The owner is the least processor of the list. -/
theorem owner_least {l : List Nat} (hs : l.Pairwise (· < ·)) {p : Nat} (hp : p ∈ l) :
    ownerOf p l ∈ l ∧ ∀ q, q ∈ l → ownerOf p l ≤ q := by
  cases l with
  | nil => cases hp
  | cons a l =>
    obtain ⟨h1, _⟩ := List.pairwise_cons.1 hs
    have hle : ∀ q, q ∈ a :: l → a ≤ q := by
      intro q hq
      rcases List.mem_cons.1 hq with rfl | hq
      · exact Nat.le_refl _
      · exact Nat.le_of_lt (h1 q hq)
    have : ownerOf p (a :: l) = a := Nat.min_eq_right (hle p hp)
    rw [this]
    exact ⟨List.mem_cons_self, hle⟩

theorem status_ghost {l : List Nat} {p : Nat} : statusOf p l = .ghost ↔ p ≠ ownerOf p l := by
  unfold statusOf
  split
  · rename_i h
    refine ⟨fun h' => ?_, fun h' => absurd h h'⟩
    split at h' <;> cases h'
  · rename_i h
    exact ⟨fun _ => h, fun _ => rfl⟩

theorem status_shared {l : List Nat} {p : Nat} : statusOf p l = .shared ↔ p = ownerOf p l ∧ l.length ≠ 1 := by
  unfold statusOf
  split
  · rename_i h
    split
    · rename_i h1
      exact ⟨fun h' => (by cases h'), fun h' => absurd h1 h'.2⟩
    · rename_i h1
      exact ⟨fun _ => ⟨h, h1⟩, fun _ => rfl⟩
  · rename_i h
    exact ⟨fun h' => (by cases h'), fun h' => absurd h'.1 h⟩

theorem two_of_mem {l : List Nat} {p q : Nat} (hp : p ∈ l) (hq : q ∈ l) (hne : q ≠ p) : l.length ≠ 1 := by
  intro h
  obtain ⟨a, rfl⟩ := List.length_eq_one_iff.1 h
  rw [List.mem_singleton] at hp hq
  exact hne (hq.trans hp.symm)

/-- Lists are the same on all copies. -/
theorem listed_same (I : ∀ p, p < n → Topology.Inv (P p).T fun _ => False) (W : Tolerance n eps dim P) {p q t : Nat}
    (hp : p < n) (hq : q < n) {e e' : El} {l l' : List Nat} (he : Has P p t e) (he' : Has P q t e')
    (hs : Same eps P t p e q e') (h : Listed n eps P p t e l) (h' : Listed n eps P q t e' l') : l = l' := by
  have hm : ∀ x, x ∈ l ↔ x ∈ l' := by
    intro x
    rw [h.mem, h'.mem]
    constructor
    · rintro ⟨hx, y, hy, hy'⟩
      exact ⟨hx, y, hy, same_trans I W hq hp hx he' he hy (same_symm hs) hy'⟩
    · rintro ⟨hx, y, hy, hy'⟩
      exact ⟨hx, y, hy, same_trans I W hp hq hx he he' hy hs hy'⟩
  have hp1 : l.Perm l' := (List.perm_ext_iff_of_nodup (h.sorted.imp Nat.ne_of_lt) (h'.sorted.imp Nat.ne_of_lt)).2 hm
  exact hp1.eq_of_pairwise (fun a b _ _ h1 h2 => absurd h1 (Nat.lt_asymm h2)) h.sorted h'.sorted

theorem listed_unique {p t : Nat} {e : El} {l l' : List Nat} (h : Listed n eps P p t e l)
    (h' : Listed n eps P p t e l') : l = l' := by
  have hp1 : l.Perm l' := (List.perm_ext_iff_of_nodup (h.sorted.imp Nat.ne_of_lt) (h'.sorted.imp Nat.ne_of_lt)).2
    fun x => by rw [h.mem, h'.mem]
  exact hp1.eq_of_pairwise (fun a b _ _ h1 h2 => absurd h1 (Nat.lt_asymm h2)) h.sorted h'.sorted

theorem self_mem (h0 : 0 ≤ eps) {p t : Nat} (hp : p < n) {e : El} {l : List Nat} (he : Has P p t e)
    (h : Listed n eps P p t e l) : p ∈ l := (h.mem p).2 ⟨hp, e, he, same_refl h0 t p e⟩

/-- The mesh described by the lists is distributed, whatever the elements are sorted by, as long as it tells them
apart. -/
theorem distributed_localOf (I : ∀ p, p < n → Topology.Inv (P p).T fun _ => False) (W : Tolerance n eps dim P)
    (D : Distinct n eps P) {ts : List Nat} (hts : ts.Nodup) (h3 : ∀ t, t ∈ ts → t ≤ 3) {key : Nat → El → Int}
    (hk : ∀ p q, p < n → q < n → ∀ t, t ∈ ts → ∀ e e', Has P p t e → Has P q t e' →
      (key p e = key q e' ↔ Same eps P t p e q e')) {pr : Nat → El → List Nat}
    (hl : ∀ p, p < n → ∀ t, t ∈ ts → ∀ e, Has P p t e → Listed n eps P p t e (pr p e)) :
    Parallel.Distributed n (localOf P key pr ts) := by
  have ghost : ∀ p q t, p < n → q < n → t ∈ ts → ∀ e e', Has P p t e → Has P q t e' → Same eps P t p e q e' →
      q ≠ p → ownerOf p (pr p e) = q → Parallel.GhostOf (localOf P key pr ts) p (toP e) q (toP e') := by
    intro p q t hp hq ht e e' he he' hs hne hown
    have hle := hl p hp t ht e he
    have hle' := hl q hq t ht e' he'
    have hpe : p ∈ pr p e := self_mem W.pos.le hp he hle
    have hlist : pr p e = pr q e' := listed_same I W hp hq he he' hs hle hle'
    have hqe : q ∈ pr q e' := self_mem W.pos.le hq he' hle'
    have hown' : ownerOf q (pr q e') = q := by
      have h1 := owner_least hle'.sorted hqe
      have h2 := owner_least hle.sorted hpe
      rw [hown, hlist] at h2
      exact Nat.le_antisymm (h1.2 q hqe) (h2.2 _ h1.1)
    refine ⟨?_, ?_, ?_, hown, ?_, ?_, hne, ?_, ?_⟩
    · exact (mem_localOf I hp).2 ⟨by show e.ty ∈ ts; rw [he.1]; exact ht, rfl, he.2⟩
    · exact (mem_localOf I hq).2 ⟨by show e'.ty ∈ ts; rw [he'.1]; exact ht, rfl, he'.2⟩
    · show statusOf p (pr p e) = .ghost
      rw [status_ghost, hown]; exact hne.symm
    · show statusOf q (pr q e') = .shared
      rw [status_shared]
      exact ⟨hown'.symm, two_of_mem hqe (by rw [← hlist]; exact hpe) hne.symm⟩
    · show p ∈ pr q e'
      rw [← hlist]; exact hpe
    · show e.ty = e'.ty
      rw [he.1, he'.1]
    · exact (hk p q hp hq t ht e e' he he').2 hs
  refine ⟨?_, ?_, ?_, ?_, ?_, ?_, ?_⟩
  · intro p hp
    show ((ts.flatMap (P p).els).map toP).Nodup
    refine (List.nodup_map_iff_inj_on ?_).2 ?_
    · rw [List.nodup_flatMap]
      refine ⟨fun t _ => els_nodup _ _, hts.imp fun {a b} hab => ?_⟩
      intro x hx hy
      have h1 := (has_els I hp).1 hx
      have h2 := (has_els I hp).1 hy
      exact hab (h1.1.symm.trans h2.1)
    · intro x _ y _ h
      have := congrArg ofP h
      exact this
  · intro p hp e he
    have := h3 _ ((mem_localOf I hp).1 he).1
    omega
  · intro p hp e e' he he' hty h
    obtain ⟨h1, h2⟩ := (mem_localOf I hp).1 he
    obtain ⟨_, h2'⟩ := (mem_localOf I hp).1 he'
    rw [← hty] at h2'
    have := D.unique p hp e.ty (h3 _ h1) _ _ h2 h2' ((hk p p hp hp e.ty h1 _ _ h2 h2').1 h)
    have := congrArg toP this
    exact this
  · intro p hp e he _
    obtain ⟨h1, h2⟩ := (mem_localOf I hp).1 he
    exact (hl p hp e.ty h1 _ h2).sorted.imp Nat.ne_of_lt
  · intro p hp e he hg
    obtain ⟨h1, h2⟩ := (mem_localOf I hp).1 he
    have hle := hl p hp e.ty h1 _ h2
    have ho := owner_least hle.sorted (self_mem W.pos.le hp h2 hle)
    obtain ⟨hq, e', he', hs⟩ := (hle.mem _).1 ho.1
    have hne : ownerOf p (pr p (ofP e)) ≠ p := Ne.symm (status_ghost.1 hg)
    exact ⟨hq, toP e', ghost p _ e.ty hp hq h1 (ofP e) e' h2 he' hs hne rfl⟩
  · intro q hq e' he' hsh p hpm hne
    obtain ⟨h1, h2⟩ := (mem_localOf I hq).1 he'
    have hle := hl q hq e'.ty h1 _ h2
    obtain ⟨hp, e, he, hs⟩ := (hle.mem p).1 hpm
    refine ⟨hp, toP e, ghost p q e'.ty hp hq h1 e (ofP e') he h2 (same_symm hs) (Ne.symm hne) ?_⟩
    have hlist : pr p e = pr q (ofP e') := listed_same I W hp hq he h2 (same_symm hs) (hl p hp e'.ty h1 e he) hle
    have hown : q = ownerOf q (pr q (ofP e')) := (status_shared.1 hsh).1
    have a1 := owner_least hle.sorted (self_mem W.pos.le hq h2 hle)
    have a2 := owner_least (hl p hp e'.ty h1 e he).sorted (self_mem W.pos.le hp he (hl p hp e'.ty h1 e he))
    rw [hlist] at a2 ⊢
    exact (Nat.le_antisymm (a2.2 _ a1.1) (a1.2 _ a2.1)).trans hown.symm
  · intro _ _ _ _ _ _ _; rfl

theorem sized_localOf {key : Nat → El → Int} {pr : Nat → El → List Nat} {ts : List Nat} (mask : Nat → Bool) :
    Parallel.Sized n [(0, Parallel.gidTag mask)] (localOf P key pr ts) := by
  intro t ht p _ e _ _
  rw [List.mem_singleton] at ht
  subst ht
  refine ⟨fun x k hx hk => ?_, fun _ h => by cases h⟩
  injection hx with hx
  injection hk with hk
  subst hx hk
  rfl

/-- AssignGlobalID gives the same number exactly to copies of one element. -/
theorem gid_same (I : ∀ p, p < n → Topology.Inv (P p).T fun _ => False) (W : Tolerance n eps dim P)
    (D : Distinct n eps P) {t : Nat} (ht : t ≤ 3) {key : Nat → El → Int}
    (hk : Keys n eps P key) {pr : Nat → El → List Nat}
    (hl : ∀ p, p < n → ∀ e, Has P p t e → Listed n eps P p t e (pr p e)) {G' : Nat → Parallel.Local Int}
    (hG : Parallel.AssignGlobalID n 0 (fun i => i == t) (localOf P key pr [t]) G') {gid : Nat → El → Int}
    (hg : ∀ p, p < n → ∀ e, e ∈ (P p).els t → (G' p).data 0 (toP e) = some [gid p e]) :
    ∀ p q, p < n → q < n → ∀ e e', Has P p t e → Has P q t e' → (gid p e = gid q e' ↔ Same eps P t p e q e') := by
  have Dm : Parallel.Distributed n (localOf P key pr [t]) :=
    distributed_localOf I W D (List.nodup_singleton t)
      (fun s hs => by rw [List.mem_singleton] at hs; subst hs; exact ht)
      (fun p q hp hq s hs => by rw [List.mem_singleton] at hs; subst hs; exact hk p q hp hq s ht)
      (fun p hp s hs => by rw [List.mem_singleton] at hs; subst hs; exact hl p hp)
  have hS := sized_localOf (n := n) (P := P) (key := key) (pr := pr) (ts := [t]) (fun i => i == t)
  have ex := Parallel.C64_exact n 0 (fun i => i == t) _ G' Dm hS hG t (by simp)
  -- the owner's copy
  have src : ∀ p, p < n → ∀ e, Has P p t e → ∃ q e0, q = ownerOf p (pr p e) ∧ q < n ∧ Has P q t e0 ∧
      Same eps P t p e q e0 ∧ gid q e0 = gid p e ∧ (localOf P key pr [t] q).status (toP e0) ≠ .ghost := by
    intro p hp e he
    have hle := hl p hp e he
    by_cases h : p = ownerOf p (pr p e)
    · exact ⟨p, e, h, hp, he, same_refl W.pos.le _ _ _, rfl, fun hgh => status_ghost.1 hgh h⟩
    · have hmem : toP e ∈ (localOf P key pr [t] p).elems :=
        (mem_localOf I hp).2 ⟨by show e.ty ∈ [t]; rw [he.1]; simp, rfl, he.2⟩
      obtain ⟨hq, e', g⟩ := Dm.owner p hp (toP e) hmem (status_ghost.2 h)
      have hm' := (mem_localOf I hq).1 g.mem'
      have hty : e'.ty = t := by simpa using hm'.1
      rw [hty] at hm'
      have hs : Same eps P t p e _ (ofP e') := (hk p _ hp hq t ht e (ofP e') he hm'.2).1 g.same.2
      have hc := (Parallel.C64_copies n 0 (fun i => i == t) _ G' Dm hS hG p _ hp (toP e) e' g
        (by show (e.ty == t) = true; rw [he.1]; simp)).1
      rw [hg p hp e ((has_els I hp).2 he)] at hc
      have h2 := hg _ hq (ofP e') ((has_els I hq).2 hm'.2)
      rw [toP_ofP] at h2
      rw [h2] at hc
      injection hc with hc
      injection hc with hc
      refine ⟨_, ofP e', rfl, hq, hm'.2, hs, hc.symm, ?_⟩
      have hst := g.shared
      intro h'
      rw [toP_ofP] at h'
      exact absurd (hst.symm.trans h') (by decide)
  intro p q hp hq e e' he he'
  obtain ⟨p0, e0, o1, hp0, he0, s1, g1, n1⟩ := src p hp e he
  obtain ⟨q0, e0', o2, hq0, he0', s2, g2, n2⟩ := src q hq e' he'
  constructor
  · intro h
    have hmem : ∀ r x, r < n → Has P r t x → (localOf P key pr [t] r).status (toP x) ≠ .ghost →
        toP x ∈ (localOf P key pr [t] r).elems ∧ (toP x).ty = t ∧ (localOf P key pr [t] r).status (toP x) ≠ .ghost :=
      fun r x hr hx hn => ⟨(mem_localOf I hr).2 ⟨by show x.ty ∈ [t]; rw [hx.1]; simp, rfl, hx.2⟩, hx.1, hn⟩
    obtain ⟨rfl, h2⟩ := ex.distinct p0 q0 (toP e0) (toP e0') hp0 hq0 (hmem p0 e0 hp0 he0 n1) (hmem q0 e0' hq0 he0' n2) (by
      rw [hg p0 hp0 e0 ((has_els I hp0).2 he0), hg q0 hq0 e0' ((has_els I hq0).2 he0'), g1, g2, h])
    have h2 : e0 = e0' := congrArg ofP h2
    subst h2
    exact same_trans I W hp hp0 hq he he0 he' s1 (same_symm s2)
  · intro h
    have hlist := listed_same I W hp hq he he' h (hl p hp e he) (hl q hq e' he')
    have a1 := owner_least (hl p hp e he).sorted (self_mem W.pos.le hp he (hl p hp e he))
    have a2 := owner_least (hl q hq e' he').sorted (self_mem W.pos.le hq he' (hl q hq e' he'))
    have ho : p0 = q0 := by
      rw [o1, o2]
      rw [hlist] at a1 ⊢
      exact Nat.le_antisymm (a1.2 _ a2.1) (a2.2 _ a1.1)
    subst ho
    have := D.unique p0 hp0 t ht e0 e0' he0 he0' (same_trans I W hp0 hp hp0 he0 he he0' (same_symm s1)
      (same_trans I W hp hq hp0 he he' he0' h s2))
    rw [← g1, ← g2, this]

end Verif.Resolve
