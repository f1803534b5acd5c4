import Verif.Resolve.Props
import Verif.Parallel.EquilProps

/-!
# EquilibrateGhost after ResolveShared (C85)

ResolveShared ends with a call of EquilibrateGhost (`Source/Mesh/parallel.cpp` L2299).
-/

namespace Verif.Resolve

open Verif.Topology (El Topo)

variable {K : Type} [CommRing K] [LinearOrder K] [IsStrictOrderedRing K]

/-- The array HighConn (`Source/Headers/inmost_mesh.h`), in the names of `Verif.Parallel`. -/
def highOf (P : Nat → Part K) (p : Nat) (e : Parallel.El) : List Parallel.El := ((P p).T.high (ofP e)).map toP

/-- C85: the mesh that ResolveShared makes (C84) is one to which EquilibrateGhost applies, for any `near` that leads from
cells to cells. -/
theorem C85_resolve (n : Nat) (eps big : K) (dim : Nat) (P : Nat → Part K) (key : Nat → El → Int)
    (order : Nat → List Nat) (pr : Nat → El → List Nat) (gid : Nat → El → Int) (H : ∀ p, p < n → PartOk (P p))
    (W : Tolerance n eps dim P) (D : Distinct n eps P) (hk : Keys n eps P key)
    (R : Run n eps big dim P key order pr gid) :
    Parallel.Agreed n (localOf P gid pr [0, 1, 2, 3]) ∧
    ∀ near : Nat → Parallel.El → List Parallel.El,
      (∀ p, p < n → ∀ c, Has P p 3 (ofP c) → ∀ x, x ∈ near p c → Has P p 3 (ofP x)) →
      Parallel.Links n (localOf P gid pr [0, 1, 2, 3]) near (highOf P) := by
  have I : ∀ p, p < n → Topology.Inv (P p).T fun _ => False := fun p hp => (H p hp).inv
  have hD := C84_distributed n eps big dim P key order pr gid H W D hk R
  have kn := fun t ht => run_known H W D hk R t ht
  have h3 : ∀ {t : Nat}, t ∈ [0, 1, 2, 3] ↔ t ≤ 3 := by
    intro t
    simp only [List.mem_cons, List.not_mem_nil, or_false]
    omega
  have mem : ∀ {p : Nat}, p < n → ∀ {e : Parallel.El}, e ∈ (localOf P gid pr [0, 1, 2, 3] p).elems ↔
      e.ty ≤ 3 ∧ Has P p e.ty (ofP e) := by
    intro p hp e
    rw [mem_localOf I hp, h3]
  have same : ∀ {p q : Nat}, p < n → q < n → ∀ {e e' : Parallel.El}, e ∈ (localOf P gid pr [0, 1, 2, 3] p).elems →
      e' ∈ (localOf P gid pr [0, 1, 2, 3] q).elems →
      (Parallel.SameElem (localOf P gid pr [0, 1, 2, 3]) p e q e' ↔ e'.ty = e.ty ∧ Same eps P e.ty p (ofP e) q (ofP e')) := by
    intro p q hp hq e e' he he'
    obtain ⟨h1, h2⟩ := (mem hp).1 he
    obtain ⟨h1', h2'⟩ := (mem hq).1 he'
    constructor
    · rintro ⟨a, b⟩
      exact ⟨a.symm, ((kn e.ty h1).gid p q hp hq _ _ h2 (by rw [a]; exact h2')).1 b⟩
    · rintro ⟨a, b⟩
      exact ⟨a.symm, ((kn e.ty h1).gid p q hp hq _ _ h2 (by rw [← a]; exact h2')).2 b⟩
  have listed : ∀ {p : Nat}, p < n → ∀ {e : Parallel.El}, e ∈ (localOf P gid pr [0, 1, 2, 3] p).elems →
      Listed n eps P p e.ty (ofP e) (pr p (ofP e)) := by
    intro p hp e he
    obtain ⟨h1, h2⟩ := (mem hp).1 he
    exact (kn e.ty h1).listed _ hp _ h2
  have self : ∀ {p : Nat}, p < n → ∀ {e : Parallel.El}, e ∈ (localOf P gid pr [0, 1, 2, 3] p).elems →
      p ∈ pr p (ofP e) := by
    intro p hp e he
    exact self_mem W.pos.le hp ((mem hp).1 he).2 (listed hp he)
  refine ⟨⟨hD.nodup, hD.types, fun p hp e e' he he' hs => hD.unique p hp e e' he he' hs.1 hs.2,
    fun p hp e he => (listed hp he).sorted, ?_, ?_, ?_, ?_⟩, ?_⟩
  · intro p hp e he q
    obtain ⟨h1, h2⟩ := (mem hp).1 he
    show q ∈ pr p (ofP e) ↔ _
    rw [(listed hp he).mem]
    constructor
    · rintro ⟨hq, e', he', hs⟩
      have hm : toP e' ∈ (localOf P gid pr [0, 1, 2, 3] q).elems := (mem hq).2 ⟨by
        show e'.ty ≤ 3
        rw [he'.1]; exact h1, rfl, he'.2⟩
      exact ⟨hq, toP e', hm, (same hp hq he hm).2 ⟨he'.1, hs⟩⟩
    · rintro ⟨hq, e', he', hs⟩
      obtain ⟨a, b⟩ := (same hp hq he he').1 hs
      exact ⟨hq, ofP e', by have := ((mem hq).1 he').2; rw [a] at this; exact this, b⟩
  · intro p hp e he
    exact (owner_least (listed hp he).sorted (self hp he)).1
  · intro p q hp hq e e' he he' hs
    obtain ⟨a, b⟩ := (same hp hq he he').1 hs
    obtain ⟨h1, h2⟩ := (mem hp).1 he
    have h2' : Has P q e.ty (ofP e') := by have := ((mem hq).1 he').2; rw [a] at this; exact this
    have hl := listed hq he'
    rw [a] at hl
    have : pr p (ofP e) = pr q (ofP e') := listed_same I W hp hq h2 h2' b (listed hp he) hl
    show ownerOf p (pr p (ofP e)) = ownerOf q (pr q (ofP e'))
    have o1 := owner_least (listed hp he).sorted (self hp he)
    have o2 := owner_least hl.sorted (self hq he')
    rw [← this] at o2 ⊢
    exact Nat.le_antisymm (o1.2 _ o2.1) (o2.2 _ o1.1)
  · intro p hp e he
    show statusOf p (pr p (ofP e)) = if pr p (ofP e) = [p] then .owned else
      if ownerOf p (pr p (ofP e)) = p then .shared else .ghost
    obtain ⟨o1, o2⟩ := owner_least (listed hp he).sorted (self hp he)
    unfold statusOf
    by_cases h : pr p (ofP e) = [p]
    · rw [if_pos h, h] 
      simp [ownerOf]
    · rw [if_neg h]
      by_cases h' : ownerOf p (pr p (ofP e)) = p
      · rw [if_pos h', if_pos h'.symm, if_neg]
        intro hl
        obtain ⟨a, ha⟩ := List.length_eq_one_iff.1 hl
        have := self hp he
        rw [ha, List.mem_singleton] at this
        exact h (by rw [ha, this])
      · rw [if_neg h', if_neg (Ne.symm h')]
  · intro near hnear
    have high : ∀ {p : Nat}, p < n → ∀ {e x : Parallel.El}, e ∈ (localOf P gid pr [0, 1, 2, 3] p).elems → e.ty < 3 →
        x ∈ highOf P p e → x ∈ (localOf P gid pr [0, 1, 2, 3] p).elems ∧ x.ty = e.ty + 1 ∧ ofP e ∈ (P p).T.low (ofP x) := by
      intro p hp e x he ht3 hx
      obtain ⟨h1, h2⟩ := (mem hp).1 he
      obtain ⟨y, hy, rfl⟩ := List.mem_map.1 hx
      have hl : (P p).T.alive y = true := ((I p hp).highLive not_false hy).2
      have ht : y.ty = e.ty + 1 := ((I p hp).highTy not_false hy).1 ht3
      have hlow : ofP e ∈ (P p).T.low y := ((I p hp).mem not_false).2 hy
      exact ⟨(mem hp).2 ⟨(I p hp).tyLe _ hl, rfl, hl⟩, ht, hlow⟩
    refine ⟨?_, fun p hp e he ht x hx => ⟨(high hp he ht hx).1, (high hp he ht hx).2.1⟩, ?_⟩
    · intro p hp c hc h x hx
      obtain ⟨h1, h2⟩ := (mem hp).1 hc
      rw [h] at h2
      have := hnear p hp c h2 x hx
      have ht : x.ty = 3 := this.1
      exact ⟨(mem hp).2 ⟨by omega, by rw [ht]; exact this⟩, ht⟩
    · intro p q hp hq e he ht3 x hx x' hx' hs
      obtain ⟨a1, a2, a3⟩ := high hp he ht3 hx
      obtain ⟨b1, b2⟩ := (same hp hq a1 hx').1 hs
      rw [a2] at b2
      obtain ⟨y, hy, hsy⟩ := b2.1 _ a3
      have hxl := ((mem hq).1 hx').2
      have hyl : (P q).T.alive y = true := ((I q hq).lowLive hy).1
      have hyt : y.ty = e.ty := by
        have e0 : (ofP x').ty = x'.ty := rfl
        have := ((I q hq).lowTy _ y hy).1 (by omega)
        omega
      have hm : toP y ∈ (localOf P gid pr [0, 1, 2, 3] q).elems := (mem hq).2 ⟨by
        show y.ty ≤ 3
        rw [hyt]; exact ((mem hp).1 he).1, rfl, hyl⟩
      exact ⟨toP y, hm, (same hp hq he hm).2 ⟨hyt, hsy⟩⟩

/-- The triangles of C84 meet the hypotheses, and EquilibrateGhost then has an execution. -/
example : ∃ pr gid G', Run 2 5 1000 2 pair pairKey (fun p => [1 - p]) pr gid ∧
    Parallel.Equilibrate 2 0 (fun _ _ => []) (highOf pair) (localOf pair gid pr [0, 1, 2, 3]) G' := by
  obtain ⟨pr, gid, R⟩ := C84_terminates 2 5 1000 2 pair pairKey (fun p => [1 - p]) pair_ok pair_tolerance pair_distinct
    pair_keys (by
      have : ∀ p, p < 2 → [1 - p] = neigh 2 5 1000 2 pair p := by decide +kernel
      intro p hp
      rw [← this p hp])
  obtain ⟨A, K⟩ := C85_resolve 2 5 1000 2 pair pairKey _ pr gid pair_ok pair_tolerance pair_distinct pair_keys R
  obtain ⟨⟨G', h⟩, -⟩ := Parallel.C85_terminates 2 0 (fun _ _ => []) (highOf pair) _ (by decide) A
    (K _ fun _ _ _ _ _ h => (by cases h))
  exact ⟨pr, gid, G', R, h⟩

end Verif.Resolve
