import Verif.Matching.Matrix
import Mathlib.Tactic.Ring
import Mathlib.Tactic.Linarith
import Mathlib.Algebra.Order.Ring.Defs
import Mathlib.Algebra.Order.Ring.Int
/-
If the pattern of the matrix has a permutation at all, every search ends at a free column, as long
as `max` is larger than any path.
-/

namespace Verif.Matching

open Verif.Heap (put put_eq put_ne Linked Ordered)

/-! ### The alternating path given by another permutation -/

/-- Rows visited when the permutation given by `col` and the matching `perm` are followed in turn. -/
def follow (perm : Nat → Option Nat) (col : Nat → Nat) (k : Nat) : Nat → Option Nat
  | 0 => some k
  | i + 1 => (follow perm col k i).bind fun r => perm (col r)

theorem follow_inj {n : Nat} {perm : Nat → Option Nat} {col : Nat → Nat} {k : Nat} (hk : k < n)
    (hperm : ∀ c r, perm c = some r → r < n)
    (hinj : ∀ c d r, perm c = some r → perm d = some r → c = d)
    (hcol : ∀ r r', r < n → r' < n → col r = col r' → r = r')
    (hroot : ∀ c, perm c ≠ some k) : ∀ i d r, follow perm col k i = some r →
    follow perm col k (i + d + 1) = some r → False := by
  have hlt : ∀ i r, follow perm col k i = some r → r < n := by
    intro i
    cases i with
    | zero => intro r h; rw [← Option.some.inj h]; exact hk
    | succ i =>
      intro r h
      obtain ⟨r1, _, h1⟩ := Option.bind_eq_some_iff.1 h
      exact hperm _ _ h1
  intro i
  induction i with
  | zero =>
    intro d r h1 h2
    obtain ⟨r2, _, h3⟩ := Option.bind_eq_some_iff.1 h2
    have : k = r := Option.some.inj h1
    subst this
    exact hroot _ h3
  | succ i ih =>
    intro d r h1 h2
    obtain ⟨r1, g1, g2⟩ := Option.bind_eq_some_iff.1 h1
    obtain ⟨r2, g3, g4⟩ := Option.bind_eq_some_iff.1 h2
    have e := hcol r1 r2 (hlt _ _ g1) (hlt _ _ g3) (hinj _ _ _ g2 g4)
    subst e
    exact ih d r1 g1 (by rw [show i + 1 + d = i + d + 1 by omega] at g3; exact g3)

theorem follow_ends {n : Nat} {perm : Nat → Option Nat} {col : Nat → Nat} {k : Nat} (hk : k < n)
    (hperm : ∀ c r, perm c = some r → r < n)
    (hinj : ∀ c d r, perm c = some r → perm d = some r → c = d)
    (hcol : ∀ r r', r < n → r' < n → col r = col r' → r = r')
    (hroot : ∀ c, perm c ≠ some k) :
    ∃ j r, j < n ∧ follow perm col k j = some r ∧ perm (col r) = none := by
  have hlt : ∀ i r, follow perm col k i = some r → r < n := by
    intro i
    cases i with
    | zero => intro r h; rw [← Option.some.inj h]; exact hk
    | succ i =>
      intro r h
      obtain ⟨r1, _, h1⟩ := Option.bind_eq_some_iff.1 h
      exact hperm _ _ h1
  by_contra hcon
  -- the path goes on for `n` steps
  have hsome : ∀ i, i ≤ n → ∃ r, follow perm col k i = some r := by
    intro i
    induction i with
    | zero => intro _; exact ⟨k, rfl⟩
    | succ i ih =>
      intro hi
      obtain ⟨r, hr⟩ := ih (by omega)
      cases hp : perm (col r) with
      | none => exact absurd ⟨i, r, by omega, hr, hp⟩ hcon
      | some r' => exact ⟨r', by rw [follow, hr]; exact hp⟩
  have hnd : ((List.range (n + 1)).map fun i => (follow perm col k i).getD 0).Nodup := by
    refine List.Nodup.map_on ?_ List.nodup_range
    intro i hi j hj e
    obtain ⟨r1, h1⟩ := hsome i (by have := List.mem_range.1 hi; omega)
    obtain ⟨r2, h2⟩ := hsome j (by have := List.mem_range.1 hj; omega)
    rw [h1, h2] at e
    have e' : r1 = r2 := e
    subst e'
    rcases Nat.lt_trichotomy i j with h | h | h
    · exact (follow_inj hk hperm hinj hcol hroot i (j - i - 1) r1 h1
        (by rw [show i + (j - i - 1) + 1 = j by omega]; exact h2)).elim
    · exact h
    · exact (follow_inj hk hperm hinj hcol hroot j (i - j - 1) r1 h2
        (by rw [show j + (i - j - 1) + 1 = i by omega]; exact h1)).elim
  have hsub : ((List.range (n + 1)).map fun i => (follow perm col k i).getD 0) ⊆ List.range n := by
    intro x hx
    obtain ⟨i, hi, e⟩ := List.mem_map.1 hx
    obtain ⟨r, hr⟩ := hsome i (by have := List.mem_range.1 hi; omega)
    rw [hr] at e
    rw [← e]
    exact List.mem_range.2 (hlt i r hr)
  have := (List.subperm_of_subset hnd hsub).length_le
  simp only [List.length_map, List.length_range] at this
  omega

section Ring

variable {G : Type} [CommRing G] [LinearOrder G] [IsStrictOrderedRing G]

/-- Distances of rows of the tree are bounded. -/
theorem dist_bound {a : Arith G} {m : Csr G} {k : Nat} (hk : k < m.n) {s s1 : St G} {x : Loc G}
    (hpairs : Pairs m s.perm s.iperm s.colPos) (hroot : s.iperm k = none)
    (htight : TightPairs m s) {T0 : List Nat} (hs : Shortest a m k s T0 s1 x) {B : G}
    (hval : ∀ r, r < m.n → ∀ q ∈ m.row r, 0 ≤ m.val q ∧ m.val q ≤ B) :
    ∀ T : List Nat, (∀ u ∈ T, u ∈ T0) → Tree m k s.perm s1.parent s1.augPos T → ∀ r d,
    RowDist s.perm k T s1.heap.keys r d → d + s.V k ≤ s.V r + (T.length : G) * B := by
  have hmono : ∀ T : List Nat, (∀ u ∈ T, u ∈ T0) → ∀ r d, RowDist s.perm k T s1.heap.keys r d →
      RowDist s.perm k T0 s1.heap.keys r d := by
    intro T hT r d h
    rcases h with h | ⟨u, hu, h⟩
    · exact Or.inl h
    · exact Or.inr ⟨u, hT u hu, h⟩
  have hB : 0 ≤ B ∨ ∀ r, r < m.n → ∀ q, q ∉ m.row r := by
    by_cases h : ∃ r, r < m.n ∧ ∃ q, q ∈ m.row r
    · obtain ⟨r, hr, q, hq⟩ := h
      have := hval r hr q hq
      exact Or.inl (le_trans this.1 this.2)
    · right
      intro r hr q hq
      exact h ⟨r, hr, q, hq⟩
  intro T
  induction T with
  | nil =>
    intro _ _ r d h
    rcases h with ⟨e1, e2⟩ | ⟨u, hu, _⟩
    · subst e1; subst e2; simp
    · simp at hu
  | cons u T ih =>
    intro hsub htree r d h
    obtain ⟨g1, ⟨r0, p, q, a1, a2, a3, a4, a5, a6⟩, g3⟩ := htree
    have hsub' : ∀ v ∈ T, v ∈ T0 := fun v hv => hsub v (by simp [hv])
    have hpn : p < m.n := by
      rcases a3 with e | ⟨v, _, e⟩
      · rw [e]; exact hk
      · exact hpairs.row _ _ ((hpairs.inv _ _).1 e)
    have hB0 : 0 ≤ B := by
      rcases hB with h | h
      · exact h
      · exact absurd a5 (h p hpn q)
    have hlen : ((u :: T).length : G) = (T.length : G) + 1 := by simp
    rw [hlen]
    have hstep : RowDist s.perm k T s1.heap.keys r d → d + s.V k ≤ s.V r + ((T.length : G) + 1) * B := by
      intro h
      have := ih hsub' g3 r d h
      have e : ((T.length : G) + 1) * B = (T.length : G) * B + B := by ring
      rw [e]; linarith
    rcases h with h | ⟨v, hv, h1, h2⟩
    · exact hstep (Or.inl h)
    · rcases List.mem_cons.1 hv with e | hv
      · subst e
        have er : r0 = r := Option.some.inj (a1.symm.trans h1)
        subst er
        obtain ⟨d', hd'⟩ : ∃ d', RowDist s.perm k T s1.heap.keys p d' := by
          rcases a3 with e | ⟨w, hw, e⟩
          · exact ⟨0, Or.inl ⟨e, rfl⟩⟩
          · exact ⟨_, Or.inr ⟨w, hw, e, rfl⟩⟩
        obtain ⟨r1, p1, q1, d1, b1, b2, b3, b4, b5⟩ := hs.tight v (hsub v (by simp))
        have e1 : r1 = r0 := Option.some.inj (b1.symm.trans a1)
        subst e1
        have e2 : p1 = p := Option.some.inj (b2.symm.trans a2)
        subst e2
        have e3 : q1 = q := Option.some.inj (b4.symm.trans a4)
        subst e3
        have e4 : d1 = d' := RowDist.unique hpairs hroot b3 (hmono T hsub' _ _ hd')
        subst e4
        have hir := (hpairs.inv _ _).1 a1
        obtain ⟨y, y1, y2, y3⟩ := hpairs.pos _ _ hir
        have ht := htight r1 y y1 (by rw [hir]; rfl)
        have hy := (hval r1 (hpairs.row _ _ hir) y y2).1
        have hq := (hval p1 hpn q1 a5).2
        have := ih hsub' g3 p1 d1 hd'
        unfold rc at ht b5
        rw [y3] at ht
        rw [a6] at b5
        rw [h2, b5]
        have e : ((T.length : G) + 1) * B = (T.length : G) * B + B := by ring
        rw [e]
        linarith
      · exact hstep (Or.inr ⟨v, hv, h1, h2⟩)

/-- A failed search means that `max` is too small, if there is another permutation. -/
theorem no_failure {a : Arith G} {m : Csr G} (hwf : WfCsr m) {k : Nat} (hk : k < m.n) {s s1 : St G}
    {x : Loc G} (h : Opt a m s) (hroot : s.iperm k = none) {T : List Nat} (hf : Found m k s T s1 x)
    (hs : Shortest a m k s T s1 x) (hpe : x.pathEnd = none) {B : G}
    (hval : ∀ r, r < m.n → ∀ q ∈ m.row r, 0 ≤ m.val q ∧ m.val q ≤ B)
    (hVk : 0 ≤ s.V k) (hUc : ∀ c, c < m.n → s.perm c = none → 0 ≤ s.U c) {pos : Nat → Nat}
    (hpos : ∀ r, r < m.n → pos r ∈ m.row r)
    (hposinj : ∀ r r', r < m.n → r' < m.n → m.col (pos r) = m.col (pos r') → r = r') :
    a.max ≤ (2 * m.n : G) * B := by
  have hpairs := h.between.pairs
  have hperm : ∀ c r, s.perm c = some r → r < m.n := fun c r hc =>
    hpairs.row _ _ ((hpairs.inv _ _).1 hc)
  obtain ⟨j, rj, hj, hrj, hend⟩ := follow_ends (n := m.n) (perm := s.perm)
    (col := fun r => m.col (pos r)) hk hperm
    (by
      intro c d r hc hd
      have g := (hpairs.inv _ _).1 hc
      rw [(hpairs.inv _ _).1 hd] at g
      exact (Option.some.inj g).symm)
    hposinj
    (by
      intro c hc
      rw [(hpairs.inv _ _).1 hc] at hroot; simp at hroot)
  have hlt : ∀ i r, follow s.perm (fun r => m.col (pos r)) k i = some r → r < m.n := by
    intro i
    cases i with
    | zero => intro r h; rw [← Option.some.inj h]; exact hk
    | succ i =>
      intro r h
      obtain ⟨r1, _, h1⟩ := Option.bind_eq_some_iff.1 h
      exact hperm _ _ h1
  have hB0 : 0 ≤ B := by
    have := hval k hk (pos k) (hpos k hk)
    exact le_trans this.1 this.2
  -- a row of the path before the last one goes on
  have hnext : ∀ i, i < j → ∀ r, follow s.perm (fun r => m.col (pos r)) k i = some r →
      ∃ r', s.perm (m.col (pos r)) = some r' ∧
        follow s.perm (fun r => m.col (pos r)) k (i + 1) = some r' := by
    intro i hi r hr
    cases hp : s.perm (m.col (pos r)) with
    | some r' => exact ⟨r', rfl, by rw [follow, hr]; exact hp⟩
    | none =>
      exfalso
      have hnone : ∀ d, follow s.perm (fun r => m.col (pos r)) k (i + 1 + d) = none := by
        intro d
        induction d with
        | zero =>
          show follow s.perm (fun r => m.col (pos r)) k (i + 1) = none
          rw [follow, hr]; exact hp
        | succ d ih =>
          show follow s.perm (fun r => m.col (pos r)) k (i + 1 + d + 1) = none
          rw [follow, ih]; rfl
      have := hnone (j - i - 1)
      rw [show i + 1 + (j - i - 1) = j by omega, hrj] at this
      simp at this
  -- dual variables of columns on the path
  have hUpath : ∀ t, t ≤ j → ∀ r, follow s.perm (fun r => m.col (pos r)) k (j - t) = some r →
      0 ≤ s.U (m.col (pos r)) + (t : G) * B := by
    intro t
    induction t with
    | zero =>
      intro _ r hr
      rw [Nat.sub_zero, hrj] at hr
      have e : rj = r := Option.some.inj hr
      subst e
      have := hUc _ (hwf rj (hlt j rj hrj) _ (hpos rj (hlt j rj hrj))) hend
      simpa using this
    | succ t ih =>
      intro ht r hr
      obtain ⟨r', h1, h2⟩ := hnext (j - (t + 1)) (by omega) r hr
      rw [show j - (t + 1) + 1 = j - t by omega] at h2
      have hi := ih (by omega) r' h2
      have hr'n := hperm _ _ h1
      have hir := (hpairs.inv _ _).1 h1
      obtain ⟨y, y1, y2, y3⟩ := hpairs.pos _ _ hir
      have htt := h.tight r' y y1 (by rw [hir]; rfl)
      have hy := (hval r' hr'n y y2).1
      have hfe := h.feasible r' hr'n (pos r') (hpos r' hr'n)
      have hq := (hval r' hr'n (pos r') (hpos r' hr'n)).2
      unfold rc at htt hfe
      rw [y3] at htt
      have e : (((t + 1 : Nat)) : G) * B = (t : G) * B + B := by push_cast; ring
      rw [e]
      linarith
  -- the path leaves the tree
  have hleave : ∀ t, t ≤ j → ∀ r, follow s.perm (fun r => m.col (pos r)) k (j - t) = some r →
      TreeRow s.perm k T r → ∃ t' r', t' ≤ j ∧
        follow s.perm (fun r => m.col (pos r)) k (j - t') = some r' ∧ TreeRow s.perm k T r' ∧
        m.col (pos r') ∉ T := by
    intro t
    induction t with
    | zero =>
      intro _ r hr htr
      refine ⟨0, r, by omega, hr, htr, ?_⟩
      intro hm
      rw [Nat.sub_zero, hrj] at hr
      have e : rj = r := Option.some.inj hr
      subst e
      obtain ⟨r', hr'⟩ := hf.of_lists _ hm
      rw [hend] at hr'; simp at hr'
    | succ t ih =>
      intro ht r hr htr
      by_cases hm : m.col (pos r) ∈ T
      · obtain ⟨r', h1, h2⟩ := hnext (j - (t + 1)) (by omega) r hr
        rw [show j - (t + 1) + 1 = j - t by omega] at h2
        exact ih (by omega) r' h2 (Or.inr ⟨_, hm, h1⟩)
      · exact ⟨t + 1, r, ht, hr, htr, hm⟩
  obtain ⟨t, r, ht, hr, htr, hnT⟩ := hleave j (Nat.le_refl _) k (by rw [Nat.sub_self]; rfl)
    (Or.inl rfl)
  have hrn := hlt _ _ hr
  obtain ⟨d, hd⟩ : ∃ d, RowDist s.perm k T s1.heap.keys r d := by
    rcases htr with e | ⟨w, hw, e⟩
    · exact ⟨0, Or.inl ⟨e, rfl⟩⟩
    · exact ⟨_, Or.inr ⟨w, hw, e, rfl⟩⟩
  have hmaxle : a.max ≤ d + rc m s r (pos r) := by
    rcases hs.short r d (pos r) hd (hpos r hrn) with ⟨g, _⟩ | g
    · exact absurd g hnT
    · rw [hs.noPath hpe] at g; exact g
  have hdb := dist_bound hk hpairs hroot h.tight hs hval T (fun _ h => h) hf.tree r d hd
  have hU := hUpath t ht r hr
  have hq := (hval r hrn (pos r) (hpos r hrn)).2
  have hTn := tree_length hwf hpairs hf.tree
  have hcount : ((T.length : G) + 1 + (t : G)) * B ≤ (2 * m.n : G) * B := by
    apply mul_le_mul_of_nonneg_right _ hB0
    have : T.length + 1 + t ≤ 2 * m.n := by omega
    exact_mod_cast this
  have e : ((T.length : G) + 1 + (t : G)) * B = (T.length : G) * B + B + (t : G) * B := by ring
  unfold rc at hmaxle
  linarith

/-- All rounds succeed. -/
theorem rounds_complete {a : Arith G} (hx : Exact a) (hmax : 0 ≤ a.max) {m : Csr G}
    (hwf : WfCsr m) {B : G}
    (hval : ∀ r, r < m.n → ∀ q ∈ m.row r, 0 ≤ m.val q ∧ m.val q ≤ B)
    (hbig : (2 * m.n : G) * B < a.max) {pos : Nat → Nat}
    (hpos : ∀ r, r < m.n → pos r ∈ m.row r)
    (hposinj : ∀ r r', r < m.n → r' < m.n → m.col (pos r) = m.col (pos r') → r = r') :
    ∀ (l : List Nat) (s t : St G), (∀ k ∈ l, k < m.n) → Opt a m s →
    (∀ r, r < m.n → s.iperm r = none → 0 ≤ s.V r) →
    (∀ c, c < m.n → s.perm c = none → 0 ≤ s.U c) → rounds a m l s = some t →
    (∀ k ∈ l, (t.iperm k).isSome) ∧ ∀ r, (s.iperm r).isSome → (t.iperm r).isSome := by
  intro l
  induction l with
  | nil => intro s t _ _ _ _ ht; rw [← Option.some.inj ht]; exact ⟨by simp, fun _ h => h⟩
  | cons k l ih =>
    intro s t hl h hV hU ht
    obtain ⟨s1, h1, h2, h3, h4⟩ := round_spec a hx.hle hwf (hl k (by simp)) h.between
    rw [rounds, h1] at ht
    rcases round_opt hx hmax hwf (hl k (by simp)) h h1 with ⟨_, hn, T, s2, x, g1, g2, g3⟩ |
        ⟨ho, hi, hVr, hUr⟩
    · have := no_failure hwf (hl k (by simp)) h hn g1 g2 g3 hval (hV k (hl k (by simp)) hn) hU hpos
        hposinj
      exact absurd this (not_le.2 hbig)
    · obtain ⟨i1, i2⟩ := ih s1 t (fun y hy => hl y (by simp [hy])) ho
        (by
          intro r hr hn
          rw [hVr r hn]
          refine hV r hr ?_
          cases hs : s.iperm r with
          | none => rfl
          | some c =>
            have := h3 r (by rw [hs]; rfl)
            rw [hn] at this; simp at this)
        (by
          intro c hc hn
          obtain ⟨e1, e2⟩ := hUr c hn
          rw [e1]; exact hU c hc e2) ht
      refine ⟨?_, fun r hr => i2 r (h3 r hr)⟩
      intro y hy
      rcases List.mem_cons.1 hy with e | hy
      · rw [e]; exact i2 k hi
      · exact i1 y hy

theorem matching_complete {a : Arith G} (hx : Exact a) (hmax : 0 ≤ a.max) {m : Csr G} (hwf : WfCsr m)
    {U V : Nat → G} (hV : ∀ k, k < m.n → ∀ q ∈ m.row k, V k ≤ m.val q - U (m.col q))
    (hV0 : ∀ k, k < m.n → 0 ≤ V k) (hU0 : ∀ c, c < m.n → 0 ≤ U c)
    (htiny : 0 < a.tiny)
    (hz : ∀ k, k < m.n → ∀ q ∈ m.row k, |m.val q - V k - U (m.col q)| ≤ a.tiny →
      m.val q - V k - U (m.col q) = 0) {B : G}
    (hval : ∀ r, r < m.n → ∀ q ∈ m.row r, 0 ≤ m.val q ∧ m.val q ≤ B)
    (hbig : (2 * m.n : G) * B < a.max) {pos : Nat → Nat}
    (hpos : ∀ r, r < m.n → pos r ∈ m.row r)
    (hposinj : ∀ r r', r < m.n → r' < m.n → m.col (pos r) = m.col (pos r') → r = r')
    {t : St G} (ht : matching a m U V = some t) : ∀ k, k < m.n → (t.iperm k).isSome := by
  obtain ⟨s, h1, h2, h3, h4⟩ := stages_opt hx hwf hV htiny hz
  unfold matching at ht
  rw [h1] at ht
  intro k hk
  refine (rounds_complete hx hmax hwf hval hbig hpos hposinj (List.range m.n) s t
    (fun k hk => List.mem_range.1 hk) h2 ?_ ?_ ht).1 k (List.mem_range.2 hk)
  · intro r hr _; rw [h4]; exact hV0 r hr
  · intro c hc _; rw [h3]; exact hU0 c hc

/-! ### The start -/

theorem columnMin_le {a : Arith G} (hx : Exact a) (b c : Csr G) (cmax : Nat → G)
    (hcol : ∀ q, b.col q = c.col q) : ∀ (l : List Nat) (u : Nat → G),
    (∀ q ∈ l, a.isZero (cmax (b.col q)) = false ∧ a.isZero (b.val q) = false) →
    (∀ j, columnMin a b c cmax l u j ≤ u j) ∧
    ∀ q ∈ l, columnMin a b c cmax l u (c.col q) ≤ c.val q := by
  intro l
  induction l with
  | nil => intro u _; exact ⟨fun _ => le_refl _, by simp⟩
  | cons q l ih =>
    intro u hz
    rw [columnMin]
    obtain ⟨z1, z2⟩ := hz q (by simp)
    simp only [z1, z2, Bool.or_false, Bool.false_eq_true, if_false]
    obtain ⟨h1, h2⟩ := ih (if a.lt (c.val q) (u (c.col q)) then put u (c.col q) (c.val q) else u)
      (fun p hp => hz p (by simp [hp]))
    have hle : (∀ j, (if a.lt (c.val q) (u (c.col q)) then put u (c.col q) (c.val q) else u) j ≤ u j) ∧
        (if a.lt (c.val q) (u (c.col q)) then put u (c.col q) (c.val q) else u) (c.col q) ≤ c.val q := by
      split
      · rename_i hb
        refine ⟨?_, by rw [put_eq]⟩
        intro j
        rw [put_apply]
        split
        · rename_i e; rw [e]; exact le_of_lt ((hx.lt _ _).1 hb)
        · exact le_refl _
      · rename_i hb
        exact ⟨fun _ => le_refl _, not_lt.1 fun hh => hb ((hx.lt _ _).2 hh)⟩
    refine ⟨fun j => le_trans (h1 j) (hle.1 j), ?_⟩
    intro p hp
    rcases List.mem_cons.1 hp with e | hp
    · rw [e]; exact le_trans (h1 _) hle.2
    · exact h2 p hp

theorem columnMin_nonneg (a : Arith G) (b c : Csr G) (cmax : Nat → G) : ∀ (l : List Nat) (u : Nat → G),
    (∀ j, 0 ≤ u j) → (∀ q ∈ l, 0 ≤ c.val q) → ∀ j, 0 ≤ columnMin a b c cmax l u j := by
  intro l
  induction l with
  | nil => intro u hu _ j; exact hu j
  | cons q l ih =>
    intro u hu hq
    rw [columnMin]
    refine ih _ ?_ (fun p hp => hq p (by simp [hp]))
    intro j
    split
    · exact hu j
    · split
      · rw [put_apply]
        split
        · exact hq q (by simp)
        · exact hu j
      · exact hu j

theorem rowMin_nonneg {a : Arith G} (hx : Exact a) (m : Csr G) (U : Nat → G) : ∀ (l : List Nat) (v : G),
    0 ≤ v → (∀ q ∈ l, U (m.col q) ≤ m.val q) → 0 ≤ rowMin a m U l v := by
  intro l
  induction l with
  | nil => intro v hv _; exact hv
  | cons q l ih =>
    intro v hv hq
    rw [rowMin]
    refine ih _ ?_ (fun p hp => hq p (by simp [hp]))
    split
    · unfold reducedU
      rw [hx.sub]
      have := hq q (by simp)
      linarith
    · exact hv

/-- The largest value of a column is one of its values. -/
theorem columnMax_attained (a : Arith G) (m : Csr G) : ∀ (l : List Nat) (c : Nat → G) (j : Nat),
    columnMax a m l c j = c j ∨ ∃ q ∈ l, m.col q = j ∧ columnMax a m l c j = m.val q := by
  intro l
  induction l with
  | nil => intro c j; exact Or.inl rfl
  | cons q l ih =>
    intro c j
    rw [columnMax]
    rcases ih (if a.lt (c (m.col q)) (m.val q) then put c (m.col q) (m.val q) else c) j with h | ⟨p, hp, h⟩
    · rw [h]
      split
      · rw [put_apply]
        split
        · rename_i e
          exact Or.inr ⟨q, by simp, e.symm, rfl⟩
        · exact Or.inl rfl
      · exact Or.inl rfl
    · exact Or.inr ⟨p, by simp [hp], h⟩

theorem mem_all {a : Arith G} {n : Nat} {A : Nat → List (Nat × G)} : ∀ {u : Nat}, u ≤ n → ∀ q,
    q < (absolute a n A).adr u → ∃ k, k < u ∧ q ∈ (absolute a n A).row k := by
  intro u
  induction u with
  | zero => intro _ q hq; simp [absolute, entries] at hq
  | succ u ih =>
    intro hu q hq
    by_cases h : q < (absolute a n A).adr u
    · obtain ⟨k, hk, hk'⟩ := ih (by omega) q h
      exact ⟨k, by omega, hk'⟩
    · refine ⟨u, by omega, ?_⟩
      simp only [Csr.row, List.mem_range'_1]
      omega

/-- Values of costs. -/
theorem costs_bounds {a : Arith G} (hx : Exact a) {n : Nat} {A : Nat → List (Nat × G)}
    (hmono : ∀ x y, 0 < x → x ≤ y → a.log x ≤ a.log y)
    (hnz : ∀ r c v, r < n → c < n → (c, v) ∈ A r → v ≠ 0) {B : G}
    (hB : ∀ r r' c v w, r < n → r' < n → c < n → (c, v) ∈ A r → (c, w) ∈ A r' →
      a.log |w| - a.log |v| ≤ B) {k q : Nat} (hk : k < n) (hq : q ∈ (absolute a n A).row k) :
    a.isZero (colMax a n A ((absolute a n A).col q)) = false ∧
    a.isZero ((absolute a n A).val q) = false ∧
    0 ≤ (costMatrix a n A).val q ∧ (costMatrix a n A).val q ≤ B := by
  have h1 := (row_entry a hk _ _).1 ⟨q, hq, rfl, rfl⟩
  obtain ⟨hc, v, hv, hw⟩ := (mem_localRow a).1 h1
  rw [hx.abs] at hw
  have hv0 := hnz k _ v hk hc hv
  have hpos : 0 < (absolute a n A).val q := by rw [hw]; exact abs_pos.2 hv0
  have hge := (columnMax_ge hx (absolute a n A) (List.range ((absolute a n A).adr n))
    (fun _ => a.zero)).2 q (row_lt_all hk hq)
  have hmaxpos : 0 < colMax a n A ((absolute a n A).col q) := lt_of_lt_of_le hpos hge
  have e1 : a.isZero (colMax a n A ((absolute a n A).col q)) = false := by
    cases h : a.isZero (colMax a n A ((absolute a n A).col q)) with
    | false => rfl
    | true => exact absurd ((hx.isZero _).1 h) (ne_of_gt hmaxpos)
  have e2 : a.isZero ((absolute a n A).val q) = false := by
    cases h : a.isZero ((absolute a n A).val q) with
    | false => rfl
    | true => exact absurd ((hx.isZero _).1 h) (ne_of_gt hpos)
  have hval : (costMatrix a n A).val q =
      a.log (colMax a n A ((absolute a n A).col q)) - a.log |v| := by
    show costOf a (colMax a n A ((absolute a n A).col q)) ((absolute a n A).val q) = _
    unfold costOf
    rw [e1, e2]
    simp only [Bool.or_false, Bool.false_eq_true, if_false]
    rw [hx.sub, hw]
  refine ⟨e1, e2, ?_, ?_⟩
  · rw [hval, ← hw]
    exact sub_nonneg.2 (hmono _ _ hpos hge)
  · rw [hval]
    rcases columnMax_attained a (absolute a n A) (List.range ((absolute a n A).adr n))
      (fun _ => a.zero) ((absolute a n A).col q) with h | ⟨p, hp, hpc, hpv⟩
    · exfalso
      have : colMax a n A ((absolute a n A).col q) = a.zero := h
      rw [this, hx.zero] at hmaxpos
      exact lt_irrefl _ hmaxpos
    · obtain ⟨k', hk', hp'⟩ := mem_all (Nat.le_refl n) p (List.mem_range.1 hp)
      obtain ⟨hc', w, hw', hww⟩ := (mem_localRow a).1 ((row_entry a hk' _ _).1 ⟨p, hp', rfl, rfl⟩)
      rw [hx.abs] at hww
      rw [hpc] at hc' hw'
      have : colMax a n A ((absolute a n A).col q) = |w| := by
        rw [← hww]; exact hpv
      rw [this]
      exact hB k k' _ v w hk hk' hc hv hw'

/-- Every row is matched. -/
theorem reorder_complete {a : Arith G} (hx : Exact a) (htiny : 0 < a.tiny) (hmax : 0 ≤ a.max)
    {n : Nat} {A : Nat → List (Nat × G)}
    (hmono : ∀ x y, 0 < x → x ≤ y → a.log x ≤ a.log y)
    (hnz : ∀ r c v, r < n → c < n → (c, v) ∈ A r → v ≠ 0) {B : G}
    (hB : ∀ r r' c v w, r < n → r' < n → c < n → (c, v) ∈ A r → (c, w) ∈ A r' →
      a.log |w| - a.log |v| ≤ B)
    (hbig : (2 * n : G) * B < a.max)
    (hsmall : ∀ k, k < n → ∀ q ∈ (costMatrix a n A).row k,
      gap a (costMatrix a n A) (initial a n A) k q ≤ a.tiny →
      gap a (costMatrix a n A) (initial a n A) k q = 0)
    {σ : Nat → Nat} {w : Nat → G} (hσ : ∀ c, c < n → σ c < n)
    (hσinj : ∀ c d, c < n → d < n → σ c = σ d → c = d) (hw : ∀ c, c < n → (c, w c) ∈ A (σ c))
    {s : St G} {p : Nat → Option Nat} (h : reorder a n A = some (s, p)) :
    ∀ k, k < n → (s.iperm k).isSome := by
  have hgap : ∀ k q, gap a (costMatrix a n A) (initial a n A) k q =
      |(costMatrix a n A).val q - startV a n A k - startU a n A ((costMatrix a n A).col q)| := by
    intro k q
    unfold gap
    rw [hx.abs, hx.sub, hx.sub]; rfl
  -- positions of the entries of the other permutation, by rows
  have hsurj : ∀ r, r < n → ∃ c, c < n ∧ σ c = r := by
    intro r hr
    have hnd : ((List.range n).map σ).Nodup := by
      refine List.Nodup.map_on ?_ List.nodup_range
      intro c hc d hd e
      exact hσinj c d (List.mem_range.1 hc) (List.mem_range.1 hd) e
    have hsub : ((List.range n).map σ) ⊆ List.range n := by
      intro x hx'
      obtain ⟨c, hc, e⟩ := List.mem_map.1 hx'
      rw [← e]; exact List.mem_range.2 (hσ c (List.mem_range.1 hc))
    have hperm := (List.subperm_of_subset hnd hsub).perm_of_length_le (by simp)
    obtain ⟨c, hc, e⟩ := List.mem_map.1 (hperm.mem_iff.2 (List.mem_range.2 hr))
    exact ⟨c, List.mem_range.1 hc, e⟩
  have hposex : ∀ r, ∃ q, r < n → q ∈ (costMatrix a n A).row r ∧ ∃ c, c < n ∧ σ c = r ∧
      (costMatrix a n A).col q = c := by
    intro r
    by_cases hr : r < n
    · obtain ⟨c, hc, e⟩ := hsurj r hr
      have hwc := hw c hc
      rw [e] at hwc
      obtain ⟨q, q1, q2, _⟩ := (row_entry a hr c (a.abs (w c))).2 ((mem_localRow a).2
        ⟨hc, w c, hwc, rfl⟩)
      exact ⟨q, fun _ => ⟨q1, c, hc, e, q2⟩⟩
    · exact ⟨0, fun h => absurd h hr⟩
  choose pos hpos using hposex
  have hval : ∀ r, r < n → ∀ q ∈ (costMatrix a n A).row r,
      0 ≤ (costMatrix a n A).val q ∧ (costMatrix a n A).val q ≤ B := by
    intro r hr q hq
    exact (costs_bounds hx hmono hnz hB hr hq).2.2
  have hU0 : ∀ c, 0 ≤ startU a n A c := by
    intro c
    refine columnMin_nonneg a _ _ _ _ _ (fun _ => hmax) ?_ c
    intro q hq
    obtain ⟨k, hk, hk'⟩ := mem_all (Nat.le_refl n) q (List.mem_range.1 hq)
    exact (hval k hk q hk').1
  have hUle : ∀ k, k < n → ∀ q ∈ (costMatrix a n A).row k,
      startU a n A ((costMatrix a n A).col q) ≤ (costMatrix a n A).val q := by
    intro k hk q hq
    refine (columnMin_le hx (absolute a n A) (costMatrix a n A) (colMax a n A) (fun _ => rfl)
      (List.range ((absolute a n A).adr n)) (fun _ => a.max) ?_).2 q (row_lt_all hk hq)
    intro y hy
    obtain ⟨k', hk', hy'⟩ := mem_all (Nat.le_refl n) y (List.mem_range.1 hy)
    obtain ⟨z1, z2, _⟩ := costs_bounds hx hmono hnz hB hk' hy'
    exact ⟨z1, z2⟩
  rw [reorder_eq] at h
  cases hm : matching a (costMatrix a n A) (startU a n A) (startV a n A) with
  | none => rw [hm] at h; simp at h
  | some t =>
    rw [hm] at h
    simp only at h
    cases hf : fillGaps (List.range n) (gaps n t.perm) t.perm with
    | none => rw [hf] at h; simp at h
    | some p' =>
      rw [hf] at h
      obtain ⟨e1, _⟩ := Prod.mk.inj (Option.some.inj h)
      subst e1
      refine matching_complete hx hmax (wf_costMatrix a n A) ?_ ?_ (fun c _ => hU0 c) htiny ?_ hval
        hbig (fun r hr => (hpos r hr).1) ?_ hm
      · intro k hk q hq
        exact (rowMin_le hx (costMatrix a n A) (startU a n A) _ a.max).2 q hq
      · intro k hk
        exact rowMin_nonneg hx _ _ _ _ hmax (hUle k hk)
      · intro k hk q hq hle
        have := hsmall k hk q hq (by rw [hgap]; exact hle)
        rw [hgap] at this
        exact abs_eq_zero.1 this
      · intro r r' hr hr' e
        obtain ⟨_, c, hc, ec, e1⟩ := hpos r hr
        obtain ⟨_, c', hc', ec', e2⟩ := hpos r' hr'
        rw [e1, e2] at e
        rw [← ec, ← ec', e]

end Ring

end Verif.Matching
