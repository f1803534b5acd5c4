import Verif.Matching.Search
import Mathlib.Algebra.Order.Group.Abs
import Mathlib.Algebra.Order.Group.Basic
import Mathlib.Tactic.Abel
/-
The search finds a shortest path when the arithmetic is exact, and the dual variables stay
feasible.
-/

namespace Verif.Matching

open Verif.Heap (put put_eq put_ne Linked Ordered)

variable {G : Type} [AddCommGroup G] [LinearOrder G] [IsOrderedAddMonoid G]

/-- The operations are those of an ordered group. -/
structure Exact (a : Arith G) : Prop where
  zero : a.zero = 0
  add : ∀ x y, a.add x y = x + y
  sub : ∀ x y, a.sub x y = x - y
  abs : ∀ x, a.abs x = |x|
  lt : ∀ x y, a.lt x y = true ↔ x < y
  le : ∀ x y, a.le x y = true ↔ x ≤ y
  isZero : ∀ x, a.isZero x = true ↔ x = 0

theorem Exact.hle {a : Arith G} (h : Exact a) : ∀ x y, a.le x y = true → a.lt y x = false := by
  intro x y hx
  have := (h.le x y).1 hx
  cases hy : a.lt y x with
  | false => rfl
  | true => exact absurd ((h.lt y x).1 hy) (not_lt.2 this)

theorem Exact.nlt {a : Arith G} (h : Exact a) {x y : G} (hx : ¬ a.lt x y = true) : y ≤ x :=
  not_lt.1 fun hy => hx ((h.lt x y).2 hy)

theorem Exact.nle {a : Arith G} (h : Exact a) {x y : G} (hx : ¬ a.le x y = true) : y < x :=
  not_le.1 fun hy => hx ((h.le x y).2 hy)

theorem Exact.fits {a : Arith G} (h : Exact a) : Heap.Fits (fun x y : G => x ≤ y) a.cmp where
  refl := fun _ => le_refl _
  trans := fun _ _ _ => le_trans
  above := fun p q hh => le_of_lt ((h.lt q p).1 hh)
  notAbove := fun p q hh => h.nlt (x := q) (y := p) (by change a.lt q p = false at hh; rw [hh]; simp)
  right := fun p q hh => le_of_lt ((h.lt q p).1 hh)
  notRight := fun p q hh => h.nlt (x := q) (y := p) (by change a.lt q p = false at hh; rw [hh]; simp)
  stop := fun p q hh => (h.le p q).1 hh
  notStop := fun p q hh => le_of_lt (h.nle (by change a.le p q = false at hh; rw [hh]; simp))

/-- Reduced cost of the entry at `q` of row `r`. -/
def rc (m : Csr G) (s : St G) (r q : Nat) : G := m.val q - s.V r - s.U (m.col q)

/-- Dual variables are feasible. -/
def Feasible (m : Csr G) (s : St G) : Prop := ∀ r, r < m.n → ∀ q ∈ m.row r, 0 ≤ rc m s r q

/-- Pairs are tight. -/
def TightPairs (m : Csr G) (s : St G) : Prop := ∀ r q, s.colPos r = some q →
  (s.iperm r).isSome → rc m s r q = 0

/-- Distance of a row of the tree from the root. -/
def RowDist (perm : Nat → Option Nat) (k : Nat) (T : List Nat) (keys : Nat → G) (r : Nat) (d : G) :
    Prop := (r = k ∧ d = 0) ∨ ∃ u ∈ T, perm u = some r ∧ d = keys u

structure Short (a : Arith G) (m : Csr G) (k : Nat) (s0 : St G) (T : List Nat) (sp : G)
    (Done : Nat → Nat → Prop) (s : St G) (x : Loc G) : Prop where
  ordered : Ordered (fun x y : G => x ≤ y) s.heap
  keyT : ∀ u ∈ T, s.heap.keys u ≤ sp
  keyH : ∀ c, (s.heap.index c).isSome → sp ≤ s.heap.keys c
  far : ∀ c, c ∉ T → s.heap.index c = none → s.heap.keys c = a.max
  augLe : x.aug ≤ a.max
  augGe : sp ≤ x.aug
  short : ∀ r d q, RowDist s0.perm k T s.heap.keys r d → Done r q → q ∈ m.row r →
    s.heap.keys (m.col q) ≤ d + rc m s0 r q ∨ x.aug ≤ d + rc m s0 r q
  tight : ∀ c, c ∈ T ∨ (s.heap.index c).isSome → ∃ r p q d, s0.perm c = some r ∧
    s.parent r = some p ∧ RowDist s0.perm k T s.heap.keys p d ∧ s.augPos c = some q ∧
    s.heap.keys c = d + rc m s0 p q
  endTight : ∀ e, x.pathEnd = some e → ∃ q d, s.augPos e = some q ∧
    RowDist s0.perm k T s.heap.keys x.trace d ∧ x.aug = d + rc m s0 x.trace q

omit [IsOrderedAddMonoid G] in
theorem RowDist.congr {perm : Nat → Option Nat} {k : Nat} {T : List Nat} {keys keys' : Nat → G}
    {r : Nat} {d : G} (h : RowDist perm k T keys r d) (he : ∀ u ∈ T, keys' u = keys u) :
    RowDist perm k T keys' r d := by
  rcases h with h | ⟨u, hu, h1, h2⟩
  · exact Or.inl h
  · exact Or.inr ⟨u, hu, h1, by rw [he u hu]; exact h2⟩

omit [IsOrderedAddMonoid G] in
theorem RowDist.mono {perm : Nat → Option Nat} {k v : Nat} {T : List Nat} {keys : Nat → G}
    {r : Nat} {d : G} (h : RowDist perm k T keys r d) : RowDist perm k (v :: T) keys r d := by
  rcases h with h | ⟨u, hu, h1, h2⟩
  · exact Or.inl h
  · exact Or.inr ⟨u, by simp [hu], h1, h2⟩

theorem lower_ordered {a : Arith G} (hx : Exact a) {h t : Heap.State G} (hl : Linked h)
    (ho : Ordered (fun x y : G => x ≤ y) h) {c : Nat} (hc : c < h.sizeMax) {l : G}
    (hlt : l ≤ h.keys c) (ht : lower a h c l = some t) : Ordered (fun x y : G => x ≤ y) t := by
  unfold lower at ht
  have hcon : Heap.contains h c = some (h.index c).isSome := by
    unfold Heap.contains; rw [if_pos (by omega)]
  rw [hcon] at ht
  cases hi : h.index c with
  | none =>
    rw [hi] at ht
    exact Heap.pushHeap_ordered hx.fits hl ho hc hi ht
  | some p =>
    rw [hi] at ht
    exact Heap.decreaseKey_ordered hx.fits hl ho hi hlt ht

theorem length_exact {a : Arith G} (hx : Exact a) {m : Csr G} {s s0 : St G} (hU : s.U = s0.U)
    (hV : s.V = s0.V) {sp : G} (hsp : 0 ≤ sp) {li q : Nat} (hrc : 0 ≤ rc m s0 li q) :
    length a m s sp li q = sp + rc m s0 li q := by
  unfold length
  simp only [hx.zero, hx.add, hx.sub, hU, hV]
  have e : sp + m.val q - s0.V li - s0.U (m.col q) = sp + rc m s0 li q := by
    unfold rc; abel
  rw [e]
  have : a.lt (sp + rc m s0 li q) 0 = false := by
    cases h : a.lt (sp + rc m s0 li q) 0 with
    | false => rfl
    | true => exact absurd ((hx.lt _ _).1 h) (not_lt.2 (add_nonneg hsp hrc))
  rw [this]; rfl

omit [IsOrderedAddMonoid G] in
theorem RowDist.unique {m : Csr G} {s0 : St G} (hpairs : Pairs m s0.perm s0.iperm s0.colPos) {k : Nat}
    (hroot : s0.iperm k = none) {T : List Nat} {keys : Nat → G} {r : Nat} {d d' : G}
    (h : RowDist s0.perm k T keys r d) (h' : RowDist s0.perm k T keys r d') : d = d' := by
  rcases h with ⟨e, h1⟩ | ⟨u, _, h1, h2⟩ <;> rcases h' with ⟨e', g1⟩ | ⟨v, _, g1, g2⟩
  · rw [h1, g1]
  · rw [e] at g1
    have := (hpairs.inv _ _).1 g1
    rw [hroot] at this; simp at this
  · rw [e'] at h1
    have := (hpairs.inv _ _).1 h1
    rw [hroot] at this; simp at this
  · have a1 := (hpairs.inv _ _).1 h1
    rw [(hpairs.inv _ _).1 g1] at a1
    rw [h2, g2, Option.some.inj a1]

theorem relaxOne_short {a : Arith G} (hx : Exact a) {m : Csr G} {k : Nat} {s0 : St G}
    (hpairs : Pairs m s0.perm s0.iperm s0.colPos) (hroot : s0.iperm k = none)
    (hlist : ∀ c, s0.colList c = none) {T : List Nat}
    {li : Nat} {sp : G} (hsp : 0 ≤ sp)
    {q : Nat} (hrc : 0 ≤ rc m s0 li q)
    (hcol : m.col q < m.n) {Done : Nat → Nat → Prop} {s s' : St G} {x x' : Loc G}
    (hd : RowDist s0.perm k T s.heap.keys li sp)
    (h : InSearch a m k s0 T s x) (hs : Short a m k s0 T sp Done s x)
    (hr : relaxOne a m li sp q s x = some (s', x')) :
    Short a m k s0 T sp (fun r p => Done r p ∨ (r = li ∧ p = q)) s' x' ∧
    RowDist s0.perm k T s'.heap.keys li sp := by
  have hlen := length_exact hx h.U h.V hsp hrc (a := a) (m := m) (s := s) (s0 := s0)
  have hl : sp ≤ sp + rc m s0 li q := le_add_of_nonneg_right hrc
  -- nothing changes
  have hsame : (s.heap.keys (m.col q) ≤ sp + rc m s0 li q ∨ x.aug ≤ sp + rc m s0 li q) →
      Short a m k s0 T sp (fun r p => Done r p ∨ (r = li ∧ p = q)) s x := by
    intro hb
    refine { hs with short := ?_ }
    intro r d p hrd hdone hp
    rcases hdone with hdone | ⟨e1, e2⟩
    · exact hs.short r d p hrd hdone hp
    · rw [e1] at hrd
      rw [e1, e2, RowDist.unique hpairs hroot hrd hd]
      exact hb
  unfold relaxOne at hr
  by_cases h1 : (s.colList (m.col q)).isSome = true
  · rw [if_pos h1] at hr
    obtain ⟨rfl, rfl⟩ := Prod.mk.inj (Option.some.inj hr)
    refine ⟨hsame (Or.inl ?_), hd⟩
    rcases (h.lists _).1 h1 with hm | hm
    · exact le_trans (hs.keyT _ hm) hl
    · rw [hlist] at hm; simp at hm
  · rw [if_neg h1] at hr
    have hcT : m.col q ∉ T := fun hm => h1 ((h.lists _).2 (Or.inl hm))
    by_cases h2 : a.lt (length a m s sp li q) x.aug = true
    · rw [if_pos h2] at hr
      have hlt : sp + rc m s0 li q < x.aug := by
        have := (hx.lt _ _).1 h2
        rwa [hlen] at this
      cases hp : s.perm (m.col q) with
      | none =>
        rw [hp] at hr
        obtain ⟨rfl, rfl⟩ := Prod.mk.inj (Option.some.inj hr)
        have hp0 : s0.perm (m.col q) = none := by rw [← h.perm]; exact hp
        refine ⟨⟨hs.ordered, hs.keyT, hs.keyH, hs.far, ?_, ?_, ?_, ?_, ?_⟩, hd⟩
        · show length a m s sp li q ≤ a.max
          rw [hlen]; exact le_trans (le_of_lt hlt) hs.augLe
        · show sp ≤ length a m s sp li q
          rw [hlen]; exact hl
        · intro r d p hrd hdone hpr
          show _ ∨ length a m s sp li q ≤ _
          rw [hlen]
          rcases hdone with hdone | ⟨e1, e2⟩
          · rcases hs.short r d p hrd hdone hpr with g | g
            · exact Or.inl g
            · exact Or.inr (le_trans (le_of_lt hlt) g)
          · rw [e1] at hrd
            rw [e1, e2, RowDist.unique hpairs hroot hrd hd]
            exact Or.inr (le_refl _)
        · intro c hc
          obtain ⟨r, p, y, d, g1, g2, g3, g4, g5⟩ := hs.tight c hc
          refine ⟨r, p, y, d, g1, g2, g3, ?_, g5⟩
          show put s.augPos (m.col q) (some q) c = _
          rw [put_ne]
          · exact g4
          · intro e; rw [e, hp0] at g1; simp at g1
        · intro e he
          have e' : m.col q = e := Option.some.inj he
          subst e'
          exact ⟨q, sp, put_eq _ _ _, hd, hlen⟩
      | some r =>
        rw [hp] at hr
        simp only at hr
        have hp0 : s0.perm (m.col q) = some r := by rw [← h.perm]; exact hp
        by_cases h3 : a.lt (length a m s sp li q) (s.heap.keys (m.col q)) = true
        · rw [if_pos h3] at hr
          have hlk : sp + rc m s0 li q < s.heap.keys (m.col q) := by
            have := (hx.lt _ _).1 h3
            rwa [hlen] at this
          have hcs : m.col q < s.heap.sizeMax := by rw [h.sizeMax]; exact hcol
          obtain ⟨hp', l1, l2, l3, l4, l5⟩ := lower_spec a h.linked hcs (length a m s sp li q)
          have lo := lower_ordered hx h.linked hs.ordered hcs (by rw [hlen]; exact le_of_lt hlk) l1
          simp only [l1] at hr
          obtain ⟨rfl, rfl⟩ := Prod.mk.inj (Option.some.inj hr)
          rw [hlen] at l4
          have hT : ∀ u ∈ T, hp'.keys u = s.heap.keys u := by
            intro u hu
            rw [l4, put_ne _ _ (fun e : u = m.col q => hcT (e ▸ hu))]
          have hT' : ∀ u ∈ T, s.heap.keys u = hp'.keys u := fun u hu => (hT u hu).symm
          have hinj : ∀ c, s0.perm c = some r → c = m.col q := by
            intro c hc
            have g1 := (hpairs.inv _ _).1 hc
            rw [(hpairs.inv _ _).1 hp0] at g1
            exact (Option.some.inj g1).symm
          have hkle : ∀ c, hp'.keys c ≤ s.heap.keys c := by
            intro c
            rw [l4]
            by_cases e : c = m.col q
            · rw [e, put_eq]; exact le_of_lt hlk
            · rw [put_ne _ _ e]
          refine ⟨⟨lo, ?_, ?_, ?_, hs.augLe, hs.augGe, ?_, ?_, ?_⟩, hd.congr hT⟩
          · intro u hu
            show hp'.keys u ≤ sp
            rw [hT u hu]; exact hs.keyT u hu
          · intro c hc
            show sp ≤ hp'.keys c
            change (hp'.index c).isSome = true at hc
            rw [l5 c] at hc
            rw [l4]
            by_cases e : c = m.col q
            · rw [e, put_eq]; exact hl
            · rw [put_ne _ _ e]
              rw [if_neg e] at hc
              exact hs.keyH c hc
          · intro c hc hn
            show hp'.keys c = a.max
            change hp'.index c = none at hn
            have := l5 c
            rw [hn] at this
            by_cases e : c = m.col q
            · rw [if_pos e] at this; simp at this
            · rw [if_neg e] at this
              rw [l4, put_ne _ _ e]
              exact hs.far c hc (by simpa using this.symm)
          · intro r' d p hrd hdone hpr
            have hrd' := RowDist.congr (keys' := s.heap.keys) hrd hT'
            show hp'.keys (m.col p) ≤ _ ∨ _
            rcases hdone with hdone | ⟨e1, e2⟩
            · rcases hs.short r' d p hrd' hdone hpr with g | g
              · exact Or.inl (le_trans (hkle _) g)
              · exact Or.inr g
            · rw [e1] at hrd'
              rw [e1, e2, RowDist.unique hpairs hroot hrd' hd]
              left
              rw [l4, put_eq]
          · intro c hc
            by_cases e : c = m.col q
            · refine ⟨r, li, q, sp, by rw [e]; exact hp0, put_eq _ _ _, hd.congr hT, ?_, ?_⟩
              · show put s.augPos (m.col q) (some q) c = _
                rw [e, put_eq]
              · show hp'.keys c = _
                rw [l4, e, put_eq]
            · have hc' : c ∈ T ∨ (s.heap.index c).isSome = true := by
                rcases hc with hc | hc
                · exact Or.inl hc
                · change (hp'.index c).isSome = true at hc
                  rw [l5 c, if_neg e] at hc
                  exact Or.inr hc
              obtain ⟨r', p, y, d, g1, g2, g3, g4, g5⟩ := hs.tight c hc'
              refine ⟨r', p, y, d, g1, ?_, g3.congr hT, ?_, ?_⟩
              · show put s.parent r (some li) r' = _
                rw [put_ne]
                · exact g2
                · intro e'; rw [e'] at g1; exact e (hinj c g1)
              · show put s.augPos _ _ c = _
                rw [put_ne _ _ e]; exact g4
              · show hp'.keys c = _
                rw [l4, put_ne _ _ e]; exact g5
          · intro e he
            obtain ⟨y, d, g1, g2, g3⟩ := hs.endTight e he
            refine ⟨y, d, ?_, g2.congr hT, g3⟩
            show put s.augPos _ _ e = _
            rw [put_ne]
            · exact g1
            · intro e'
              have := (h.ends e he).1
              rw [e', hp0] at this; simp at this
        · rw [if_neg h3] at hr
          obtain ⟨rfl, rfl⟩ := Prod.mk.inj (Option.some.inj hr)
          refine ⟨hsame (Or.inl ?_), hd⟩
          rw [hlen] at h3
          exact hx.nlt h3
    · rw [if_neg h2] at hr
      obtain ⟨rfl, rfl⟩ := Prod.mk.inj (Option.some.inj hr)
      refine ⟨hsame (Or.inr ?_), hd⟩
      rw [hlen] at h2
      exact hx.nlt h2

theorem relax_short {a : Arith G} (hx : Exact a) {m : Csr G} (hwf : WfCsr m) {k : Nat} {s0 : St G}
    (hpairs : Pairs m s0.perm s0.iperm s0.colPos) (hroot : s0.iperm k = none)
    (hlist : ∀ c, s0.colList c = none) (hfeas : Feasible m s0) {T : List Nat}
    {li : Nat} (hli : TreeRow s0.perm k T li) (hln : li < m.n) {sp : G} (hsp : 0 ≤ sp) :
    ∀ (l : List Nat), (∀ q ∈ l, q ∈ m.row li) → ∀ {Done : Nat → Nat → Prop} {s : St G} {x : Loc G},
    RowDist s0.perm k T s.heap.keys li sp → InSearch a m k s0 T s x →
    Short a m k s0 T sp Done s x →
    ∃ s' x', relax a m li sp l s x = some (s', x') ∧ InSearch a m k s0 T s' x' ∧
      Short a m k s0 T sp (fun r p => Done r p ∨ (r = li ∧ p ∈ l)) s' x' := by
  intro l
  induction l with
  | nil => intro _ Done s x _ h hs; exact ⟨s, x, rfl, h, by simpa using hs⟩
  | cons q l ih =>
    intro hl Done s x hd h hs
    obtain ⟨s1, x1, h1, h2⟩ := relaxOne_spec a hpairs hroot hli (sp := sp) (hl q (by simp))
      (hwf li hln q (hl q (by simp))) h
    obtain ⟨hs1, hd1⟩ := relaxOne_short hx hpairs hroot hlist hsp
      (hfeas li hln q (hl q (by simp))) (hwf li hln q (hl q (by simp))) hd h hs h1
    obtain ⟨s2, x2, h3, h4, h5⟩ := ih (fun y hy => hl y (by simp [hy])) hd1 h2 hs1
    refine ⟨s2, x2, by rw [relax, h1]; exact h3, h4, { h5 with short := ?_ }⟩
    intro r d p hrd hdone hpr
    refine h5.short r d p hrd ?_ hpr
    rcases hdone with g | ⟨g, g'⟩
    · exact Or.inl (Or.inl g)
    · rcases List.mem_cons.1 g' with e | g'
      · exact Or.inl (Or.inr ⟨g, e⟩)
      · exact Or.inr ⟨g, g'⟩

/-- What the search leaves. -/
structure Shortest (a : Arith G) (m : Csr G) (k : Nat) (s0 : St G) (T : List Nat)
    (s : St G) (x : Loc G) : Prop where
  keyT : ∀ u ∈ T, s.heap.keys u ≤ x.aug
  far : ∀ c, c ∉ T → s.heap.index c = none → s.heap.keys c = a.max
  short : ∀ r d q, RowDist s0.perm k T s.heap.keys r d → q ∈ m.row r →
    (m.col q ∈ T ∧ s.heap.keys (m.col q) ≤ d + rc m s0 r q) ∨ x.aug ≤ d + rc m s0 r q
  tight : ∀ c ∈ T, ∃ r p q d, s0.perm c = some r ∧
    s.parent r = some p ∧ RowDist s0.perm k T s.heap.keys p d ∧ s.augPos c = some q ∧
    s.heap.keys c = d + rc m s0 p q
  endTight : ∀ e, x.pathEnd = some e → ∃ q d, s.augPos e = some q ∧
    RowDist s0.perm k T s.heap.keys x.trace d ∧ x.aug = d + rc m s0 x.trace q
  noPath : x.pathEnd = none → x.aug = a.max

theorem pop_min {a : Arith G} (hx : Exact a) {h t : Heap.State G} (hl : Linked h)
    (ho : Ordered (fun x y : G => x ≤ y) h) {u : Nat} (hp : Heap.popHeap a.cmp h = (t, some u)) :
    Ordered (fun x y : G => x ≤ y) t ∧ ∀ c, (h.index c).isSome → h.keys u ≤ h.keys c := by
  have hs : h.size ≠ 0 := by
    intro hs
    unfold Heap.popHeap at hp
    rw [if_pos hs] at hp
    simp at hp
  have h1 := Heap.popHeap_ordered hx.fits hl ho hs
  rw [hp] at h1
  refine ⟨h1, ?_⟩
  obtain ⟨t', g1, _⟩ := Heap.popHeap_linked a.cmp hl hs
  rw [g1] at hp
  have e2 : h.heap 1 = u := Option.some.inj (congrArg Prod.snd hp)
  intro c hc
  obtain ⟨p, hp⟩ := Option.isSome_iff_exists.1 hc
  obtain ⟨b1, b2, b3⟩ := hl.item c p hp
  have := Heap.first_le hx.fits ho p b1 b2
  unfold Heap.State.at at this
  rw [e2, b3] at this
  exact this

theorem search_short {a : Arith G} (hx : Exact a) {m : Csr G}
    (hwf : WfCsr m) {k : Nat} (hk : k < m.n) {s0 : St G}
    (hpairs : Pairs m s0.perm s0.iperm s0.colPos) (hroot : s0.iperm k = none)
    (hlist : ∀ c, s0.colList c = none) (hfeas : Feasible m s0) :
    ∀ (fuel : Nat) {T : List Nat} {li : Nat} {sp : G} {s : St G} {x : Loc G},
    TreeRow s0.perm k T li → 0 ≤ sp → RowDist s0.perm k T s.heap.keys li sp →
    InSearch a m k s0 T s x → Short a m k s0 T sp (fun r _ => r ≠ li) s x →
    m.n + 1 ≤ fuel + T.length →
    ∃ T' s' x', search a m fuel li sp s x = some (s', x') ∧ Found m k s0 T' s' x' ∧
      Shortest a m k s0 T' s' x' := by
  intro fuel
  induction fuel with
  | zero =>
    intro T li sp s x _ _ _ h _ hf
    have := tree_length hwf hpairs h.tree
    omega
  | succ fuel ih =>
    intro T li sp s x hli hsp hd h hs hf
    have hln : li < m.n := by
      rcases hli with e | ⟨u, _, e⟩
      · rw [e]; exact hk
      · exact hpairs.row _ _ ((hpairs.inv _ _).1 e)
    obtain ⟨s1, x1, h1, h2, hs2⟩ := relax_short hx hwf hpairs hroot hlist hfeas hli hln hsp
      (m.row li) (fun _ h => h) hd h hs
    have hall : ∀ r d q, RowDist s0.perm k T s1.heap.keys r d → q ∈ m.row r →
        s1.heap.keys (m.col q) ≤ d + rc m s0 r q ∨ x1.aug ≤ d + rc m s0 r q := by
      intro r d q hrd hq
      refine hs2.short r d q hrd ?_ hq
      by_cases e : r = li
      · exact Or.inr ⟨e, e ▸ hq⟩
      · exact Or.inl e
    rw [search, h1]
    simp only
    cases hpop : Heap.popHeap a.cmp s1.heap with
    | mk hp o =>
      cases o with
      | none =>
        simp only
        have hs : s1.heap.size = 0 := by
          by_cases hs : s1.heap.size = 0
          · exact hs
          · obtain ⟨t, g1, _⟩ := Heap.popHeap_linked a.cmp h2.linked hs
            rw [g1] at hpop; simp at hpop
        have he : hp = s1.heap := by
          unfold Heap.popHeap at hpop
          rw [if_pos hs] at hpop
          exact (congrArg Prod.fst hpop).symm
        subst he
        refine ⟨T, _, _, rfl, ⟨h2.perm, h2.iperm, h2.colPos, h2.U, h2.V, h2.root, h2.chain, h2.lists,
          h2.fresh, h2.tree, h2.linked, h2.sizeMax, h2.ends, fun _ => hs⟩, ?_⟩
        refine ⟨fun u hu => le_trans (hs2.keyT u hu) hs2.augGe, hs2.far, ?_,
          fun c hc => hs2.tight c (Or.inl hc), hs2.endTight, h2.noPath⟩
        intro r d q hrd hq
        rcases hall r d q hrd hq with g | g
        · by_cases hm : m.col q ∈ T
          · exact Or.inl ⟨hm, g⟩
          · right
            rw [hs2.far _ hm (Heap.empty_of_size h2.linked hs _)] at g
            exact le_trans hs2.augLe g
        · exact Or.inr g
      | some ui =>
        simp only
        obtain ⟨g1, g2, g3, g4, g5⟩ := pop_spec a h2 hpop
        obtain ⟨o1, o2⟩ := pop_min hx h2.linked hs2.ordered hpop
        have huT : ui ∉ T := by
          intro hm
          have := (h2.lists ui).2 (Or.inl hm)
          rw [(h2.items ui g1).1] at this; simp at this
        by_cases hb : a.le x1.aug (hp.keys ui) = true
        · rw [if_pos hb]
          have hb' : x1.aug ≤ s1.heap.keys ui := by
            have := (hx.le _ _).1 hb
            rwa [g4] at this
          have hT : ∀ u ∈ T, put hp.keys ui a.max u = s1.heap.keys u := by
            intro u hu
            rw [put_ne _ _ (fun e : u = ui => huT (e ▸ hu)), g4]
          have hT' : ∀ u ∈ T, s1.heap.keys u = put hp.keys ui a.max u := fun u hu => (hT u hu).symm
          refine ⟨T, _, _, rfl, ⟨h2.perm, h2.iperm, h2.colPos, h2.U, h2.V, h2.root, h2.chain,
            h2.lists, h2.fresh, h2.tree, Heap.rekey_linked g2 _ _, g3, h2.ends, ?_⟩, ?_⟩
          · intro hn
            have b1 := h2.below hn ui g1
            rw [h2.noPath hn, g4] at hb
            rw [hx.hle _ _ hb] at b1
            simp at b1
          · refine ⟨?_, ?_, ?_, ?_, ?_, h2.noPath⟩
            · intro u hu
              show put hp.keys ui a.max u ≤ x1.aug
              rw [hT u hu]
              exact le_trans (hs2.keyT u hu) hs2.augGe
            · intro c hc hn
              show put hp.keys ui a.max c = a.max
              by_cases e : c = ui
              · rw [e, put_eq]
              · rw [put_ne _ _ e, g4]
                refine hs2.far c hc ?_
                have := g5 c
                rw [if_neg e] at this
                change hp.index c = none at hn
                rw [hn] at this
                simpa using this.symm
            · intro r d q hrd hq
              have hrd' := RowDist.congr (keys' := s1.heap.keys) hrd hT'
              rcases hall r d q hrd' hq with g | g
              · by_cases hm : m.col q ∈ T
                · refine Or.inl ⟨hm, ?_⟩
                  show put hp.keys ui a.max (m.col q) ≤ _
                  rw [hT _ hm]; exact g
                · right
                  cases hi : s1.heap.index (m.col q) with
                  | none =>
                    rw [hs2.far _ hm hi] at g
                    exact le_trans hs2.augLe g
                  | some p =>
                    exact le_trans hb' (le_trans (o2 _ (by rw [hi]; rfl)) g)
              · exact Or.inr g
            · intro c hc
              obtain ⟨r, p, q, d, a1, a2, a3, a4, a5⟩ := hs2.tight c (Or.inl hc)
              refine ⟨r, p, q, d, a1, a2, a3.congr hT, a4, ?_⟩
              show put hp.keys ui a.max c = _
              rw [hT c hc]; exact a5
            · intro e he
              obtain ⟨q, d, a1, a2, a3⟩ := hs2.endTight e he
              exact ⟨q, d, a1, a2.congr hT, a3⟩
        · rw [if_neg hb]
          obtain ⟨c1, r, p, y, a1, a2⟩ := h2.items ui g1
          have a1' : s1.perm ui = some r := by rw [h2.perm]; exact a1
          simp only [a1']
          have hb' : s1.heap.keys ui < x1.aug := by
            have := hx.nle hb
            rwa [g4] at this
          have hspu : sp ≤ s1.heap.keys ui := hs2.keyH ui g1
          refine ih (T := ui :: T) (Or.inr ⟨ui, by simp, a1⟩) ?_ ?_ (join_spec a h2 hpop) ?_ ?_
          · rw [g4]; exact le_trans hsp hspu
          · exact Or.inr ⟨ui, by simp, a1, rfl⟩
          · refine ⟨o1, ?_, ?_, ?_, hs2.augLe, ?_, ?_, ?_, ?_⟩
            · intro u hu
              show hp.keys u ≤ hp.keys ui
              rw [g4]
              rcases List.mem_cons.1 hu with e | hu
              · rw [e]
              · exact le_trans (hs2.keyT u hu) hspu
            · intro c hc
              show hp.keys ui ≤ hp.keys c
              change (hp.index c).isSome = true at hc
              rw [g5 c] at hc
              rw [g4]
              split at hc
              · simp at hc
              · exact o2 c hc
            · intro c hc hn
              show hp.keys c = a.max
              simp only [List.mem_cons, not_or] at hc
              rw [g4]
              refine hs2.far c hc.2 ?_
              have := g5 c
              rw [if_neg hc.1] at this
              change hp.index c = none at hn
              rw [hn] at this
              simpa using this.symm
            · show hp.keys ui ≤ x1.aug
              rw [g4]; exact le_of_lt hb'
            · intro r' d q hrd hne hq
              show hp.keys (m.col q) ≤ _ ∨ _
              change RowDist s0.perm k (ui :: T) hp.keys r' d at hrd
              rw [g4] at hrd ⊢
              refine hall r' d q ?_ hq
              rcases hrd with hrd | ⟨u, hu, e1, e2⟩
              · exact Or.inl hrd
              · rcases List.mem_cons.1 hu with e | hu
                · rw [e, a1] at e1
                  exact absurd (Option.some.inj e1).symm hne
                · exact Or.inr ⟨u, hu, e1, e2⟩
            · intro c hc
              have hc' : c ∈ T ∨ (s1.heap.index c).isSome = true := by
                rcases hc with hc | hc
                · rcases List.mem_cons.1 hc with e | hc
                  · rw [e]; exact Or.inr g1
                  · exact Or.inl hc
                · change (hp.index c).isSome = true at hc
                  rw [g5 c] at hc
                  split at hc
                  · simp at hc
                  · exact Or.inr hc
              obtain ⟨r', p', q, d, b1, b2, b3, b4, b5⟩ := hs2.tight c hc'
              refine ⟨r', p', q, d, b1, b2, ?_, b4, ?_⟩
              · show RowDist s0.perm k (ui :: T) hp.keys p' d
                rw [g4]; exact b3.mono
              · show hp.keys c = _
                rw [g4]; exact b5
            · intro e he
              obtain ⟨q, d, b1, b2, b3⟩ := hs2.endTight e he
              refine ⟨q, d, b1, ?_, b3⟩
              show RowDist s0.perm k (ui :: T) hp.keys x1.trace d
              rw [g4]; exact b2.mono
          · simp only [List.length_cons]
            omega

/-- What holds between the rounds as long as no search has failed. -/
structure Opt (a : Arith G) (m : Csr G) (s : St G) : Prop where
  between : Between a m s
  lists : ∀ c, s.colList c = none
  keys : ∀ c, s.heap.keys c = a.max
  feasible : Feasible m s
  tight : TightPairs m s

omit [IsOrderedAddMonoid G] in
theorem ordered_of_empty {h : Heap.State G} (hs : h.size = 0) :
    Ordered (fun x y : G => x ≤ y) h := fun p hp hp' => by omega

theorem short_start {a : Arith G} {m : Csr G} {k : Nat} {s : St G} (hmax : 0 ≤ a.max)
    (h : Opt a m s) : Short a m k s [] 0 (fun r _ => r ≠ k) { s with parent := put s.parent k none }
      { pathEnd := none, trace := k, aug := a.max, colBegin := none } := by
  have he := Heap.empty_of_size h.between.linked h.between.size
  refine ⟨ordered_of_empty h.between.size, by simp, ?_, fun c _ _ => h.keys c, le_refl _, hmax, ?_,
    ?_, ?_⟩
  · intro c hc
    change (s.heap.index c).isSome = true at hc
    rw [he c] at hc; simp at hc
  · intro r d q hrd hne _
    rcases hrd with ⟨e, _⟩ | ⟨u, hu, _⟩
    · exact absurd e hne
    · simp at hu
  · intro c hc
    change c ∈ [] ∨ (s.heap.index c).isSome = true at hc
    rw [he c] at hc; simp at hc
  · intro e hc; simp at hc

/-- One round: the row stays without column, or the dual variables stay feasible. -/
theorem round_opt {a : Arith G} (hx : Exact a) (hmax : 0 ≤ a.max) {m : Csr G}
    (hwf : WfCsr m) {k : Nat} (hk : k < m.n) {s t : St G} (h : Opt a m s)
    (ht : round a m k s = some t) : (t.iperm k = none ∧ s.iperm k = none ∧
      ∃ T s1 x, Found m k s T s1 x ∧ Shortest a m k s T s1 x ∧ x.pathEnd = none) ∨
    (Opt a m t ∧ (t.iperm k).isSome ∧ (∀ r, t.iperm r = none → t.V r = s.V r) ∧
      (∀ c, t.perm c = none → t.U c = s.U c ∧ s.perm c = none)) := by
  obtain ⟨t', ht', hbt, hmono, _⟩ := round_spec a hx.hle hwf hk h.between
  have ett : t' = t := Option.some.inj (ht'.symm.trans ht)
  subst ett
  unfold round at ht
  by_cases hi : (s.iperm k).isSome = true
  · rw [if_pos hi] at ht
    rw [← Option.some.inj ht]
    exact Or.inr ⟨h, hi, fun _ _ => rfl, fun _ hc => ⟨rfl, hc⟩⟩
  · rw [if_neg hi] at ht
    have hroot : s.iperm k = none := by simpa using hi
    have hpairs := h.between.pairs
    obtain ⟨T, s1, x, h1, h2, hs⟩ := search_short hx hwf hk hpairs hroot h.lists h.feasible
      (m.n + 1) (sp := a.zero) (Or.inl rfl) (by rw [hx.zero]) (by rw [hx.zero]; exact Or.inl ⟨rfl, rfl⟩)
      (inSearch_start a (k := k) h.between) (by rw [hx.zero]; exact short_start hmax h) (by simp)
    rw [h1] at ht
    simp only at ht
    cases hpe : x.pathEnd with
    | none =>
      rw [hpe] at ht
      left
      rw [← Option.some.inj ht, h2.iperm]; exact ⟨hroot, hroot, T, s1, x, h2, hs, hpe⟩
    | some e =>
      rw [hpe] at ht
      simp only at ht
      right
      have hpairs1 : Pairs m s1.perm s1.iperm s1.colPos := by
        rw [h2.perm, h2.iperm, h2.colPos]; exact hpairs
      obtain ⟨he, htr, q, hq1, hq2, hq3⟩ := h2.ends e hpe
      have hlen := tree_cols hwf hk hpairs h2.tree he htr hq2 hq3
      obtain ⟨s2, d1, d2, d3, d4, d5, d6, d7, ⟨keys, d8, d8'⟩, d9, d10, d11⟩ := dual_spec a m x.aug T
        (m.n + 1) x.colBegin s1 h2.chain h2.tree.nodup (by omega)
        (by
          intro u hu
          obtain ⟨r, hr⟩ := h2.of_lists u hu
          obtain ⟨y, y1, _⟩ := hpairs.pos _ _ ((hpairs.inv _ _).1 hr)
          exact ⟨r, y, by rw [h2.perm]; exact hr, by rw [h2.colPos]; exact y1⟩)
        (by
          intro u v r hu hv
          have g1 := (hpairs1.inv _ _).1 hu
          rw [(hpairs1.inv _ _).1 hv] at g1
          exact (Option.some.inj g1).symm)
      rw [d1] at ht
      simp only at ht
      obtain ⟨s3, b1, b2, b3, b4, b5, b6, b7, b8, b9, b10, b11, b12, b13, b14⟩ := augment_spec a hk hpairs
        hroot (U := s2.U) h2.root e x.trace T T (m.n + 1) e x.trace s2 (fun _ h => h) h2.tree
        (by omega) htr d5 d6 rfl (by intro r _; rw [d3, h2.iperm])
        (by
          rw [← d2, ← d3, ← d4] at hpairs1
          have he' : s2.perm e = none := by rw [d2, h2.perm]; exact he
          refine ⟨fun c r _ => hpairs1.inv c r, ?_, hpairs1.row, hpairs1.pos⟩
          intro u hu r hr
          cases hu
          rw [(hpairs1.inv _ _).2 hr] at he'
          simp at he')
        ⟨q, hq1, hq2, hq3⟩ (Or.inl ⟨rfl, rfl⟩)
      rw [b1] at ht
      simp only at ht
      have htt := Option.some.inj ht
      have hl3 : Linked s3.heap := by
        rw [b6, d8]
        exact ⟨h2.linked.1, h2.linked.2, h2.linked.3⟩
      obtain ⟨c1, c2, c3, c4⟩ := Heap.clear_spec a.cmp a.max hl3
      have heT : e ∉ T := by
        intro hm
        obtain ⟨r, hr⟩ := h2.of_lists e hm
        rw [he] at hr; simp at hr
      -- the dual variables of columns
      have hU : ∀ c, t'.U c = if c ∈ T then s.U c + (s1.heap.keys c - x.aug) else s.U c := by
        intro c
        rw [← htt]
        show s3.U c = _
        rw [b7, d9 c, h2.U, hx.add, hx.sub]
      have hU3 : s2.U = t'.U := by rw [← htt]; exact b7.symm
      -- rows of the tree
      have hVtree : ∀ u ∈ T, ∀ r, s.perm u = some r → s2.V r = s.V r + x.aug - s1.heap.keys u := by
        intro u hu r hr
        obtain ⟨y, y1, y2, y3⟩ := hpairs.pos _ _ ((hpairs.inv _ _).1 hr)
        have e1 := d11 u hu r y (by rw [h2.perm]; exact hr) (by rw [h2.colPos]; exact y1)
        have e2 := h.tight r y y1 (by rw [(hpairs.inv _ _).1 hr]; rfl)
        rw [e1, hx.sub, hU3, hU u, if_pos hu]
        unfold rc at e2
        rw [y3] at e2
        have e3 : m.val y = s.V r + s.U u := by
          have e4 : m.val y = (m.val y - s.V r - s.U u) + (s.V r + s.U u) := by abel
          rw [e2, zero_add] at e4; exact e4
        rw [e3]; abel
      -- rows moved
      have hVmoved : ∀ r, Moved m a s.perm s1.parent s1.augPos s2.U T e x.trace s3 r →
          ∃ d, RowDist s.perm k T s1.heap.keys r d ∧ s3.V r = s.V r + x.aug - d := by
        rintro r ⟨u, y, g1, g2, g3, g4, g5⟩
        rw [hx.sub, hU3] at g4
        rcases g5 with ⟨e1, e2⟩ | ⟨hu, r0, e1, e2⟩
        · subst e1
          obtain ⟨z, d, z1, z2, z3⟩ := hs.endTight u hpe
          have ezy : z = y := Option.some.inj (z1.symm.trans g2)
          subst ezy
          have ezq : z = q := Option.some.inj (z1.symm.trans hq1)
          rw [← e2] at z2 z3
          refine ⟨d, z2, ?_⟩
          rw [g4, hU u, if_neg heT, z3]
          unfold rc
          rw [ezq, hq3]; abel
        · obtain ⟨r1, p, z, d, z1, z2, z3, z4, z5⟩ := hs.tight u hu
          have er : r1 = r0 := Option.some.inj (z1.symm.trans e1)
          subst er
          have ep : p = r := Option.some.inj (z2.symm.trans e2)
          subst ep
          have ezy : z = y := Option.some.inj (z4.symm.trans g2)
          subst ezy
          refine ⟨d, z3, ?_⟩
          have hcol : m.col z = u := by
            obtain ⟨_, _, w, _, _, _, w4, _, w6⟩ := h2.tree.mem u hu
            rw [Option.some.inj (z4.symm.trans w4)]; exact w6
          rw [g4, hU u, if_pos hu, z5]
          unfold rc
          rw [hcol]; abel
      -- all rows of the tree
      have hV : ∀ r d, RowDist s.perm k T s1.heap.keys r d → t'.V r = s.V r + x.aug - d := by
        intro r d hrd
        rw [← htt]
        show s3.V r = _
        have hm : Moved m a s.perm s1.parent s1.augPos s2.U T e x.trace s3 r →
            s3.V r = s.V r + x.aug - d := by
          intro hm
          obtain ⟨d', hd', e'⟩ := hVmoved r hm
          rw [e', RowDist.unique hpairs hroot hd' hrd]
        rcases hrd with ⟨e1, e2⟩ | ⟨u, hu, e1, e2⟩
        · subst e1; exact hm (b12 (Or.inl rfl))
        · rcases b11 r with ⟨v1, _, _⟩ | hmv
          · rw [v1, hVtree u hu r e1, e2]
          · exact hm hmv
      have hV' : ∀ r, ¬ TreeRow s.perm k T r → t'.V r = s.V r ∧ s3.colPos r = s.colPos r := by
        intro r hr
        rw [← htt]
        show s3.V r = _ ∧ _
        rcases b11 r with ⟨v1, _, v3⟩ | hmv
        · rw [v1, v3, d4, h2.colPos, d10 r, h2.V]
          · exact ⟨rfl, rfl⟩
          · intro u hu e1
            rw [h2.perm] at e1
            exact hr (Or.inr ⟨u, hu, e1⟩)
        · obtain ⟨d, hd, _⟩ := hVmoved r hmv
          rcases hd with ⟨e1, _⟩ | ⟨u, hu, e1, _⟩
          · exact absurd (Or.inl e1) hr
          · exact absurd (Or.inr ⟨u, hu, e1⟩) hr
      have hdist : ∀ r, TreeRow s.perm k T r → ∃ d, RowDist s.perm k T s1.heap.keys r d := by
        rintro r (e1 | ⟨u, hu, e1⟩)
        · exact ⟨0, Or.inl ⟨e1, rfl⟩⟩
        · exact ⟨_, Or.inr ⟨u, hu, e1, rfl⟩⟩
      have hperm : ∀ c, t'.perm c = none → s.perm c = none := by
        intro c hc
        cases hsc : s.perm c with
        | none => rfl
        | some r =>
          have := b14 c (by rw [d2, h2.perm, hsc]; rfl)
          rw [← htt] at hc
          change s3.perm c = none at hc
          rw [hc] at this; simp at this
      refine ⟨⟨hbt, ?_, ?_, ?_, ?_⟩, by rw [← htt]; exact b8, ?_, ?_⟩
      · intro c
        rw [← htt]
        show s3.colList c = none
        rw [b5, d7 c]
        split
        · rfl
        · rename_i hcT
          cases hc : s1.colList c with
          | none => rfl
          | some v =>
            rcases (h2.lists c).1 (by rw [hc]; rfl) with hm | hm
            · exact absurd hm hcT
            · rw [h.lists c] at hm; simp at hm
      · intro c
        rw [← htt]
        show (Heap.clear a.cmp a.max s3.heap).keys c = _
        rw [c4 c]
        split
        · rfl
        · rename_i hc
          have e1 : s3.heap.index c = none := by simpa using hc
          rw [b6, d8] at e1 ⊢
          show keys c = _
          rw [d8' c]
          split
          · rfl
          · rename_i hcT
            exact hs.far c hcT e1
      · -- feasible
        intro r hr y hy
        have h0 := h.feasible r hr y hy
        unfold rc
        by_cases htree : TreeRow s.perm k T r
        · obtain ⟨d, hd⟩ := hdist r htree
          rw [hV r d hd, hU]
          rcases hs.short r d y hd hy with ⟨g1, g2⟩ | g
          · rw [if_pos g1]
            have : m.val y - (s.V r + x.aug - d) - (s.U (m.col y) + (s1.heap.keys (m.col y) - x.aug)) =
                (d + rc m s r y) - s1.heap.keys (m.col y) := by unfold rc; abel
            rw [this]; exact sub_nonneg.2 g2
          · by_cases hm : m.col y ∈ T
            · rw [if_pos hm]
              have : m.val y - (s.V r + x.aug - d) -
                  (s.U (m.col y) + (s1.heap.keys (m.col y) - x.aug)) =
                  (d + rc m s r y) - s1.heap.keys (m.col y) := by unfold rc; abel
              rw [this]; exact sub_nonneg.2 (le_trans (hs.keyT _ hm) g)
            · rw [if_neg hm]
              have : m.val y - (s.V r + x.aug - d) - s.U (m.col y) =
                  (d + rc m s r y) - x.aug := by unfold rc; abel
              rw [this]; exact sub_nonneg.2 g
        · rw [(hV' r htree).1, hU]
          split
          · rename_i hm
            have : m.val y - s.V r - (s.U (m.col y) + (s1.heap.keys (m.col y) - x.aug)) =
                rc m s r y + (x.aug - s1.heap.keys (m.col y)) := by unfold rc; abel
            rw [this]
            exact add_nonneg h0 (sub_nonneg.2 (hs.keyT _ hm))
          · exact h0
      · -- tight
        intro r y hy hir
        have hy' : s3.colPos r = some y := by rw [← htt] at hy; exact hy
        have hir' : (s3.iperm r).isSome = true := by rw [← htt] at hir; exact hir
        unfold rc
        rcases b11 r with ⟨v1, v2, v3⟩ | ⟨u, z, g1, g2, g3, g4, g5⟩
        · rw [v3, d4, h2.colPos] at hy'
          rw [v2, d3, h2.iperm] at hir'
          obtain ⟨c, hc⟩ := Option.isSome_iff_exists.1 hir'
          have hpc := (hpairs.inv _ _).2 hc
          obtain ⟨w, w1, w2, w3⟩ := hpairs.pos _ _ hc
          have ewy : w = y := Option.some.inj (w1.symm.trans hy')
          subst ewy
          have h0 := h.tight r w w1 hir'
          unfold rc at h0
          by_cases htree : TreeRow s.perm k T r
          · rcases htree with e1 | ⟨u, hu, e1⟩
            · rw [e1, hroot] at hc; simp at hc
            · have euc : u = c := by
                have := (hpairs.inv _ _).1 e1
                rw [hc] at this
                exact (Option.some.inj this).symm
              subst euc
              rw [hV r _ (Or.inr ⟨u, hu, e1, rfl⟩), hU, w3, if_pos hu]
              rw [w3] at h0
              have : m.val w - (s.V r + x.aug - s1.heap.keys u) -
                  (s.U u + (s1.heap.keys u - x.aug)) = m.val w - s.V r - s.U u := by abel
              rw [this]; exact h0
          · rw [(hV' r htree).1, hU, w3, if_neg]
            · rw [w3] at h0; exact h0
            · intro hm; exact htree (Or.inr ⟨c, hm, hpc⟩)
        · have ezy : z = y := Option.some.inj (g3.symm.trans hy')
          subst ezy
          obtain ⟨w, w1, w2, w3⟩ := b2.pos _ _ g1
          have ewz : w = z := Option.some.inj (w1.symm.trans g3)
          subst ewz
          have e1 : t'.V r = s3.V r := by rw [← htt]
          rw [e1, g4, hx.sub, hU3, w3]; abel
      · intro r hr
        refine (hV' r ?_).1
        rintro (e1 | ⟨u, hu, e1⟩)
        · rw [e1, ← htt] at hr
          change s3.iperm k = none at hr
          rw [hr] at b8; simp at b8
        · have := hmono r (by rw [(hpairs.inv _ _).1 e1]; rfl)
          rw [hr] at this; simp at this
      · intro c hc
        refine ⟨?_, hperm c hc⟩
        rw [hU c, if_neg]
        intro hm
        obtain ⟨r, hr⟩ := h2.of_lists c hm
        rw [hperm c hc] at hr; simp at hr

theorem rounds_none (a : Arith G) (hle : ∀ x y, a.le x y = true → a.lt y x = false) {m : Csr G}
    (hwf : WfCsr m) : ∀ (l : List Nat) (s t : St G), (∀ k ∈ l, k < m.n) → Between a m s →
    rounds a m l s = some t → ∀ r, r ∉ l → s.iperm r = none → t.iperm r = none := by
  intro l
  induction l with
  | nil => intro s t _ _ h r _ hr; rw [← Option.some.inj h]; exact hr
  | cons k l ih =>
    intro s t hl hb h r hr hn
    simp only [List.mem_cons, not_or] at hr
    obtain ⟨s1, h1, h2, _, h4⟩ := round_spec a hle hwf (hl k (by simp)) hb
    rw [rounds, h1] at h
    exact ih s1 t (fun x hx => hl x (by simp [hx])) h2 h r hr.2 (h4 r hr.1 hn)

theorem rounds_opt {a : Arith G} (hx : Exact a) (hmax : 0 ≤ a.max) {m : Csr G}
    (hwf : WfCsr m) : ∀ (l : List Nat) (s t : St G), (∀ k ∈ l, k < m.n) → l.Nodup → Opt a m s →
    rounds a m l s = some t → (∀ k ∈ l, (t.iperm k).isSome) → Opt a m t := by
  intro l
  induction l with
  | nil => intro s t _ _ h ht _; rw [← Option.some.inj ht]; exact h
  | cons k l ih =>
    intro s t hl hnd h ht hall
    obtain ⟨s1, h1, h2, _, _⟩ := round_spec a hx.hle hwf (hl k (by simp)) h.between
    rw [rounds, h1] at ht
    rcases round_opt hx hmax hwf (hl k (by simp)) h h1 with ⟨hn, _⟩ | ⟨ho, _⟩
    · have := rounds_none a hx.hle hwf l s1 t (fun y hy => hl y (by simp [hy])) h2 ht k
        (List.nodup_cons.1 hnd).1 hn
      have h3 := hall k (by simp)
      rw [this] at h3; simp at h3
    · exact ih s1 t (fun y hy => hl y (by simp [hy])) (List.nodup_cons.1 hnd).2 ho ht
        (fun y hy => hall y (by simp [hy]))

end Verif.Matching
