import Verif.Matching.Lemmas
/-
The search for a path and the change of the matching along it, whatever the arithmetic is.
-/

namespace Verif.Matching

open Verif.Heap (put put_eq put_ne Linked)

variable {R : Type}

/-- Rows of the tree: the root and the rows of its columns. -/
def TreeRow (perm : Nat → Option Nat) (k : Nat) (T : List Nat) (r : Nat) : Prop :=
  r = k ∨ ∃ u ∈ T, perm u = some r

theorem TreeRow.mono {perm : Nat → Option Nat} {k u r : Nat} {T : List Nat}
    (h : TreeRow perm k T r) : TreeRow perm k (u :: T) r := by
  rcases h with h | ⟨v, hv, e⟩
  · exact Or.inl h
  · exact Or.inr ⟨v, by simp [hv], e⟩

/-- The column `u` hangs on a row of the tree, by the entry stored for it. -/
def Hangs (m : Csr R) (k : Nat) (perm parent augPos : Nat → Option Nat) (T : List Nat) (u : Nat) :
    Prop :=
  ∃ r p q, perm u = some r ∧ parent r = some p ∧ TreeRow perm k T p ∧ augPos u = some q ∧
    q ∈ m.row p ∧ m.col q = u

/-- The columns of the tree, the last one first. -/
def Tree (m : Csr R) (k : Nat) (perm parent augPos : Nat → Option Nat) : List Nat → Prop
  | [] => True
  | u :: T => u ∉ T ∧ Hangs m k perm parent augPos T u ∧ Tree m k perm parent augPos T

/-- The list of columns made by `ColumnList`. -/
def ColChain (colList : Nat → Option (Option Nat)) : Option Nat → List Nat → Prop
  | b, [] => b = none
  | b, u :: T => b = some u ∧ ∃ nx, colList u = some nx ∧ ColChain colList nx T

/-- The end of the path found. -/
def Ends (m : Csr R) (k : Nat) (perm augPos : Nat → Option Nat) (T : List Nat) (x : Loc R) : Prop :=
  ∀ e, x.pathEnd = some e → perm e = none ∧ TreeRow perm k T x.trace ∧
    ∃ q, augPos e = some q ∧ q ∈ m.row x.trace ∧ m.col q = e

structure InSearch (a : Arith R) (m : Csr R) (k : Nat) (s0 : St R) (T : List Nat) (s : St R)
    (x : Loc R) : Prop where
  perm : s.perm = s0.perm
  iperm : s.iperm = s0.iperm
  colPos : s.colPos = s0.colPos
  U : s.U = s0.U
  V : s.V = s0.V
  root : s.parent k = none
  chain : ColChain s.colList x.colBegin T
  lists : ∀ c, (s.colList c).isSome ↔ c ∈ T ∨ (s0.colList c).isSome
  fresh : ∀ u ∈ T, s0.colList u = none
  tree : Tree m k s0.perm s.parent s.augPos T
  linked : Linked s.heap
  sizeMax : s.heap.sizeMax = m.n
  items : ∀ c, (s.heap.index c).isSome → s.colList c = none ∧
    Hangs m k s0.perm s.parent s.augPos T c
  ends : Ends m k s0.perm s.augPos T x
  noPath : x.pathEnd = none → x.aug = a.max
  below : x.pathEnd = none → ∀ c, (s.heap.index c).isSome → a.lt (s.heap.keys c) a.max = true

theorem Tree.mem {m : Csr R} {k : Nat} {perm parent augPos : Nat → Option Nat} :
    ∀ {T : List Nat}, Tree m k perm parent augPos T → ∀ u ∈ T, Hangs m k perm parent augPos T u
  | [], _, u, hu => by simp at hu
  | v :: T, h, u, hu => by
    obtain ⟨h1, ⟨r, p, q, a1, a2, a3, a4, a5, a6⟩, h3⟩ := h
    rcases List.mem_cons.1 hu with e | hu
    · subst e
      exact ⟨r, p, q, a1, a2, a3.mono, a4, a5, a6⟩
    · obtain ⟨r, p, q, a1, a2, a3, a4, a5, a6⟩ := h3.mem u hu
      exact ⟨r, p, q, a1, a2, a3.mono, a4, a5, a6⟩

theorem Tree.nodup {m : Csr R} {k : Nat} {perm parent augPos : Nat → Option Nat} :
    ∀ {T : List Nat}, Tree m k perm parent augPos T → T.Nodup
  | [], _ => List.nodup_nil
  | _ :: _, h => List.nodup_cons.2 ⟨h.1, h.2.2.nodup⟩

/-- The tree does not change with values for other rows and columns. -/
theorem Tree.congr {m : Csr R} {k : Nat} {perm parent augPos parent' augPos' : Nat → Option Nat} :
    ∀ {T : List Nat}, Tree m k perm parent augPos T →
    (∀ u ∈ T, ∀ r, perm u = some r → parent' r = parent r) → (∀ u ∈ T, augPos' u = augPos u) →
    Tree m k perm parent' augPos' T
  | [], _, _, _ => trivial
  | v :: T, h, h1, h2 => by
    obtain ⟨g1, ⟨r, p, q, a1, a2, a3, a4, a5, a6⟩, g3⟩ := h
    refine ⟨g1, ⟨r, p, q, a1, ?_, a3, ?_, a5, a6⟩, g3.congr (fun u hu => h1 u (by simp [hu]))
      (fun u hu => h2 u (by simp [hu]))⟩
    · rw [h1 v (by simp) r a1]; exact a2
    · rw [h2 v (by simp)]; exact a4

theorem ColChain.congr {cl cl' : Nat → Option (Option Nat)} : ∀ {T : List Nat} {b : Option Nat},
    ColChain cl b T → (∀ u ∈ T, cl' u = cl u) → ColChain cl' b T
  | [], _, h, _ => h
  | u :: T, _, ⟨h1, nx, h2, h3⟩, h => ⟨h1, nx, by rw [h u (by simp)]; exact h2,
      h3.congr fun v hv => h v (by simp [hv])⟩

theorem lower_spec (a : Arith R) {h : Heap.State R} (hl : Linked h) {c : Nat}
    (hc : c < h.sizeMax) (l : R) : ∃ t, lower a h c l = some t ∧ Linked t ∧
      t.sizeMax = h.sizeMax ∧ t.keys = put h.keys c l ∧
      ∀ j, (t.index j).isSome = if j = c then true else (h.index j).isSome := by
  unfold lower
  have hcon : Heap.contains h c = some (h.index c).isSome := by
    unfold Heap.contains; rw [if_pos (by omega)]
  rw [hcon]
  cases hi : h.index c with
  | none =>
    obtain ⟨t, h1, h2, h3, h4, h5, h6⟩ := Heap.pushHeap_linked a.cmp hl hc hi l
    exact ⟨t, h1, h2, h3, h5, h6⟩
  | some p =>
    obtain ⟨t, h1, h2, h3, h4, h5, h6⟩ := Heap.decreaseKey_linked a.cmp hl hi l
    refine ⟨t, h1, h2, h3, h5, ?_⟩
    intro j
    rw [h6 j]
    split
    · rename_i e; rw [e, hi]; rfl
    · rfl

theorem relaxOne_spec (a : Arith R) {m : Csr R} {k : Nat} {s0 : St R}
    (hpairs : Pairs m s0.perm s0.iperm s0.colPos) (hroot : s0.iperm k = none) {T : List Nat}
    {li : Nat} (hli : TreeRow s0.perm k T li) {sp : R} {q : Nat} (hq : q ∈ m.row li)
    (hcol : m.col q < m.n) {s : St R} {x : Loc R} (h : InSearch a m k s0 T s x) :
    ∃ s' x', relaxOne a m li sp q s x = some (s', x') ∧ InSearch a m k s0 T s' x' := by
  unfold relaxOne
  by_cases h1 : (s.colList (m.col q)).isSome = true
  · rw [if_pos h1]; exact ⟨s, x, rfl, h⟩
  · rw [if_neg h1]
    have hcl : s.colList (m.col q) = none := by simpa using h1
    have hcT : m.col q ∉ T := fun hm => h1 ((h.lists _).2 (Or.inl hm))
    by_cases h2 : a.lt (length a m s sp li q) x.aug = true
    · rw [if_pos h2]
      have hne : ∀ u ∈ T, u ≠ m.col q := fun u hu e => hcT (e ▸ hu)
      cases hp : s.perm (m.col q) with
      | none =>
        refine ⟨_, _, rfl, ?_⟩
        have hp0 : s0.perm (m.col q) = none := by rw [← h.perm]; exact hp
        refine ⟨h.perm, h.iperm, h.colPos, h.U, h.V, h.root, h.chain, h.lists, h.fresh, ?_,
          h.linked, h.sizeMax, ?_, ?_, ?_, ?_⟩
        · exact h.tree.congr (fun _ _ _ _ => rfl) (fun u hu => put_ne _ _ (hne u hu))
        · intro c hc
          obtain ⟨g1, r, p, y, a1, a2, a3, a4, a5, a6⟩ := h.items c hc
          refine ⟨g1, r, p, y, a1, a2, a3, ?_, a5, a6⟩
          show put s.augPos (m.col q) (some q) c = _
          rw [put_ne]
          · exact a4
          · intro e; rw [e, hp0] at a1; simp at a1
        · intro e he
          have : m.col q = e := Option.some.inj he
          subst this
          exact ⟨hp0, hli, q, put_eq _ _ _, hq, rfl⟩
        · intro hn; simp at hn
        · intro hn; simp at hn
      | some r =>
        simp only
        by_cases h3 : a.lt (length a m s sp li q) (s.heap.keys (m.col q)) = true
        · rw [if_pos h3]
          obtain ⟨hp', l1, l2, l3, l4, l5⟩ := lower_spec a h.linked
            (by rw [h.sizeMax]; exact hcol : m.col q < s.heap.sizeMax) (length a m s sp li q)
          simp only [l1]
          have hp0 : s0.perm (m.col q) = some r := by rw [← h.perm]; exact hp
          have hrk : r ≠ k := by
            intro e
            have := (hpairs.inv _ _).1 hp0
            rw [e, hroot] at this; simp at this
          have hinj : ∀ c, s0.perm c = some r → c = m.col q := by
            intro c hc
            have g1 := (hpairs.inv _ _).1 hc
            rw [(hpairs.inv _ _).1 hp0] at g1
            exact (Option.some.inj g1).symm
          refine ⟨_, _, rfl, ?_⟩
          refine ⟨h.perm, h.iperm, h.colPos, h.U, h.V, ?_, h.chain, h.lists, h.fresh, ?_,
            l2, l3.trans h.sizeMax, ?_, ?_, h.noPath, ?_⟩
          · show put s.parent r (some li) k = none
            rw [put_ne _ _ hrk.symm]; exact h.root
          · refine h.tree.congr ?_ (fun u hu => put_ne _ _ (hne u hu))
            intro u hu r' hr'
            refine put_ne _ _ ?_
            intro e
            rw [e] at hr'
            exact hne u hu (hinj u hr')
          · intro c hc
            change (hp'.index c).isSome = true at hc
            rw [l5 c] at hc
            by_cases e : c = m.col q
            · subst e
              exact ⟨hcl, r, li, q, hp0, put_eq _ _ _, hli, put_eq _ _ _, hq, rfl⟩
            · rw [if_neg e] at hc
              obtain ⟨g1, r', p, y, a1, a2, a3, a4, a5, a6⟩ := h.items c hc
              refine ⟨g1, r', p, y, a1, ?_, a3, ?_, a5, a6⟩
              · show put s.parent r (some li) r' = _
                rw [put_ne]
                · exact a2
                · intro e'; rw [e'] at a1; exact e (hinj c a1)
              · show put s.augPos _ _ c = _
                rw [put_ne _ _ e]; exact a4
          · intro e he
            obtain ⟨g1, g2, y, g3, g4, g5⟩ := h.ends e he
            refine ⟨g1, g2, y, ?_, g4, g5⟩
            show put s.augPos _ _ e = _
            rw [put_ne]
            · exact g3
            · intro e'; rw [e', hp0] at g1; simp at g1
          · intro hn c hc
            show a.lt (hp'.keys c) a.max = true
            change (hp'.index c).isSome = true at hc
            rw [l4]
            rw [l5 c] at hc
            by_cases e : c = m.col q
            · subst e
              rw [put_eq, ← h.noPath hn]; exact h2
            · rw [put_ne _ _ e]
              rw [if_neg e] at hc
              exact h.below hn c hc
        · rw [if_neg h3]; exact ⟨s, x, rfl, h⟩
    · rw [if_neg h2]; exact ⟨s, x, rfl, h⟩

theorem relax_spec (a : Arith R) {m : Csr R} {k : Nat} {s0 : St R}
    (hpairs : Pairs m s0.perm s0.iperm s0.colPos) (hroot : s0.iperm k = none) {T : List Nat}
    {li : Nat} (hli : TreeRow s0.perm k T li) (hln : li < m.n) (hwf : WfCsr m) {sp : R} :
    ∀ (l : List Nat), (∀ q ∈ l, q ∈ m.row li) → ∀ {s : St R} {x : Loc R},
    InSearch a m k s0 T s x →
    ∃ s' x', relax a m li sp l s x = some (s', x') ∧ InSearch a m k s0 T s' x' := by
  intro l
  induction l with
  | nil => intro _ s x h; exact ⟨s, x, rfl, h⟩
  | cons q l ih =>
    intro hl s x h
    obtain ⟨s1, x1, h1, h2⟩ := relaxOne_spec a hpairs hroot hli (sp := sp) (hl q (by simp))
      (hwf li hln q (hl q (by simp))) h
    obtain ⟨s2, x2, h3, h4⟩ := ih (fun y hy => hl y (by simp [hy])) h2
    exact ⟨s2, x2, by rw [relax, h1]; exact h3, h4⟩

/-- What the search leaves. -/
structure Found (m : Csr R) (k : Nat) (s0 : St R) (T : List Nat) (s : St R) (x : Loc R) : Prop where
  perm : s.perm = s0.perm
  iperm : s.iperm = s0.iperm
  colPos : s.colPos = s0.colPos
  U : s.U = s0.U
  V : s.V = s0.V
  root : s.parent k = none
  chain : ColChain s.colList x.colBegin T
  lists : ∀ c, (s.colList c).isSome ↔ c ∈ T ∨ (s0.colList c).isSome
  fresh : ∀ u ∈ T, s0.colList u = none
  tree : Tree m k s0.perm s.parent s.augPos T
  linked : Linked s.heap
  sizeMax : s.heap.sizeMax = m.n
  ends : Ends m k s0.perm s.augPos T x
  empty : x.pathEnd = none → s.heap.size = 0

theorem tree_length {m : Csr R} (hwf : WfCsr m) {k : Nat} {s0 : St R} {parent augPos : Nat → Option Nat}
    (hpairs : Pairs m s0.perm s0.iperm s0.colPos) {T : List Nat}
    (h : Tree m k s0.perm parent augPos T) : T.length ≤ m.n := by
  have hsub : T ⊆ List.range m.n := by
    intro u hu
    obtain ⟨r, p, q, a1, _⟩ := h.mem u hu
    have h1 := (hpairs.inv _ _).1 a1
    obtain ⟨y, _, y2, y3⟩ := hpairs.pos _ _ h1
    rw [← y3]
    exact List.mem_range.2 (hwf r (hpairs.row _ _ h1) y y2)
  have := (List.subperm_of_subset h.nodup hsub).length_le
  simpa using this

theorem pop_spec (a : Arith R) {m : Csr R} {k : Nat} {s0 : St R} {T : List Nat} {s : St R}
    {x : Loc R} (h : InSearch a m k s0 T s x) {hp : Heap.State R} {ui : Nat}
    (hpop : Heap.popHeap a.cmp s.heap = (hp, some ui)) :
    (s.heap.index ui).isSome ∧ Linked hp ∧ hp.sizeMax = m.n ∧ hp.keys = s.heap.keys ∧
    ∀ j, (hp.index j).isSome = if j = ui then false else (s.heap.index j).isSome := by
  have hs : s.heap.size ≠ 0 := by
    intro hs
    unfold Heap.popHeap at hpop
    rw [if_pos hs] at hpop
    simp at hpop
  obtain ⟨t, h1, h2, h3, h4, h5, h6⟩ := Heap.popHeap_linked a.cmp h.linked hs
  rw [h1] at hpop
  have e1 : t = hp := congrArg Prod.fst hpop
  have e2 : s.heap.heap 1 = ui := Option.some.inj (congrArg Prod.snd hpop)
  subst e1
  rw [e2] at h6
  refine ⟨?_, h2, h3.trans h.sizeMax, h5, h6⟩
  rw [← e2, (h.linked.slot 1 (Nat.le_refl _) (by omega)).1]; rfl

/-- A column taken out of the heap joins the tree. -/
theorem join_spec (a : Arith R) {m : Csr R} {k : Nat} {s0 : St R} {T : List Nat} {s : St R}
    {x : Loc R} (h : InSearch a m k s0 T s x) {hp : Heap.State R} {ui : Nat}
    (hpop : Heap.popHeap a.cmp s.heap = (hp, some ui)) :
    InSearch a m k s0 (ui :: T)
      { s with heap := hp, colList := put s.colList ui (some x.colBegin) }
      { x with colBegin := some ui } := by
  obtain ⟨g1, g2, g3, g4, g5⟩ := pop_spec a h hpop
  obtain ⟨c1, c2⟩ := h.items ui g1
  have hnot : ui ∉ T := by
    intro hm
    have := (h.lists ui).2 (Or.inl hm)
    rw [c1] at this; simp at this
  refine ⟨h.perm, h.iperm, h.colPos, h.U, h.V, h.root, ?_, ?_, ?_, ⟨hnot, c2, h.tree⟩, g2, g3, ?_,
    ?_, h.noPath, ?_⟩
  · refine ⟨rfl, x.colBegin, put_eq _ _ _, h.chain.congr ?_⟩
    intro u hu
    exact put_ne _ _ (fun e => hnot (e ▸ hu))
  · intro c
    show (put s.colList ui (some x.colBegin) c).isSome = true ↔ _
    by_cases e : c = ui
    · subst e; rw [put_eq]; simp
    · rw [put_ne _ _ e, h.lists c]; simp [e]
  · intro u hu
    rcases List.mem_cons.1 hu with e | hu
    · subst e
      cases hc : s0.colList u with
      | none => rfl
      | some v =>
        have := (h.lists u).2 (Or.inr (by rw [hc]; rfl))
        rw [c1] at this; simp at this
    · exact h.fresh u hu
  · intro c hc
    change (hp.index c).isSome = true at hc
    rw [g5 c] at hc
    by_cases e : c = ui
    · rw [if_pos e] at hc; simp at hc
    · rw [if_neg e] at hc
      obtain ⟨d1, r, p, y, a1, a2, a3, a4⟩ := h.items c hc
      refine ⟨?_, r, p, y, a1, a2, a3.mono, a4⟩
      show put s.colList ui (some x.colBegin) c = none
      rw [put_ne _ _ e]; exact d1
  · intro e he
    obtain ⟨d1, d2, d3⟩ := h.ends e he
    exact ⟨d1, d2.mono, d3⟩
  · intro hn c hc
    change (hp.index c).isSome = true at hc
    show a.lt (hp.keys c) a.max = true
    rw [g4]
    rw [g5 c] at hc
    split at hc
    · simp at hc
    · exact h.below hn c hc

theorem search_spec (a : Arith R) (hle : ∀ x y, a.le x y = true → a.lt y x = false) {m : Csr R}
    (hwf : WfCsr m) {k : Nat} (hk : k < m.n) {s0 : St R}
    (hpairs : Pairs m s0.perm s0.iperm s0.colPos) (hroot : s0.iperm k = none) :
    ∀ (fuel : Nat) {T : List Nat} {li : Nat} {sp : R} {s : St R} {x : Loc R},
    TreeRow s0.perm k T li → InSearch a m k s0 T s x → m.n + 1 ≤ fuel + T.length →
    ∃ T' s' x', search a m fuel li sp s x = some (s', x') ∧ Found m k s0 T' s' x' := by
  intro fuel
  induction fuel with
  | zero =>
    intro T li sp s x _ h hf
    have := tree_length hwf hpairs h.tree
    omega
  | succ fuel ih =>
    intro T li sp s x hli h hf
    have hln : li < m.n := by
      rcases hli with e | ⟨u, _, e⟩
      · rw [e]; exact hk
      · exact hpairs.row _ _ ((hpairs.inv _ _).1 e)
    obtain ⟨s1, x1, h1, h2⟩ := relax_spec a hpairs hroot hli hln hwf (sp := sp) (m.row li)
      (fun _ h => h) h
    rw [search, h1]
    simp only
    cases hpop : Heap.popHeap a.cmp s1.heap with
    | mk hp o =>
      cases o with
      | none =>
        simp only
        have hs : s1.heap.size = 0 := by
          by_cases hs : s1.heap.size = 0
          · exact hs
          · obtain ⟨t, g1, _⟩ := Heap.popHeap_linked a.cmp h2.linked hs
            rw [g1] at hpop; simp at hpop
        have he : hp = s1.heap := by
          unfold Heap.popHeap at hpop
          rw [if_pos hs] at hpop
          exact (congrArg Prod.fst hpop).symm
        subst he
        exact ⟨T, _, _, rfl, h2.perm, h2.iperm, h2.colPos, h2.U, h2.V, h2.root, h2.chain, h2.lists,
          h2.fresh, h2.tree, h2.linked, h2.sizeMax, h2.ends, fun _ => hs⟩
      | some ui =>
        simp only
        obtain ⟨g1, g2, g3, g4, g5⟩ := pop_spec a h2 hpop
        by_cases hb : a.le x1.aug (hp.keys ui) = true
        · rw [if_pos hb]
          refine ⟨T, _, _, rfl, h2.perm, h2.iperm, h2.colPos, h2.U, h2.V, h2.root, h2.chain,
            h2.lists, h2.fresh, h2.tree, Heap.rekey_linked g2 _ _, g3, h2.ends, ?_⟩
          intro hn
          have b1 := h2.below hn ui g1
          rw [h2.noPath hn, g4] at hb
          rw [hle _ _ hb] at b1
          simp at b1
        · rw [if_neg hb]
          obtain ⟨c1, r, p, y, a1, a2⟩ := h2.items ui g1
          have a1' : s1.perm ui = some r := by rw [h2.perm]; exact a1
          simp only [a1']
          apply ih (T := ui :: T) (Or.inr ⟨ui, by simp, a1⟩) (join_spec a h2 hpop)
          simp only [List.length_cons]
          omega

/-- Update of the dual variables along the list. -/
theorem dual_spec (a : Arith R) (m : Csr R) (aug : R) :
    ∀ (T : List Nat) (fuel : Nat) (b : Option Nat) (s : St R),
    ColChain s.colList b T → T.Nodup → T.length ≤ fuel →
    (∀ u ∈ T, ∃ r q, s.perm u = some r ∧ s.colPos r = some q) →
    (∀ u v r, s.perm u = some r → s.perm v = some r → u = v) →
    ∃ t, dual a m aug fuel b s = some t ∧ t.perm = s.perm ∧ t.iperm = s.iperm ∧
      t.colPos = s.colPos ∧ t.parent = s.parent ∧ t.augPos = s.augPos ∧
      (∀ c, t.colList c = if c ∈ T then none else s.colList c) ∧
      (∃ keys, t.heap = { s.heap with keys := keys } ∧
        ∀ c, keys c = if c ∈ T then a.max else s.heap.keys c) ∧
      (∀ c, t.U c = if c ∈ T then a.add (s.U c) (a.sub (s.heap.keys c) aug) else s.U c) ∧
      (∀ r, (∀ u ∈ T, s.perm u ≠ some r) → t.V r = s.V r) ∧
      (∀ u ∈ T, ∀ r q, s.perm u = some r → s.colPos r = some q → t.V r = a.sub (m.val q) (t.U u)) := by
  intro T
  induction T with
  | nil =>
    intro fuel b s hch _ _ _ _
    have hb : b = none := hch
    subst hb
    refine ⟨s, by cases fuel <;> rfl, rfl, rfl, rfl, rfl, rfl, by simp,
      ⟨s.heap.keys, rfl, by simp⟩, by simp, by simp, by simp⟩
  | cons u T ih =>
    intro fuel b s hch hnd hf hT hinj
    obtain ⟨hb, nx, hnx, hch'⟩ := hch
    subst hb
    have hnd' := List.nodup_cons.1 hnd
    obtain ⟨r, q, hr, hq⟩ := hT u (by simp)
    cases fuel with
    | zero => simp at hf
    | succ fuel =>
      have hd : dualOne a m aug u s = some
          { s with U := put s.U u (a.add (s.U u) (a.sub (s.heap.keys u) aug)),
                   V := put s.V r (a.sub (m.val q)
                     (put s.U u (a.add (s.U u) (a.sub (s.heap.keys u) aug)) u)),
                   heap := { s.heap with keys := put s.heap.keys u a.max } } := by
        unfold dualOne; simp only [hr, hq]
      rw [dual, hd, hnx]
      simp only
      have hne : ∀ v ∈ T, v ≠ u := fun v hv e => hnd'.1 (e ▸ hv)
      obtain ⟨t, c1, c2, c3, c4, c5, c6, c7, ⟨keys, c8, c8'⟩, c9, c10, c11⟩ := ih fuel nx
        { s with U := put s.U u (a.add (s.U u) (a.sub (s.heap.keys u) aug)),
                 V := put s.V r (a.sub (m.val q)
                     (put s.U u (a.add (s.U u) (a.sub (s.heap.keys u) aug)) u)),
                 heap := { s.heap with keys := put s.heap.keys u a.max },
                 colList := put s.colList u none }
        (hch'.congr fun v hv => put_ne _ _ (hne v hv)) hnd'.2
        (by simp only [List.length_cons] at hf; omega)
        (fun v hv => hT v (by simp [hv])) hinj
      refine ⟨t, c1, c2, c3, c4, c5, c6, ?_, ⟨keys, c8, ?_⟩, ?_, ?_, ?_⟩
      · intro c
        rw [c7 c]
        show (if c ∈ T then none else put s.colList u none c) = _
        by_cases e : c = u
        · subst e; simp [put_eq]
        · rw [put_ne _ _ e]; simp [e]
      · intro c
        rw [c8' c]
        show (if c ∈ T then a.max else put s.heap.keys u a.max c) = _
        by_cases e : c = u
        · subst e; simp [put_eq]
        · rw [put_ne _ _ e]; simp [e]
      · intro c
        rw [c9 c]
        show (if c ∈ T then a.add (put s.U u _ c) (a.sub (put s.heap.keys u a.max c) aug)
          else put s.U u _ c) = _
        by_cases e : c = u
        · subst e
          rw [if_neg hnd'.1, put_eq]; simp
        · rw [put_ne _ _ e, put_ne _ _ e]; simp [e]
      · intro r' hr'
        rw [c10 r' (fun v hv => hr' v (by simp [hv]))]
        show put s.V r _ r' = _
        rw [put_ne]
        intro e
        exact hr' u (by simp) (e ▸ hr)
      · intro v hv r' q' hr' hq'
        rcases List.mem_cons.1 hv with e | hv
        · subst e
          have e1 : r' = r := Option.some.inj (hr'.symm.trans hr)
          subst e1
          have e2 : q' = q := Option.some.inj (hq'.symm.trans hq)
          subst e2
          rw [c10 r' (fun w hw he => hne w hw (hinj w v r' he hr'))]
          show put s.V r' _ r' = _
          rw [put_eq, put_eq, c9 v, if_neg hnd'.1]
          show a.sub _ _ = a.sub _ (put s.U v _ v)
          rw [put_eq]
        · exact c11 v hv r' q' hr' hq'

/-- How the row `r` came to its column in the change along the path. -/
def Moved (m : Csr R) (a : Arith R) (perm0 parent augPos : Nat → Option Nat) (U : Nat → R)
    (T : List Nat) (e t0 : Nat) (s : St R) (r : Nat) : Prop :=
  ∃ u q, s.iperm r = some u ∧ augPos u = some q ∧ s.colPos r = some q ∧
    s.V r = a.sub (m.val q) (U u) ∧
    ((u = e ∧ r = t0) ∨ (u ∈ T ∧ ∃ r0, perm0 u = some r0 ∧ parent r0 = some r))

/-- The matching on the way along the path: the column `ui` is free. -/
structure Half (m : Csr R) (s : St R) (ui : Option Nat) : Prop where
  inv : ∀ c r, some c ≠ ui → (s.perm c = some r ↔ s.iperm r = some c)
  free : ∀ u, ui = some u → ∀ r, s.iperm r ≠ some u
  row : ∀ r c, s.iperm r = some c → r < m.n
  pos : ∀ r c, s.iperm r = some c → ∃ q, s.colPos r = some q ∧ q ∈ m.row r ∧ m.col q = c

theorem augment_spec (a : Arith R) {m : Csr R} {k : Nat} (hk : k < m.n)
    {perm0 iperm0 colPos0 : Nat → Option Nat} (hpairs : Pairs m perm0 iperm0 colPos0)
    (hroot : iperm0 k = none) {parent augPos : Nat → Option Nat} {U : Nat → R}
    (hparent : parent k = none) (e0 t0 : Nat) (T0 : List Nat) :
    ∀ (T : List Nat) (fuel u t : Nat) (s : St R), (∀ v ∈ T, v ∈ T0) →
    Tree m k perm0 parent augPos T → T.length < fuel → TreeRow perm0 k T t →
    s.parent = parent → s.augPos = augPos → s.U = U →
    (∀ r, TreeRow perm0 k T r → s.iperm r = iperm0 r) →
    Half m s (some u) → (∃ q, augPos u = some q ∧ q ∈ m.row t ∧ m.col q = u) →
    ((u = e0 ∧ t = t0) ∨ (u ∈ T0 ∧ ∃ r0, perm0 u = some r0 ∧ parent r0 = some t)) →
    ∃ s', augment a m fuel (some u) (some t) s = some s' ∧
      Pairs m s'.perm s'.iperm s'.colPos ∧ s'.parent = parent ∧ s'.augPos = augPos ∧
      s'.colList = s.colList ∧ s'.heap = s.heap ∧ s'.U = U ∧ (s'.iperm k).isSome ∧
      (∀ r, (s.iperm r).isSome → (s'.iperm r).isSome) ∧
      (∀ r, ¬ TreeRow perm0 k T r → s'.iperm r = s.iperm r) ∧
      (∀ r, (s'.V r = s.V r ∧ s'.iperm r = s.iperm r ∧ s'.colPos r = s.colPos r) ∨
        Moved m a perm0 parent augPos U T0 e0 t0 s' r) ∧
      (TreeRow perm0 k T k → Moved m a perm0 parent augPos U T0 e0 t0 s' k) ∧
      Moved m a perm0 parent augPos U T0 e0 t0 s' t ∧
      (∀ c, (s.perm c).isSome → (s'.perm c).isSome) := by
  intro T
  induction T with
  | nil =>
    intro fuel u t s hsub htree hf ht hs1 hs2 hs3 hs4 hhalf hq0 hmv
    obtain ⟨q, hq1, hq2, hq3⟩ := hq0
    have etk : t = k := by
      rcases ht with e | ⟨v, hv, _⟩
      · exact e
      · simp at hv
    subst etk
    cases fuel with
    | zero => omega
    | succ fuel =>
      rw [augment, hs2, hq1]
      simp only
      have hi : s.iperm t = none := by rw [hs4 t (Or.inl rfl)]; exact hroot
      rw [hs1, hparent, hi]
      refine ⟨{ s with perm := put s.perm u (some t), iperm := put s.iperm t (some u),
                       colPos := put s.colPos t (some q),
                       V := put s.V t (a.sub (m.val q) (s.U u)) },
        by rw [← hs1, ← hs2]; cases fuel <;> rfl, ?_, hs1, hs2, rfl, rfl, hs3, ?_, ?_, ?_, ?_, ?_, ?_⟩
      · obtain ⟨i1, i2, i3, i4⟩ := hhalf
        refine ⟨?_, ?_, ?_⟩ <;> intro x y <;> simp only [put_apply] <;> grind
      · simp [put_apply]
      · intro r hr; simp only [put_apply]; split <;> simp_all
      · intro r hr
        simp only [put_apply]
        rw [if_neg (fun e => hr (Or.inl e))]
      · intro r
        by_cases e : r = t
        · right
          subst e
          exact ⟨u, q, put_eq _ _ _, hq1, put_eq _ _ _, by rw [← hs3]; exact put_eq _ _ _, hmv⟩
        · left
          exact ⟨put_ne _ _ e, put_ne _ _ e, put_ne _ _ e⟩
      · intro _
        exact ⟨u, q, put_eq _ _ _, hq1, put_eq _ _ _, by rw [← hs3]; exact put_eq _ _ _, hmv⟩
      · refine ⟨⟨u, q, put_eq _ _ _, hq1, put_eq _ _ _, by rw [← hs3]; exact put_eq _ _ _, hmv⟩, ?_⟩
        intro c hc
        show (put s.perm u (some t) c).isSome = true
        rw [put_apply]; split <;> simp_all
  | cons w T ih =>
    intro fuel u t s hsub htree hf ht hs1 hs2 hs3 hs4 hhalf hq0 hmv
    obtain ⟨g1, ⟨rw_, pw, qw, a1, a2, a3, a4, a5, a6⟩, g3⟩ := htree
    have hsub' : ∀ v ∈ T, v ∈ T0 := fun v hv => hsub v (by simp [hv])
    have hf' : T.length < fuel := by simp only [List.length_cons] at hf; omega
    by_cases htT : TreeRow perm0 k T t
    · obtain ⟨s', b1, b2, b3, b4, b5, b6, b7, b8, b9, b10, b11, b12, b13, b14⟩ := ih fuel u t s hsub' g3 hf'
        htT hs1 hs2 hs3 (fun r hr => hs4 r hr.mono) hhalf hq0 hmv
      exact ⟨s', b1, b2, b3, b4, b5, b6, b7, b8, b9, fun r hr => b10 r (fun h => hr h.mono), b11,
        fun _ => b12 (Or.inl rfl), b13, b14⟩
    · -- the row of the last column
      have hperm : perm0 w = some t := by
        rcases ht with e | ⟨v, hv, e⟩
        · exact absurd (Or.inl e) htT
        · rcases List.mem_cons.1 hv with e' | hv
          · rw [← e']; exact e
          · exact absurd (Or.inr ⟨v, hv, e⟩) htT
      have ert : rw_ = t := Option.some.inj (a1.symm.trans hperm)
      subst ert
      obtain ⟨q, hq1, hq2, hq3⟩ := hq0
      cases fuel with
      | zero => omega
      | succ fuel =>
        rw [augment, hs2, hq1]
        simp only
        have hi : s.iperm rw_ = some w := by
          rw [hs4 rw_ ht]; exact (hpairs.inv _ _).1 hperm
        rw [hs1, a2, hi]
        have hnk : rw_ ≠ k := fun e => htT (Or.inl e)
        have hrn : rw_ < m.n := hpairs.row _ _ ((hpairs.inv _ _).1 hperm)
        obtain ⟨s', b1, b2, b3, b4, b5, b6, b7, b8, b9, b10, b11, b12, b13, b14⟩ := ih fuel w pw
          { s with perm := put s.perm u (some rw_), iperm := put s.iperm rw_ (some u),
                   colPos := put s.colPos rw_ (some q),
                   V := put s.V rw_ (a.sub (m.val q) (s.U u)) }
          hsub' g3 (by simp only [List.length_cons] at hf; omega) a3 hs1 hs2 hs3
          (by
            intro r hr
            show put s.iperm rw_ (some u) r = _
            rw [put_ne]
            · exact hs4 r hr.mono
            · intro e; exact htT (e ▸ hr))
          (by
            obtain ⟨i1, i2, i3, i4⟩ := hhalf
            clear ih hs4 htT ht
            have huw : w ≠ u := by
              intro e; rw [e] at hi; exact i2 u rfl _ hi
            have i5 := i1 w rw_ (by simpa using huw)
            refine ⟨?_, ?_, ?_, ?_⟩
            · intro x y; simp only [put_apply]; grind
            · intro x hx y hy
              have hx' : w = x := Option.some.inj hx
              subst hx'
              simp only [put_apply] at hy
              split at hy
              · exact huw (Option.some.inj hy).symm
              · rename_i hne
                have e1 := (i1 w y (by simpa using huw)).2 hy
                have e2 := i5.2 hi
                rw [e1] at e2
                exact hne (Option.some.inj e2)
            · intro x y; simp only [put_apply]; grind
            · intro x y; simp only [put_apply]; grind)
          ⟨qw, a4, a5, a6⟩ (Or.inr ⟨hsub w (by simp), rw_, hperm, a2⟩)
        rw [hs1, hs2] at b1
        have hmt : Moved m a perm0 parent augPos U T0 e0 t0 s' rw_ := by
          rcases b11 rw_ with ⟨v1, v2, v3⟩ | hm
          · refine ⟨u, q, ?_, hq1, ?_, ?_, hmv⟩
            · rw [v2]; exact put_eq _ _ _
            · rw [v3]; exact put_eq _ _ _
            · rw [v1, ← hs3]; exact put_eq _ _ _
          · exact hm
        refine ⟨s', b1, b2, b3, b4, b5, b6, b7, b8, ?_, ?_, ?_, fun _ => b12 (Or.inl rfl), hmt, ?_⟩
        · intro r hr
          apply b9
          show (put s.iperm rw_ (some u) r).isSome = true
          rw [put_apply]; split <;> simp_all
        · intro r hr
          rw [b10 r (fun h => hr h.mono)]
          show put s.iperm rw_ (some u) r = _
          rw [put_ne]
          intro e
          exact hr (e ▸ ht)
        · intro r
          by_cases e : r = rw_
          · right; rw [e]; exact hmt
          · rcases b11 r with ⟨v1, v2, v3⟩ | hm
            · left
              exact ⟨v1.trans (put_ne _ _ e), v2.trans (put_ne _ _ e), v3.trans (put_ne _ _ e)⟩
            · exact Or.inr hm
        · intro c hc
          apply b14
          show (put s.perm u (some rw_) c).isSome = true
          rw [put_apply]; split <;> simp_all

/-- What holds between the rounds. -/
structure Between (a : Arith R) (m : Csr R) (s : St R) : Prop where
  pairs : Pairs m s.perm s.iperm s.colPos
  linked : Linked s.heap
  sizeMax : s.heap.sizeMax = m.n
  size : s.heap.size = 0
  lists : ∀ c, (s.colList c).isSome → (s.perm c).isSome

theorem inSearch_start (a : Arith R) {m : Csr R} {k : Nat} {s : St R} (h : Between a m s) :
    InSearch a m k s [] { s with parent := put s.parent k none }
      { pathEnd := none, trace := k, aug := a.max, colBegin := none } := by
  have he := Heap.empty_of_size h.linked h.size
  refine ⟨rfl, rfl, rfl, rfl, rfl, put_eq _ _ _, rfl, by simp, by simp, trivial, h.linked,
    h.sizeMax, ?_, ?_, fun _ => rfl, ?_⟩
  · intro c hc
    change (s.heap.index c).isSome = true at hc
    rw [he c] at hc; simp at hc
  · intro e hc; simp at hc
  · intro _ c hc
    change (s.heap.index c).isSome = true at hc
    rw [he c] at hc; simp at hc

theorem Found.of_lists {m : Csr R} {k : Nat} {s0 s : St R} {T : List Nat} {x : Loc R}
    (h : Found m k s0 T s x) : ∀ u ∈ T, ∃ r, s0.perm u = some r := by
  intro u hu
  obtain ⟨r, _, _, h1, _⟩ := h.tree.mem u hu
  exact ⟨r, h1⟩

theorem tree_cols {m : Csr R} (hwf : WfCsr m) {k : Nat} (hk : k < m.n) {s0 : St R}
    {parent augPos : Nat → Option Nat} (hpairs : Pairs m s0.perm s0.iperm s0.colPos) {T : List Nat}
    (h : Tree m k s0.perm parent augPos T) {e t q : Nat} (he : s0.perm e = none)
    (ht : TreeRow s0.perm k T t) (hq : q ∈ m.row t) (hc : m.col q = e) : T.length < m.n := by
  have htn : t < m.n := by
    rcases ht with e | ⟨u, _, e⟩
    · rw [e]; exact hk
    · exact hpairs.row _ _ ((hpairs.inv _ _).1 e)
  have hnd : (e :: T).Nodup := by
    refine List.nodup_cons.2 ⟨?_, h.nodup⟩
    intro hm
    obtain ⟨r, _, _, h1, _⟩ := h.mem e hm
    rw [he] at h1; simp at h1
  have hsub : (e :: T) ⊆ List.range m.n := by
    intro u hu
    rcases List.mem_cons.1 hu with e' | hu
    · rw [e', ← hc]
      exact List.mem_range.2 (hwf t htn q hq)
    obtain ⟨r, p, q, a1, _⟩ := h.mem u hu
    have h1 := (hpairs.inv _ _).1 a1
    obtain ⟨y, _, y2, y3⟩ := hpairs.pos _ _ h1
    rw [← y3]
    exact List.mem_range.2 (hwf r (hpairs.row _ _ h1) y y2)
  have := (List.subperm_of_subset hnd hsub).length_le
  simp only [List.length_cons, List.length_range] at this
  omega

/-- One round, all at once. -/
theorem round_spec (a : Arith R) (hle : ∀ x y, a.le x y = true → a.lt y x = false) {m : Csr R}
    (hwf : WfCsr m) {k : Nat} (hk : k < m.n) {s : St R} (h : Between a m s) :
    ∃ t, round a m k s = some t ∧ Between a m t ∧
      (∀ r, (s.iperm r).isSome → (t.iperm r).isSome) ∧
      (∀ r, r ≠ k → s.iperm r = none → t.iperm r = none) := by
  unfold round
  by_cases hi : (s.iperm k).isSome = true
  · rw [if_pos hi]; exact ⟨s, rfl, h, fun _ h => h, fun _ _ h => h⟩
  · rw [if_neg hi]
    have hroot : s.iperm k = none := by simpa using hi
    obtain ⟨T, s1, x, h1, h2⟩ := search_spec a hle hwf hk h.pairs hroot (m.n + 1) (sp := a.zero)
      (Or.inl rfl) (inSearch_start a (k := k) h) (by simp)
    rw [h1]
    simp only
    cases hpe : x.pathEnd with
    | none =>
      refine ⟨s1, rfl, ⟨?_, h2.linked, h2.sizeMax, h2.empty hpe, ?_⟩, ?_, ?_⟩
      · rw [h2.perm, h2.iperm, h2.colPos]; exact h.pairs
      · intro c hc
        rw [h2.perm]
        rcases (h2.lists c).1 hc with hc | hc
        · obtain ⟨r, hr⟩ := h2.of_lists c hc
          rw [hr]; rfl
        · exact h.lists c hc
      · intro r hr; rw [h2.iperm]; exact hr
      · intro r _ hr; rw [h2.iperm]; exact hr
    | some e =>
      simp only
      have hpairs1 : Pairs m s1.perm s1.iperm s1.colPos := by
        rw [h2.perm, h2.iperm, h2.colPos]; exact h.pairs
      obtain ⟨he, ht, q, hq1, hq2, hq3⟩ := h2.ends e hpe
      have hlen := tree_cols hwf hk h.pairs h2.tree he ht hq2 hq3
      obtain ⟨s2, d1, d2, d3, d4, d5, d6, d7, ⟨keys, d8, d8'⟩, d9, d10, d11⟩ := dual_spec a m x.aug T
        (m.n + 1) x.colBegin s1 h2.chain h2.tree.nodup (by omega)
        (by
          intro u hu
          obtain ⟨r, hr⟩ := h2.of_lists u hu
          obtain ⟨y, y1, _⟩ := h.pairs.pos _ _ ((h.pairs.inv _ _).1 hr)
          exact ⟨r, y, by rw [h2.perm]; exact hr, by rw [h2.colPos]; exact y1⟩)
        (by
          intro u v r hu hv
          have g1 := (hpairs1.inv _ _).1 hu
          rw [(hpairs1.inv _ _).1 hv] at g1
          exact (Option.some.inj g1).symm)
      rw [d1]
      simp only
      obtain ⟨s3, b1, b2, b3, b4, b5, b6, b7, b8, b9, b10, b11, b12, b13, b14⟩ := augment_spec a hk h.pairs
        hroot (U := s2.U) h2.root e x.trace T T (m.n + 1) e x.trace s2 (fun _ h => h) h2.tree
        (by omega) ht d5 d6 rfl (by intro r _; rw [d3, h2.iperm])
        (by
          rw [← d2, ← d3, ← d4] at hpairs1
          have he' : s2.perm e = none := by rw [d2, h2.perm]; exact he
          refine ⟨fun c r _ => hpairs1.inv c r, ?_, hpairs1.row, hpairs1.pos⟩
          intro u hu r hr
          cases hu
          rw [(hpairs1.inv _ _).2 hr] at he'
          simp at he')
        ⟨q, hq1, hq2, hq3⟩ (Or.inl ⟨rfl, rfl⟩)
      rw [b1]
      simp only
      have hl3 : Linked s3.heap := by
        rw [b6, d8]
        exact ⟨h2.linked.1, h2.linked.2, h2.linked.3⟩
      obtain ⟨c1, c2, c3, c4⟩ := Heap.clear_spec a.cmp a.max hl3
      refine ⟨_, rfl, ⟨b2, c1, ?_, c3, ?_⟩, ?_, ?_⟩
      · refine c2.trans ?_
        rw [b6, d8]; exact h2.sizeMax
      · intro c hc
        change (s3.colList c).isSome = true at hc
        show (s3.perm c).isSome = true
        rw [b5, d7 c] at hc
        split at hc
        · simp at hc
        · rename_i hcT
          rcases (h2.lists c).1 hc with hc | hc
          · exact absurd hc hcT
          · have g1 := h.lists c hc
            obtain ⟨r, hr⟩ := Option.isSome_iff_exists.1 g1
            have hr' := (h.pairs.inv _ _).1 hr
            have g2 : s3.iperm r = some c := by
              rw [b10 r, d3, h2.iperm]
              · exact hr'
              · rintro (e' | ⟨u, hu, e'⟩)
                · rw [e', hroot] at hr'; simp at hr'
                · rw [(h.pairs.inv _ _).1 e'] at hr'
                  exact hcT ((Option.some.inj hr') ▸ hu)
            rw [(b2.inv _ _).2 g2]; rfl
      · intro r hr
        apply b9
        rw [d3, h2.iperm]; exact hr
      · intro r hrk hr
        rw [b10 r, d3, h2.iperm]
        · exact hr
        · rintro (e' | ⟨u, hu, e'⟩)
          · exact hrk e'
          · rw [(h.pairs.inv _ _).1 e'] at hr
            simp at hr

theorem rounds_spec (a : Arith R) (hle : ∀ x y, a.le x y = true → a.lt y x = false) {m : Csr R}
    (hwf : WfCsr m) : ∀ (l : List Nat) (s : St R), (∀ k ∈ l, k < m.n) → Between a m s →
    ∃ t, rounds a m l s = some t ∧ Between a m t ∧
      (∀ r, (s.iperm r).isSome → (t.iperm r).isSome) := by
  intro l
  induction l with
  | nil => intro s _ h; exact ⟨s, rfl, h, fun _ h => h⟩
  | cons k l ih =>
    intro s hl h
    obtain ⟨t, h1, h2, h3, _⟩ := round_spec a hle hwf (hl k (by simp)) h
    obtain ⟨t', h4, h5, h6⟩ := ih t (fun x hx => hl x (by simp [hx])) h2
    exact ⟨t', by rw [rounds, h1]; exact h4, h5, fun r hr => h6 r (h3 r hr)⟩

/-! ### Filling of the gaps -/

theorem fillGaps_spec : ∀ (l g : List Nat) (perm : Nat → Option Nat), l.Nodup → g.Nodup →
    (l.filter fun c => (perm c).isNone).length ≤ g.length →
    ∃ p, fillGaps l g perm = some p ∧ (∀ c, c ∉ l ∨ (perm c).isSome → p c = perm c) ∧
      (∀ c ∈ l, perm c = none → ∃ r ∈ g, p c = some r) ∧
      (∀ c ∈ l, ∀ d ∈ l, perm c = none → perm d = none → p c = p d → c = d) := by
  intro l
  induction l with
  | nil => intro g perm _ _ _; exact ⟨perm, rfl, fun _ _ => rfl, by simp, by simp⟩
  | cons c l ih =>
    intro g perm hl hg hlen
    have hl' := List.nodup_cons.1 hl
    rw [fillGaps]
    cases hp : perm c with
    | some r =>
      simp only
      obtain ⟨p, h1, h2, h3, h4⟩ := ih g perm hl'.2 hg (by simpa [hp] using hlen)
      refine ⟨p, h1, ?_, ?_, ?_⟩
      · intro d hd
        apply h2
        rcases hd with hd | hd
        · exact Or.inl (fun hm => hd (by simp [hm]))
        · exact Or.inr hd
      · intro d hd hn
        rcases List.mem_cons.1 hd with e | hd
        · subst e; rw [hp] at hn; simp at hn
        · exact h3 d hd hn
      · intro d hd f hf hn hn'
        rcases List.mem_cons.1 hd with e | hd
        · subst e; rw [hp] at hn; simp at hn
        · rcases List.mem_cons.1 hf with e | hf
          · subst e; rw [hp] at hn'; simp at hn'
          · exact h4 d hd f hf hn hn'
    | none =>
      simp only
      have hlen' : (l.filter fun c => (perm c).isNone).length + 1 ≤ g.length := by
        simpa [hp] using hlen
      have hgne : g ≠ [] := by
        intro e; rw [e] at hlen'; simp at hlen'
      have hgl : g.getLast? = some (g.getLast hgne) := List.getLast?_eq_getLast_of_ne_nil hgne
      rw [hgl]
      simp only
      have hsplit := List.dropLast_append_getLast hgne
      have hg2 : g.dropLast.Nodup ∧ g.getLast hgne ∉ g.dropLast := by
        have h := hg
        rw [← hsplit, List.nodup_append] at h
        refine ⟨h.1, fun hm => ?_⟩
        exact h.2.2 _ hm _ (by simp) rfl
      have hfilter : (l.filter fun d => (put perm c (some (g.getLast hgne)) d).isNone) =
          l.filter fun d => (perm d).isNone := by
        apply List.filter_congr
        intro d hd
        rw [put_ne]
        intro e; exact hl'.1 (e ▸ hd)
      obtain ⟨p, h1, h2, h3, h4⟩ := ih g.dropLast (put perm c (some (g.getLast hgne))) hl'.2 hg2.1
        (by rw [hfilter, List.length_dropLast]; omega)
      have hpc : p c = some (g.getLast hgne) := by
        rw [h2 c (Or.inl hl'.1), put_eq]
      have hput : ∀ d ∈ l, perm d = none → put perm c (some (g.getLast hgne)) d = none := by
        intro d hd hn
        rw [put_ne]
        · exact hn
        · intro e; exact hl'.1 (e ▸ hd)
      have hin : ∀ d ∈ l, perm d = none → p d ≠ some (g.getLast hgne) := by
        intro d hd hn he
        obtain ⟨r, hr, hr'⟩ := h3 d hd (hput d hd hn)
        rw [he] at hr'
        exact hg2.2 ((Option.some.inj hr') ▸ hr)
      refine ⟨p, h1, ?_, ?_, ?_⟩
      · intro d hd
        have hdc : d ≠ c := by
          rintro rfl
          rcases hd with hd | hd
          · simp at hd
          · rw [hp] at hd; simp at hd
        rw [h2 d, put_ne _ _ hdc]
        rw [put_ne _ _ hdc]
        rcases hd with hd | hd
        · exact Or.inl (fun hm => hd (by simp [hm]))
        · exact Or.inr hd
      · intro d hd hn
        rcases List.mem_cons.1 hd with e | hd
        · rw [e]; exact ⟨_, List.getLast_mem hgne, hpc⟩
        · obtain ⟨r, hr, hr'⟩ := h3 d hd (hput d hd hn)
          exact ⟨r, List.dropLast_subset _ hr, hr'⟩
      · intro d hd f hf hn hn' he
        rcases List.mem_cons.1 hd with e | hd <;> rcases List.mem_cons.1 hf with e' | hf
        · rw [e, e']
        · rw [e, hpc] at he; exact absurd he.symm (hin f hf hn')
        · rw [e', hpc] at he; exact absurd he (hin d hd hn)
        · exact h4 d hd f hf (hput d hd hn) (hput f hf hn') he

theorem filterMap_count (f : Nat → Option Nat) : ∀ l : List Nat,
    (l.filter fun c => (f c).isNone).length + (l.filterMap f).length = l.length := by
  intro l
  induction l with
  | nil => rfl
  | cons c l ih =>
    cases h : f c with
    | none => simp [List.filterMap_cons, h]; omega
    | some r => simp [List.filterMap_cons, h]; omega

theorem filter_count (p : Nat → Bool) : ∀ l : List Nat,
    (l.filter fun c => !p c).length + (l.filter p).length = l.length := by
  intro l
  induction l with
  | nil => rfl
  | cons c l ih =>
    cases h : p c <;> simp [h] <;> omega

theorem gaps_count (n : Nat) (perm : Nat → Option Nat) :
    ((List.range n).filter fun c => (perm c).isNone).length ≤ (gaps n perm).length := by
  have h1 := filterMap_count perm (List.range n)
  have h2 := filter_count (fun k => (List.range n).any fun c => perm c == some k) (List.range n)
  have h3 : ((List.range n).filter fun k => (List.range n).any fun c => perm c == some k).length ≤
      ((List.range n).filterMap perm).length := by
    refine (List.subperm_of_subset (List.nodup_range.filter _) ?_).length_le
    intro k hk
    simp only [List.mem_filter, List.any_eq_true, beq_iff_eq] at hk
    obtain ⟨_, c, hc, e⟩ := hk
    exact List.mem_filterMap.2 ⟨c, hc, e⟩
  unfold gaps
  omega

/-- The permutation is one. -/
theorem fillGaps_bij {n : Nat} {perm : Nat → Option Nat}
    (hinj : ∀ c d r, perm c = some r → perm d = some r → c = d)
    (hr : ∀ c r, perm c = some r → r < n) :
    ∃ p, fillGaps (List.range n) (gaps n perm) perm = some p ∧
      (∀ c, (perm c).isSome → p c = perm c) ∧ (∀ c, c < n → ∃ r, r < n ∧ p c = some r) ∧
      (∀ c d, c < n → d < n → p c = p d → c = d) ∧
      (∀ r, r < n → ∃ c, c < n ∧ p c = some r) := by
  obtain ⟨p, h1, h2, h3, h4⟩ := fillGaps_spec (List.range n) (gaps n perm) perm List.nodup_range
    (List.nodup_range.filter _) (gaps_count n perm)
  have htot : ∀ c, c < n → ∃ r, r < n ∧ p c = some r := by
    intro c hc
    cases hp : perm c with
    | some r => exact ⟨r, hr c r hp, by rw [h2 c (Or.inr (by rw [hp]; rfl))]; exact hp⟩
    | none =>
      obtain ⟨r, hr, hr'⟩ := h3 c (List.mem_range.2 hc) hp
      simp only [gaps, List.mem_filter, List.mem_range] at hr
      exact ⟨r, hr.1, hr'⟩
  have hmix : ∀ c d, c < n → d < n → (perm c).isSome → perm d = none → p c ≠ p d := by
    intro c d hc hd hs hn he
    obtain ⟨r, hg, hr'⟩ := h3 d (List.mem_range.2 hd) hn
    rw [h2 c (Or.inr hs), hr'] at he
    simp only [gaps, List.mem_filter, List.mem_range] at hg
    have := hg.2
    simp only [Bool.not_eq_true', List.any_eq_false, List.mem_range, beq_iff_eq] at this
    exact this c hc he
  have hpinj : ∀ c d, c < n → d < n → p c = p d → c = d := by
    intro c d hc hd he
    cases e1 : perm c with
    | none =>
      cases e2 : perm d with
      | none => exact h4 c (List.mem_range.2 hc) d (List.mem_range.2 hd) e1 e2 he
      | some r => exact absurd he.symm (hmix d c hd hc (by rw [e2]; rfl) e1)
    | some r =>
      cases e2 : perm d with
      | none => exact absurd he (hmix c d hc hd (by rw [e1]; rfl) e2)
      | some r' =>
        rw [h2 c (Or.inr (by rw [e1]; rfl)), h2 d (Or.inr (by rw [e2]; rfl)), e1] at he
        exact hinj c d r e1 he.symm
  refine ⟨p, h1, fun c hc => h2 c (Or.inr hc), htot, hpinj, ?_⟩
  intro r hr
  -- an injection of a finite set into itself
  have hnd : ((List.range n).map fun c => (p c).getD n).Nodup := by
    refine List.Nodup.map_on ?_ List.nodup_range
    intro c hc d hd e
    obtain ⟨r1, _, e1⟩ := htot c (List.mem_range.1 hc)
    obtain ⟨r2, _, e2⟩ := htot d (List.mem_range.1 hd)
    refine hpinj c d (List.mem_range.1 hc) (List.mem_range.1 hd) ?_
    rw [e1, e2] at e ⊢
    simpa using e
  have hsub : ((List.range n).map fun c => (p c).getD n) ⊆ List.range n := by
    intro x hx
    obtain ⟨c, hc, e⟩ := List.mem_map.1 hx
    obtain ⟨r1, hr1, e1⟩ := htot c (List.mem_range.1 hc)
    rw [e1] at e
    rw [← e]; exact List.mem_range.2 hr1
  have hperm := (List.subperm_of_subset hnd hsub).perm_of_length_le (by simp)
  have := hperm.mem_iff.2 (List.mem_range.2 hr)
  obtain ⟨c, hc, e⟩ := List.mem_map.1 this
  obtain ⟨r1, hr1, e1⟩ := htot c (List.mem_range.1 hc)
  rw [e1] at e
  refine ⟨c, List.mem_range.1 hc, ?_⟩
  rw [e1]; exact congrArg some e

end Verif.Matching
