import Verif.Parallel.Equil
import Mathlib.Data.List.Perm.Subperm

/-!
# Distances to owned cells
-/

namespace Verif.Parallel

/-- A walk of `k` steps from an owned cell of the processor to `c` that visits only cells that are
not owned after the first step. -/
inductive Walk (L : Local Int) (near : El → List El) : El → Nat → Prop
  | first {c x : El} : c ∈ L.elems → c.ty = 3 → L.status c ≠ .owned → x ∈ near c → L.status x = .owned → Walk L near c 1
  | next {c x : El} {k : Nat} : Walk L near c k → x ∈ near c → L.status x ≠ .owned → Walk L near x (k + 1)

variable {L : Local Int} {near : El → List El} {me : Nat}

theorem Walk.pos {c : El} {k : Nat} (h : Walk L near c k) : 1 ≤ k := by
  cases h <;> omega

theorem mem_cellsOf {c : El} : c ∈ cellsOf L ↔ c ∈ L.elems ∧ c.ty = 3 := by
  unfold cellsOf
  rw [List.mem_filter]
  simp

theorem distAt_some {d : El → Option (List Int)} {c : El} {o k : Int} (h : d c = some [o, k]) : distAt d c = k := by
  unfold distAt; rw [h]; rfl

theorem ownAt_some {d : El → Option (List Int)} {c : El} {o k : Int} (h : d c = some [o, k]) : ownAt d c = o := by
  unfold ownAt; rw [h]; rfl

theorem relax_spec (o k : Int) : ∀ (xs q : List El) (d : El → Option (List Int)), ∃ new,
    relax L o k xs (q, d) = (q ++ new, fun x => if x ∈ new then some [o, k + 1] else d x) ∧ new.Nodup ∧
    (∀ x, x ∈ new → x ∈ xs ∧ L.status x ≠ .owned ∧ distAt d x > k + 1) ∧
    ∀ x, x ∈ xs → L.status x ≠ .owned → x ∉ new → distAt d x ≤ k + 1
  | [], q, d => ⟨[], by simp [relax], List.nodup_nil, fun _ h => (by cases h), fun _ h => (by cases h)⟩
  | y :: xs, q, d => by
    unfold relax
    by_cases ho : L.status y = .owned
    · rw [if_pos ho]
      obtain ⟨new, h1, h2, h3, h4⟩ := relax_spec o k xs q d
      refine ⟨new, h1, h2, fun x hx => ⟨List.mem_cons_of_mem _ (h3 x hx).1, (h3 x hx).2⟩, fun x hx hs hn => ?_⟩
      rcases List.mem_cons.1 hx with rfl | hx
      · exact absurd ho hs
      · exact h4 x hx hs hn
    · rw [if_neg ho]
      by_cases hd : distAt d y > k + 1
      · rw [if_pos hd]
        obtain ⟨new, h1, h2, h3, h4⟩ := relax_spec o k xs (q ++ [y]) (setAt d y (some [o, k + 1]))
        have hy : distAt (setAt d y (some [o, k + 1])) y = k + 1 := distAt_some (by simp [setAt]; rfl)
        have hny : y ∉ new := fun h => by have := (h3 y h).2.2; rw [hy] at this; omega
        have hne : ∀ x, x ≠ y → distAt (setAt d y (some [o, k + 1])) x = distAt d x := fun x hx => by
          unfold distAt setAt; rw [if_neg hx]
        refine ⟨y :: new, ?_, List.nodup_cons.2 ⟨hny, h2⟩, ?_, ?_⟩
        · rw [h1]
          simp only [List.append_assoc, List.singleton_append, Prod.mk.injEq, true_and]
          funext x
          by_cases hx : x = y
          · subst hx; simp [hny, setAt]
          · simp [hx, setAt]
        · intro x hx
          rcases List.mem_cons.1 hx with rfl | hx
          · exact ⟨List.mem_cons_self, ho, hd⟩
          · obtain ⟨a1, a2, a3⟩ := h3 x hx
            refine ⟨List.mem_cons_of_mem _ a1, a2, ?_⟩
            rw [hne x (fun h => hny (h ▸ hx))] at a3
            exact a3
        · intro x hx hs hn
          rw [List.mem_cons, not_or] at hn
          rcases List.mem_cons.1 hx with rfl | hx
          · exact absurd rfl hn.1
          · have := h4 x hx hs hn.2
            rw [hne x hn.1] at this
            exact this
      · rw [if_neg hd]
        obtain ⟨new, h1, h2, h3, h4⟩ := relax_spec o k xs q d
        refine ⟨new, h1, h2, fun x hx => ⟨List.mem_cons_of_mem _ (h3 x hx).1, (h3 x hx).2⟩, fun x hx hs hn => ?_⟩
        rcases List.mem_cons.1 hx with rfl | hx
        · omega
        · exact h4 x hx hs hn

/-- What is known in every turn of the loop over the queue. -/
structure BInv (L : Local Int) (near : El → List El) (me : Nat) (cur : Int) (q : List El)
    (d : El → Option (List Int)) : Prop where
  out : ∀ c, (c ∉ cellsOf L ∨ L.status c = .owned) → d c = none
  val : ∀ c, c ∈ cellsOf L → L.status c ≠ .owned → d c = some [-1, intMax] ∨
    ∃ k : Nat, d c = some [(me : Int), (k : Int)] ∧ Walk L near c k ∧ (k : Int) < intMax
  queue : ∀ c, c ∈ q → c ∈ cellsOf L ∧ L.status c ≠ .owned ∧ d c ≠ some [-1, intMax]
  sorted : q.Pairwise fun a b => distAt d a ≤ distAt d b
  span : ∀ a b, a ∈ q → b ∈ q → distAt d b ≤ distAt d a + 1
  past : ∀ c, c ∈ cellsOf L → L.status c ≠ .owned → d c ≠ some [-1, intMax] → c ∉ q → ∀ a, a ∈ q →
    distAt d c ≤ distAt d a
  cur : ∀ a, a ∈ q → cur ≤ distAt d a
  done : ∀ c, c ∈ cellsOf L → L.status c ≠ .owned → d c ≠ some [-1, intMax] → c ∉ q → ∀ x, x ∈ near c →
    L.status x ≠ .owned → distAt d x ≤ distAt d c + 1
  first : ∀ c, c ∈ cellsOf L → L.status c ≠ .owned → (∃ x, x ∈ near c ∧ L.status x = .owned) → distAt d c ≤ 1

/-- The cells without a distance. -/
def farCells (L : Local Int) (d : El → Option (List Int)) : List El :=
  (cellsOf L).filter fun c => d c == some [-1, intMax]

theorem bfs_spec (hnd : L.elems.Nodup) (hn : ∀ c, c ∈ cellsOf L → ∀ x, x ∈ near c → x ∈ cellsOf L) :
    ∀ (f : Nat) (cur : Int) (q : List El) (d : El → Option (List Int)), BInv L near me cur q d →
      (farCells L d).length + q.length < f → ∃ d', bfs L near f cur q d = some d' ∧ ∃ cur', BInv L near me cur' [] d'
  | 0, _, _, _, _, hf => absurd hf (Nat.not_lt_zero _)
  | f + 1, cur, [], d, I, _ => ⟨d, rfl, cur, I⟩
  | f + 1, cur, c :: q, d, I, hf => by
    obtain ⟨hc, hco, hcf⟩ := I.queue c List.mem_cons_self
    have hval := (I.val c hc hco).resolve_left hcf
    obtain ⟨k, hk, hw, hkm⟩ := hval
    have hdc : distAt d c = k := distAt_some hk
    have hoc : ownAt d c = me := ownAt_some hk
    have hcur := I.cur c List.mem_cons_self
    unfold bfs
    rw [if_neg (by omega)]
    obtain ⟨new, h1, h2, h3, h4⟩ := relax_spec (L := L) (ownAt d c) (distAt d c) (near c) q d
    rw [h1]
    simp only
    rw [hoc, hdc]
    rw [hdc] at h3 h4
    -- the new cells had no distance
    have hinf : ∀ x, x ∈ new → x ∈ cellsOf L ∧ L.status x ≠ .owned ∧ d x = some [-1, intMax] ∧ (k : Int) + 1 < intMax := by
      intro x hx
      obtain ⟨a1, a2, a3⟩ := h3 x hx
      have hxc := hn c hc x a1
      have : d x = some [-1, intMax] := by
        by_contra hne
        by_cases hxq : x ∈ c :: q
        · have := I.span c x List.mem_cons_self hxq
          omega
        · have := I.past x hxc a2 hne hxq c List.mem_cons_self
          omega
      refine ⟨hxc, a2, this, ?_⟩
      rw [distAt_some this] at a3
      omega
    have hcn : c ∉ new := fun h => hcf (hinf c h).2.2.1
    have hqn : ∀ x, x ∈ q → x ∉ new := fun x hx h => (I.queue x (List.mem_cons_of_mem _ hx)).2.2 (hinf x h).2.2.1
    let d' : El → Option (List Int) := fun x => if x ∈ new then some [(me : Int), (k : Int) + 1] else d x
    have e1 : ∀ x, x ∈ new → d' x = some [(me : Int), (k : Int) + 1] := fun x hx => if_pos hx
    have e2 : ∀ x, x ∉ new → d' x = d x := fun x hx => if_neg hx
    have e3 : ∀ x, x ∈ new → distAt d' x = k + 1 := fun x hx => distAt_some (e1 x hx)
    have e4 : ∀ x, x ∉ new → distAt d' x = distAt d x := fun x hx => by unfold distAt; rw [e2 x hx]
    have hmin : (-1 : Int) ≠ me := by omega
    have e5 : ∀ x, x ∈ new → d' x ≠ some [-1, intMax] := fun x hx h => by
      rw [e1 x hx] at h; simp only [Option.some.injEq, List.cons.injEq] at h; exact hmin h.1.symm
    have hq1 : ∀ x, x ∈ q → (k : Int) ≤ distAt d x ∧ distAt d x ≤ k + 1 := by
      intro x hx
      have a := (List.pairwise_cons.1 I.sorted).1 x hx
      have b := I.span c x List.mem_cons_self (List.mem_cons_of_mem _ hx)
      omega
    -- distances in the new queue
    have hq2 : ∀ x, x ∈ q ++ new → (k : Int) ≤ distAt d' x ∧ distAt d' x ≤ k + 1 := by
      intro x hx
      by_cases hxn : x ∈ new
      · rw [e3 x hxn]; omega
      · rw [e4 x hxn]
        exact hq1 x ((List.mem_append.1 hx).resolve_right hxn)
    -- cells that are not in the new queue
    have hold : ∀ x, x ∈ cellsOf L → L.status x ≠ .owned → d' x ≠ some [-1, intMax] → x ∉ q ++ new →
        x ∉ new ∧ (x = c ∨ (d x ≠ some [-1, intMax] ∧ x ∉ c :: q)) := by
      intro x hx hs hne hxn
      rw [List.mem_append, not_or] at hxn
      refine ⟨hxn.2, ?_⟩
      rw [e2 x hxn.2] at hne
      by_cases hxc : x = c
      · exact Or.inl hxc
      · exact Or.inr ⟨hne, by rw [List.mem_cons, not_or]; exact ⟨hxc, hxn.1⟩⟩
    have I' : BInv L near me (if cur < (k : Int) then cur + 1 else cur) (q ++ new) d' := by
      refine ⟨?_, ?_, ?_, ?_, ?_, ?_, ?_, ?_, ?_⟩
      · intro x hx
        have : x ∉ new := fun h => by
          rcases hx with hx | hx
          · exact hx (hinf x h).1
          · exact (hinf x h).2.1 hx
        rw [e2 x this]
        exact I.out x hx
      · intro x hx hs
        by_cases hxn : x ∈ new
        · refine Or.inr ⟨k + 1, ?_, .next hw (h3 x hxn).1 hs, ?_⟩
          · rw [e1 x hxn]; push_cast; rfl
          · have := (hinf x hxn).2.2.2; push_cast; exact this
        · rw [e2 x hxn]
          exact I.val x hx hs
      · intro x hx
        by_cases hxn : x ∈ new
        · exact ⟨(hinf x hxn).1, (hinf x hxn).2.1, e5 x hxn⟩
        · rw [e2 x hxn]
          exact I.queue x (List.mem_cons_of_mem _ ((List.mem_append.1 hx).resolve_right hxn))
      · rw [List.pairwise_append]
        refine ⟨?_, ?_, ?_⟩
        · refine (List.pairwise_cons.1 I.sorted).2.imp_of_mem fun {a b} ha hb h => ?_
          rw [e4 a (hqn a ha), e4 b (hqn b hb)]
          exact h
        · exact List.Pairwise.imp_of_mem (fun {a b} ha hb _ => by rw [e3 a ha, e3 b hb]; exact Int.le_refl _) h2
        · intro a ha b hb
          rw [e3 b hb]
          exact (hq2 a (List.mem_append_left _ ha)).2
      · intro a b ha hb
        have := hq2 a ha
        have := hq2 b hb
        omega
      · intro x hx hs hne hxn a ha
        obtain ⟨b1, b2⟩ := hold x hx hs hne hxn
        have := hq2 a ha
        rw [e4 x b1]
        rcases b2 with rfl | ⟨b2, b3⟩
        · omega
        · have := I.past x hx hs b2 b3 c List.mem_cons_self
          omega
      · intro a ha
        have := hq2 a ha
        split <;> omega
      · intro x hx hs hne hxn y hy hys
        obtain ⟨b1, b2⟩ := hold x hx hs hne hxn
        rw [e4 x b1]
        rcases b2 with rfl | ⟨b2, b3⟩
        · by_cases hyn : y ∈ new
          · rw [e3 y hyn]; omega
          · rw [e4 y hyn, hdc]
            exact h4 y hy hys hyn
        · have hd := I.done x hx hs b2 b3 y hy hys
          by_cases hyn : y ∈ new
          · rw [e3 y hyn]
            have h5 := distAt_some (hinf y hyn).2.2.1
            have h6 := I.past x hx hs b2 b3 c List.mem_cons_self
            have h7 := (hinf y hyn).2.2.2
            omega
          · rw [e4 y hyn]
            exact hd
      · intro x hx hs he
        by_cases hxn : x ∈ new
        · have := I.first x hx hs he
          rw [distAt_some (hinf x hxn).2.2.1] at this
          exact absurd this (by decide)
        · rw [e4 x hxn]
          exact I.first x hx hs he
    have hcells : (cellsOf L).Nodup := hnd.filter _
    have hperm : (farCells L d).Perm (new ++ farCells L d') := by
      refine (List.perm_ext_iff_of_nodup (hcells.filter _) ?_).2 ?_
      · rw [List.nodup_append]
        refine ⟨h2, hcells.filter _, ?_⟩
        rintro a ha b hb rfl
        have := (List.mem_filter.1 hb).2
        exact e5 a ha (by simpa using this)
      · intro x
        unfold farCells
        rw [List.mem_append, List.mem_filter, List.mem_filter]
        simp only [beq_iff_eq]
        constructor
        · rintro ⟨a1, a2⟩
          by_cases hxn : x ∈ new
          · exact Or.inl hxn
          · exact Or.inr ⟨a1, by rw [e2 x hxn]; exact a2⟩
        · rintro (h | ⟨a1, a2⟩)
          · exact ⟨(hinf x h).1, (hinf x h).2.2.1⟩
          · refine ⟨a1, ?_⟩
            by_cases hxn : x ∈ new
            · exact absurd a2 (e5 x hxn)
            · rw [e2 x hxn] at a2; exact a2
    have hlen := hperm.length_eq
    rw [List.length_append] at hlen
    rw [List.length_cons] at hf
    exact bfs_spec hnd hn f _ (q ++ new) d' I' (by rw [List.length_append]; omega)

/-- The first loop. -/
theorem seeds_spec (ho : ∀ c, c ∈ cellsOf L → L.status c = .owned → L.owner c = me)
    (hn : ∀ c, c ∈ cellsOf L → ∀ x, x ∈ near c → x ∈ cellsOf L) :
    ∀ (cs q : List El) (d : El → Option (List Int)), cs.Nodup → (∀ c, c ∈ cs → c ∈ cellsOf L) →
    ∃ new, (seeds L near cs (q, d)).1 = q ++ new ∧ new.Sublist cs ∧
      (∀ c, c ∈ new ↔ c ∈ cs ∧ L.status c ≠ .owned ∧ ∃ x, x ∈ near c ∧ L.status x = .owned) ∧
      (∀ c, c ∈ new → (seeds L near cs (q, d)).2 c = some [(me : Int), 1]) ∧
      (∀ c, c ∈ cs → L.status c ≠ .owned → c ∉ new → (seeds L near cs (q, d)).2 c = some [-1, intMax]) ∧
      ∀ c, (c ∉ cs ∨ L.status c = .owned) → (seeds L near cs (q, d)).2 c = d c
  | [], q, d, _, _ => ⟨[], by simp [seeds], List.Sublist.refl _, fun c => by simp, fun _ h => (by cases h),
      fun _ h => (by cases h), fun _ _ => rfl⟩
  | y :: cs, q, d, hnd, hsub => by
    rw [List.nodup_cons] at hnd
    have hsub' : ∀ c, c ∈ cs → c ∈ cellsOf L := fun c h => hsub c (List.mem_cons_of_mem _ h)
    unfold seeds
    by_cases hs : L.status y = .owned
    · rw [if_pos hs]
      obtain ⟨new, h1, h2, h3, h4, h5, h6⟩ := seeds_spec ho hn cs q d hnd.2 hsub'
      refine ⟨new, h1, h2.cons _, fun c => ?_, h4, fun c hc hcs hcn => ?_, fun c hc => h6 c ?_⟩
      · rw [h3, List.mem_cons]
        constructor
        · rintro ⟨a, b⟩; exact ⟨Or.inr a, b⟩
        · rintro ⟨rfl | a, b⟩
          · exact absurd hs b.1
          · exact ⟨a, b⟩
      · rcases List.mem_cons.1 hc with rfl | hc
        · exact absurd hs hcs
        · exact h5 c hc hcs hcn
      · rcases hc with hc | hc
        · exact Or.inl fun h => hc (List.mem_cons_of_mem _ h)
        · exact Or.inr hc
    · rw [if_neg hs]
      cases hfind : (near y).find? fun x => L.status x == .owned with
      | none =>
        simp only
        rw [List.find?_eq_none] at hfind
        have hno : ¬ ∃ x, x ∈ near y ∧ L.status x = .owned := fun ⟨x, hx, hxs⟩ => hfind x hx (by simp [hxs])
        obtain ⟨new, h1, h2, h3, h4, h5, h6⟩ := seeds_spec ho hn cs q (setAt d y (some [-1, intMax])) hnd.2 hsub'
        refine ⟨new, h1, h2.cons _, fun c => ?_, h4, fun c hc hcs hcn => ?_, fun c hc => ?_⟩
        · rw [h3, List.mem_cons]
          constructor
          · rintro ⟨a, b⟩; exact ⟨Or.inr a, b⟩
          · rintro ⟨rfl | a, b⟩
            · exact absurd b.2 hno
            · exact ⟨a, b⟩
        · rcases List.mem_cons.1 hc with rfl | hc
          · rw [h6 c (Or.inl hnd.1)]
            simp [setAt]
          · exact h5 c hc hcs hcn
        · have hcy : c ≠ y := by
            rintro rfl
            rcases hc with hc | hc
            · exact hc List.mem_cons_self
            · exact hs hc
          rw [h6 c (hc.imp_left fun h h' => h (List.mem_cons_of_mem _ h'))]
          simp [setAt, hcy]
      | some x =>
        simp only
        have hx : x ∈ near y := List.mem_of_find?_eq_some hfind
        have hxs : L.status x = .owned := by simpa using List.find?_some hfind
        have hox : L.owner x = me := ho x (hn y (hsub y List.mem_cons_self) x hx) hxs
        rw [hox]
        obtain ⟨new, h1, h2, h3, h4, h5, h6⟩ := seeds_spec ho hn cs (q ++ [y]) (setAt d y (some [(me : Int), 1])) hnd.2 hsub'
        refine ⟨y :: new, by rw [h1]; simp, h2.cons_cons _, fun c => ?_, fun c hc => ?_, fun c hc hcs hcn => ?_, fun c hc => ?_⟩
        · rw [List.mem_cons, h3, List.mem_cons]
          constructor
          · rintro (rfl | ⟨a, b⟩)
            · exact ⟨Or.inl rfl, hs, x, hx, hxs⟩
            · exact ⟨Or.inr a, b⟩
          · rintro ⟨rfl | a, b⟩
            · exact Or.inl rfl
            · exact Or.inr ⟨a, b⟩
        · rcases List.mem_cons.1 hc with rfl | hc
          · rw [h6 c (Or.inl hnd.1)]
            simp [setAt]
          · exact h4 c hc
        · rw [List.mem_cons, not_or] at hcn
          rcases List.mem_cons.1 hc with rfl | hc
          · exact absurd rfl hcn.1
          · exact h5 c hc hcs hcn.2
        · have hcy : c ≠ y := by
            rintro rfl
            rcases hc with hc | hc
            · exact hc List.mem_cons_self
            · exact hs hc
          rw [h6 c (hc.imp_left fun h h' => h (List.mem_cons_of_mem _ h'))]
          simp [setAt, hcy]

/-- The tag has the length of the shortest walk. -/
theorem distances_spec (hnd : L.elems.Nodup) (ho : ∀ c, c ∈ cellsOf L → L.status c = .owned → L.owner c = me)
    (hn : ∀ c, c ∈ cellsOf L → ∀ x, x ∈ near c → x ∈ cellsOf L) :
    ∃ d, distances L near = some d ∧ (∀ c, (c ∉ cellsOf L ∨ L.status c = .owned) → d c = none) ∧
      ∀ c, c ∈ cellsOf L → L.status c ≠ .owned →
        (d c = some [-1, intMax] ∧ ∀ k : Nat, Walk L near c k → intMax ≤ k) ∨
        ∃ k : Nat, d c = some [(me : Int), (k : Int)] ∧ Walk L near c k ∧ (k : Int) < intMax ∧
          ∀ k', Walk L near c k' → k ≤ k' := by
  have hcells : (cellsOf L).Nodup := hnd.filter _
  obtain ⟨new, h1, h2, h3, h4, h5, h6⟩ := seeds_spec (me := me) ho hn (cellsOf L) [] (fun _ => none) hcells
    (fun _ h => h)
  rw [List.nil_append] at h1
  generalize hdd : (seeds L near (cellsOf L) ([], fun _ => none)).2 = d0 at h4 h5 h6
  have hmin : (-1 : Int) ≠ me := by omega
  have e1 : ∀ c, c ∈ new → distAt d0 c = 1 := fun c hc => distAt_some (h4 c hc)
  have hfin : ∀ c, c ∈ cellsOf L → L.status c ≠ .owned → d0 c ≠ some [-1, intMax] → c ∈ new := by
    intro c hc hs hne
    by_contra hcn
    exact hne (h5 c hc hs hcn)
  have I : BInv L near me 1 new d0 := by
    refine ⟨fun c hc => h6 c hc, ?_, ?_, ?_, ?_, ?_, ?_, ?_, ?_⟩
    · intro c hc hs
      by_cases hcn : c ∈ new
      · obtain ⟨_, _, x, hx, hxs⟩ := (h3 c).1 hcn
        exact Or.inr ⟨1, h4 c hcn, .first (mem_cellsOf.1 hc).1 (mem_cellsOf.1 hc).2 hs hx hxs, by decide⟩
      · exact Or.inl (h5 c hc hs hcn)
    · intro c hc
      obtain ⟨a, b, _⟩ := (h3 c).1 hc
      refine ⟨a, b, fun h => ?_⟩
      rw [h4 c hc] at h
      simp only [Option.some.injEq, List.cons.injEq] at h
      exact hmin h.1.symm
    · exact List.Pairwise.imp_of_mem (fun {a b} ha hb _ => by rw [e1 a ha, e1 b hb]; exact Int.le_refl _) (h2.nodup hcells)
    · intro a b ha hb; rw [e1 a ha, e1 b hb]; omega
    · intro c hc hs hne hcn
      exact absurd (hfin c hc hs hne) hcn
    · intro a ha; rw [e1 a ha]; exact Int.le_refl _
    · intro c hc hs hne hcn
      exact absurd (hfin c hc hs hne) hcn
    · intro c hc hs he
      rw [e1 c ((h3 c).2 ⟨hc, hs, he⟩)]
      exact Int.le_refl _
  have hlen : (farCells L d0).length + new.length ≤ (cellsOf L).length := by
    have hsub : (farCells L d0 ++ new).Subperm (cellsOf L) := by
      refine List.subperm_of_subset ?_ ?_
      · rw [List.nodup_append]
        refine ⟨hcells.filter _, h2.nodup hcells, ?_⟩
        rintro a ha b hb rfl
        have := (List.mem_filter.1 ha).2
        rw [h4 a hb] at this
        simp only [beq_iff_eq, Option.some.injEq, List.cons.injEq] at this
        exact hmin this.1.symm
      · intro a ha
        rcases List.mem_append.1 ha with h | h
        · exact (List.mem_filter.1 h).1
        · exact h2.subset h
    have := hsub.length_le
    rwa [List.length_append] at this
  obtain ⟨d, hd, cur', J⟩ := bfs_spec hnd hn ((cellsOf L).length + 1) 1 new d0 I (by omega)
  refine ⟨d, ?_, J.out, ?_⟩
  · unfold distances
    simp only
    rw [h1, hdd]
    exact hd
  -- no walk is shorter than the distance found
  have hle : ∀ c k, Walk L near c k → c ∈ cellsOf L ∧ L.status c ≠ .owned ∧ ((k : Int) < intMax → distAt d c ≤ k) := by
    intro c k w
    induction w with
    | first hc ht hs hx hxs =>
      have hc' := mem_cellsOf.2 ⟨hc, ht⟩
      exact ⟨hc', hs, fun _ => by have := J.first _ hc' hs ⟨_, hx, hxs⟩; push_cast; exact this⟩
    | @next c x k w hx hs ih =>
      refine ⟨hn c ih.1 x hx, hs, fun hk => ?_⟩
      push_cast at hk ⊢
      have h1 := ih.2.2 (by omega)
      have hne : d c ≠ some [-1, intMax] := fun h => by
        rw [distAt_some h] at h1
        omega
      have := J.done c ih.1 ih.2.1 hne (by simp) x hx hs
      omega
  intro c hc hs
  rcases J.val c hc hs with h | ⟨k, h, hw, hk⟩
  · refine Or.inl ⟨h, fun k w => ?_⟩
    by_contra hlt
    have := (hle c k w).2.2 (by omega)
    rw [distAt_some h] at this
    omega
  · refine Or.inr ⟨k, h, hw, hk, fun k' w => ?_⟩
    by_contra hlt
    have := (hle c k' w).2.2 (by omega)
    rw [distAt_some h] at this
    omega

end Verif.Parallel
