import Verif.Parallel.Sync
import Verif.Parallel.Props

/-!
# Properties of SynchronizeMarker (C62)
-/

namespace Verif.Parallel

theorem collective_exists {V : Type} {C : Call V} {G : Nat → Local V} (H : CallOk C G) :
    ∃ G', Collective C G G' := by
  obtain ⟨tr, S, h1, h2⟩ := complete H Run.nil
  exact ⟨S.loc, tr, S, h1, h2, rfl⟩

theorem reduce_ok {n k : Nat} {mask : Nat → Bool} {op : BitOp} {mk : Nat → El → Bool}
    {G : Nat → Local Nat} (D : Distributed n G) :
    CallOk (reduceCall n [(k, syncTag mask)] mask (bitUnpack (bitFun op))) (syncInit k mask op mk G) :=
  ⟨syncInit_ok D, syncInit_sized, by simp [reduceCall], fun t ht => by
    rw [show t = (k, syncTag mask) from List.mem_singleton.1 ht]
    exact bitUnpack_safe _ mask⟩

theorem set_ok {n k : Nat} {mask : Nat → Bool} {op : BitOp} {mk : Nat → El → Bool}
    {G : Nat → Local Nat} (D : Distributed n G) :
    CallOk (exchangeCall n [(k, syncTag mask)] mask) (syncInit k mask op mk G) :=
  exchange_ok (syncInit_ok D) syncInit_sized (by simp)

theorem mid_ok {n k : Nat} {mask : Nat → Bool} {op : BitOp} (hop : op ≠ .set) {mk : Nat → El → Bool}
    {G G1 : Nat → Local Nat} (D : Distributed n G)
    (h1 : Collective (reduceCall n [(k, syncTag mask)] mask (bitUnpack (bitFun op)))
      (syncInit k mask op mk G) G1) : CallOk (exchangeCall n [(k, syncTag mask)] mask) G1 := by
  obtain ⟨D1, hs, _⟩ := sync_mid hop D h1
  exact exchange_ok D1 hs (by simp)

theorem sync_same {n k : Nat} {mask : Nat → Bool} {op : BitOp} {mk mk' : Nat → El → Bool}
    {G : Nat → Local Nat} (D : Distributed n G) (h : SyncMarker n k mask op G mk mk') :
    ∃ G2, SameMesh n G G2 ∧ mk' = syncFinish k mask op G2 mk := by
  have key : op ≠ .set → (∃ G1 G2,
      Collective (reduceCall n [(k, syncTag mask)] mask (bitUnpack (bitFun op))) (syncInit k mask op mk G) G1 ∧
      Collective (exchangeCall n [(k, syncTag mask)] mask) G1 G2 ∧ mk' = syncFinish k mask op G2 mk) →
      ∃ G2, SameMesh n G G2 ∧ mk' = syncFinish k mask op G2 mk := by
    rintro hop ⟨G1, G2, h1, h2, h3⟩
    obtain ⟨D1, hs, s1, _⟩ := sync_mid hop D h1
    obtain ⟨x1, _⟩ := exchange_collective D1 hs (by simp) h2
    exact ⟨G2, s1.trans (sameMesh_data x1), h3⟩
  cases op with
  | set =>
    obtain ⟨G2, h2, h3⟩ := h
    obtain ⟨x1, _⟩ := exchange_collective (syncInit_ok D) syncInit_sized (by simp) h2
    exact ⟨G2, syncInit_same.trans (sameMesh_data x1), h3⟩
  | or => exact key (by simp) h
  | xor => exact key (by simp) h
  | and => exact key (by simp) h

/-- C62: in no execution of SynchronizeMarker an assertion fails or the processors wait for each other for
ever, in either of the two collective calls it makes; and it has an execution that ends. -/
theorem C62_terminates (n k : Nat) (mask : Nat → Bool) (op : BitOp) (G : Nat → Local Nat)
    (hG : Distributed n G) (mk : Nat → El → Bool) :
    (∃ mk', SyncMarker n k mask op G mk mk') ∧
    (∀ C G0, (C = exchangeCall n [(k, syncTag mask)] mask ∧ op = .set ∧ G0 = syncInit k mask op mk G) ∨
        (C = reduceCall n [(k, syncTag mask)] mask (bitUnpack (bitFun op)) ∧ op ≠ .set ∧
          G0 = syncInit k mask op mk G) ∨
        (C = exchangeCall n [(k, syncTag mask)] mask ∧ op ≠ .set ∧
          Collective (reduceCall n [(k, syncTag mask)] mask (bitUnpack (bitFun op)))
            (syncInit k mask op mk G) G0) →
      ∀ tr S, Run C G0 tr S → (∀ ev, step C S ev ≠ .failed) ∧
        (¬ Done C S → ∃ ev S', step C S ev = .ok S') ∧ tr.length ≤ n + n * n) := by
  constructor
  · have key : op ≠ .set → ∃ mk', ∃ G1 G2,
        Collective (reduceCall n [(k, syncTag mask)] mask (bitUnpack (bitFun op))) (syncInit k mask op mk G) G1 ∧
        Collective (exchangeCall n [(k, syncTag mask)] mask) G1 G2 ∧ mk' = syncFinish k mask op G2 mk := by
      intro hop
      obtain ⟨G1, h1⟩ := collective_exists (reduce_ok (k := k) (mask := mask) (op := op) (mk := mk) hG)
      obtain ⟨G2, h2⟩ := collective_exists (mid_ok hop hG h1)
      exact ⟨_, G1, G2, h1, h2, rfl⟩
    cases op with
    | set =>
      obtain ⟨G2, h2⟩ := collective_exists (set_ok (k := k) (mask := mask) (op := .set) (mk := mk) hG)
      exact ⟨_, G2, h2, rfl⟩
    | or => exact key (by simp)
    | xor => exact key (by simp)
    | and => exact key (by simp)
  · intro C G0 hC tr S hr
    have : CallOk C G0 ∧ C.n = n := by
      rcases hC with ⟨rfl, _, rfl⟩ | ⟨rfl, _, rfl⟩ | ⟨rfl, hop, h1⟩
      · exact ⟨set_ok hG, rfl⟩
      · exact ⟨reduce_ok hG, rfl⟩
      · exact ⟨mid_ok hop hG h1, rfl⟩
    obtain ⟨H, hn⟩ := this
    have I := run_inv H hr
    refine ⟨fun ev => (step_inv H I ev).1, progress H I, ?_⟩
    rw [← hn]
    exact run_length I

/-- C62, SYNC_BIT_SET: a ghost gets the marker of the owner's copy; all other elements keep theirs. -/
theorem C62_set (n k : Nat) (mask : Nat → Bool) (G : Nat → Local Nat) (hG : Distributed n G)
    (mk mk' : Nat → El → Bool) (h : SyncMarker n k mask .set G mk mk') (p : Nat) (hp : p < n) (e : El) :
    (∀ q e', GhostOf G p e q e' → mask e.ty = true → mk' p e = mk q e') ∧
    ((G p).status e ≠ .ghost ∨ mask e.ty = false → mk' p e = mk p e) := by
  obtain ⟨G2, h2, rfl⟩ := h
  obtain ⟨x1, x2⟩ := exchange_collective (syncInit_ok hG) syncInit_sized (by simp) h2
  have s : SameMesh n G G2 := syncInit_same.trans (sameMesh_data x1)
  constructor
  · intro q e' hg hm
    have hq : q < n := by
      have := (hG.owner p hp e hg.mem hg.ghost).1
      rw [hg.owner] at this
      exact this
    have s0 : SameMesh n G (syncInit k mask .set mk G) := syncInit_same
    have hm' : mask e'.ty = true := by rw [← hg.same.1]; exact hm
    have y := x2 p hp (k, syncTag mask) (by simp) e
    simp only [syncFinish]
    rw [s.elems p hp, s.status p hp, if_pos ⟨hg.mem, hm⟩, if_pos hg.ghost]
    cases hmk : mk q e' with
    | true =>
      have := y.1 q e' 1 [] (s0.ghostOf hp hq hg) hm hm rfl (by
        simp only
        rw [syncInit_data, if_pos ⟨hg.mem', hm', hmk, .inl hg.shared⟩])
      simp only at this
      rw [this]
      rfl
    | false =>
      have := y.2 (by
        intro q2 e2 g _ _ _ a l hc
        have hq2 : q2 = q := g.owner.symm.trans hg.owner
        subst hq2
        have : e2 = e' := hG.unique q2 hq e2 e' g.mem' hg.mem' (g.same.1.symm.trans hg.same.1)
          (g.same.2.symm.trans hg.same.2)
        subst this
        simp only at hc
        rw [syncInit_data, if_neg (by rw [hmk]; simp)] at hc
        cases hc)
      simp only at this
      rw [this, syncInit_data, if_neg (by rw [hg.ghost]; simp)]
      rfl
  · intro hno
    simp only [syncFinish]
    split
    · rename_i h
      rw [s.status p hp, if_neg]
      rcases hno with h1 | h1
      · exact h1
      · rw [h.2] at h1; cases h1
    · rfl

/-- C62, the other operations: the marker of an element with one copy, or not in the mask, is kept. -/
theorem C62_elsewhere (n k : Nat) (mask : Nat → Bool) (op : BitOp) (G : Nat → Local Nat)
    (hG : Distributed n G) (mk mk' : Nat → El → Bool) (h : SyncMarker n k mask op G mk mk')
    (p : Nat) (hp : p < n) (e : El)
    (hno : ((G p).status e ≠ .ghost ∧ (G p).status e ≠ .shared) ∨ mask e.ty = false) :
    mk' p e = mk p e := by
  obtain ⟨G2, s, rfl⟩ := sync_same hG h
  simp only [syncFinish]
  split
  · rename_i h
    rw [s.status p hp]
    rcases hno with h1 | h1
    · cases op <;> simp [h1.1, h1.2]
    · rw [h.2] at h1; cases h1
  · rfl

/-- Common part of the three operations that combine. -/
theorem sync_combine {n k : Nat} {mask : Nat → Bool} {op : BitOp} (hop : op ≠ .set) {G : Nat → Local Nat}
    (D : Distributed n G) {mk mk' : Nat → El → Bool} (h : SyncMarker n k mask op G mk mk')
    {q : Nat} (hq : q < n) {e' : El} (he : e' ∈ (G q).elems) (hs : (G q).status e' = .shared)
    (hm : mask e'.ty = true) {m : Nat → Bool} (hmk : ∀ p e, GhostOf G p e q e' → m p = mk p e) :
    ∃ order : List Nat, order.Perm (((G q).procs e').filter fun p => p != q) ∧
      ∃ d, d = (if order.any m then
          some [order.foldl (fun a p => if m p then bitFun op a 1 else a) (if mk q e' then 1 else 0)]
        else if mk q e' then some [1] else none) ∧
      (mk' q e' = if op = .or then mk q e' || d.isSome else nonzero d) ∧
      ∀ p, p < n → ∀ e, GhostOf G p e q e' →
        mk' p e = if op = .or then mk p e || d.isSome else
          if d = none then mk p e else nonzero d := by
  have h' : ∃ G1 G2,
      Collective (reduceCall n [(k, syncTag mask)] mask (bitUnpack (bitFun op))) (syncInit k mask op mk G) G1 ∧
      Collective (exchangeCall n [(k, syncTag mask)] mask) G1 G2 ∧ mk' = syncFinish k mask op G2 mk := by
    cases op with
    | set => exact absurd rfl hop
    | or => exact h
    | xor => exact h
    | and => exact h
  obtain ⟨G1, G2, h1, h2, rfl⟩ := h'
  obtain ⟨s, order, ho, d, hd, e1, e2⟩ := sync_data hop D h1 h2 hq he hs hm hmk
  have fin : ∀ p e, p < n → e ∈ (G p).elems → mask e.ty = true →
      ((G p).status e = .ghost ∨ (G p).status e = .shared) → syncFinish k mask op G2 mk p e =
        if op = .or then mk p e || ((G2 p).data k e).isSome else nonzero ((G2 p).data k e) := by
    intro p e hp he hm hst
    simp only [syncFinish]
    rw [s.elems p hp, s.status p hp, if_pos ⟨he, hm⟩]
    cases op with
    | set => exact absurd rfl hop
    | or => simp [hst]
    | xor => simp [hst]
    | and => simp [hst]
  refine ⟨order, ho, d, hd, ?_, ?_⟩
  · rw [fin q e' hq he hm (.inr hs), e1]
  · intro p hp e hg
    rw [fin p e hp hg.mem (by rw [hg.same.1]; exact hm) (.inl hg.ghost), e2 p hp e hg]
    by_cases hn : d = none
    · subst hn
      cases mk p e <;> cases op <;> simp [nonzero] at hop ⊢
    · rw [if_neg hn]
      simp only [hn, if_false]

theorem fold_or (m : Nat → Bool) : ∀ (l : List Nat) (a : Nat), (a = 0 ∨ a = 1) →
    l.foldl (fun a p => if m p then bitFun .or a 1 else a) a = if l.any m then 1 else a
  | [], a, _ => by simp
  | p :: l, a, h => by
    simp only [List.foldl_cons, List.any_cons]
    by_cases hm : m p = true
    · simp only [hm, if_true, Bool.true_or]
      rw [show bitFun .or a 1 = 1 by rcases h with rfl | rfl <;> rfl, fold_or m l 1 (.inr rfl)]
      simp
    · have hm : m p = false := by simpa using hm
      simp only [hm, Bool.false_eq_true, if_false, Bool.false_or]
      exact fold_or m l a h

theorem fold_xor (m : Nat → Bool) : ∀ (l : List Nat) (a : Nat), (a = 0 ∨ a = 1) →
    l.foldl (fun a p => if m p then bitFun .xor a 1 else a) a = (a + (l.filter m).length) % 2
  | [], a, h => by rcases h with rfl | rfl <;> rfl
  | p :: l, a, h => by
    simp only [List.foldl_cons, List.filter_cons]
    by_cases hm : m p = true
    · simp only [hm, if_true, List.length_cons]
      rcases h with rfl | rfl
      · rw [show bitFun .xor 0 1 = 1 from rfl, fold_xor m l 1 (.inr rfl)]; omega
      · rw [show bitFun .xor 1 1 = 0 from rfl, fold_xor m l 0 (.inl rfl)]; omega
    · have hm : m p = false := by simpa using hm
      simp only [hm, Bool.false_eq_true, if_false]
      exact fold_xor m l a h

theorem fold_and (m : Nat → Bool) : ∀ (l : List Nat) (a : Nat), (a = 0 ∨ a = 1) →
    l.foldl (fun a p => if m p then bitFun .and a 1 else a) a = a
  | [], a, _ => rfl
  | p :: l, a, h => by
    simp only [List.foldl_cons]
    by_cases hm : m p = true
    · simp only [hm, if_true]
      rw [show bitFun .and a 1 = a by rcases h with rfl | rfl <;> rfl]
      exact fold_and m l a h
    · have hm : m p = false := by simpa using hm
      simp only [hm, Bool.false_eq_true, if_false]
      exact fold_and m l a h

/-- C62, SYNC_BIT_OR: afterwards a shared element and all its ghosts are marked if and only if at least one
copy was marked before. -/
theorem C62_or (n k : Nat) (mask : Nat → Bool) (G : Nat → Local Nat) (hG : Distributed n G)
    (mk mk' : Nat → El → Bool) (h : SyncMarker n k mask .or G mk mk')
    (q : Nat) (hq : q < n) (e' : El) (he : e' ∈ (G q).elems) (hs : (G q).status e' = .shared)
    (hm : mask e'.ty = true) :
    (mk' q e' = true ↔ mk q e' = true ∨ ∃ p e, GhostOf G p e q e' ∧ mk p e = true) ∧
    ∀ p, p < n → ∀ e, GhostOf G p e q e' → mk' p e = mk' q e' := by
  classical
  have hpn : ∀ p e, GhostOf G p e q e' → p < n := fun p e g =>
    (hG.ghosts q hq e' g.mem' g.shared p g.procs g.ne.symm).1
  have uniq : ∀ p e e2, GhostOf G p e q e' → GhostOf G p e2 q e' → e = e2 := fun p e e2 g g2 =>
    hG.unique p (hpn p e g) e e2 g.mem g2.mem (g.same.1.trans g2.same.1.symm) (g.same.2.trans g2.same.2.symm)
  let m : Nat → Bool := fun p => decide (∃ e, GhostOf G p e q e' ∧ mk p e = true)
  have hmk : ∀ p e, GhostOf G p e q e' → m p = mk p e := by
    intro p e g
    cases hb : mk p e with
    | true => exact decide_eq_true ⟨e, g, hb⟩
    | false =>
      apply decide_eq_false
      rintro ⟨e2, g2, h2⟩
      rw [uniq p e e2 g g2, h2] at hb
      cases hb
  obtain ⟨order, ho, d, hd, e1, e2⟩ := sync_combine (by simp) hG h hq he hs hm hmk
  rw [if_pos rfl] at e1
  have hany : order.any m = true ↔ ∃ p e, GhostOf G p e q e' ∧ mk p e = true := by
    rw [List.any_eq_true]
    constructor
    · rintro ⟨p, _, h2⟩
      exact ⟨p, of_decide_eq_true h2⟩
    · rintro ⟨p, e, g, h2⟩
      refine ⟨p, ho.mem_iff.2 (List.mem_filter.2 ⟨g.procs, ?_⟩), decide_eq_true ⟨e, g, h2⟩⟩
      simpa using g.ne.symm
  have hsome : d.isSome = true ↔ mk q e' = true ∨ ∃ p e, GhostOf G p e q e' ∧ mk p e = true := by
    rw [← hany, hd]
    by_cases h1 : order.any m = true <;> by_cases h2 : mk q e' = true <;> simp [h1, h2]
  have hq' : mk' q e' = d.isSome := by
    rw [e1]
    cases hb : mk q e' with
    | false => rfl
    | true =>
      have : d.isSome = true := hsome.2 (.inl hb)
      rw [this]
      rfl
  refine ⟨by rw [hq']; exact hsome, ?_⟩
  intro p hp e g
  rw [e2 p hp e g, if_pos rfl, hq']
  cases hb : mk p e with
  | false => rfl
  | true =>
    have : d.isSome = true := hsome.2 (.inr ⟨p, e, g, hb⟩)
    rw [this]
    rfl

/-- C62, SYNC_BIT_XOR: afterwards a shared element and all its ghosts are marked if and only if the number of
copies that were marked before is odd.  `m p` is the marker of the ghost on processor `p`. -/
theorem C62_xor (n k : Nat) (mask : Nat → Bool) (G : Nat → Local Nat) (hG : Distributed n G)
    (mk mk' : Nat → El → Bool) (h : SyncMarker n k mask .xor G mk mk')
    (q : Nat) (hq : q < n) (e' : El) (he : e' ∈ (G q).elems) (hs : (G q).status e' = .shared)
    (hm : mask e'.ty = true) (m : Nat → Bool) (hmk : ∀ p e, GhostOf G p e q e' → m p = mk p e) :
    (mk' q e' = true ↔
      ((if mk q e' then 1 else 0) + (((G q).procs e').filter fun p => p != q && m p).length) % 2 = 1) ∧
    ∀ p, p < n → ∀ e, GhostOf G p e q e' → mk' p e = mk' q e' := by
  obtain ⟨order, ho, d, hd, e1, e2⟩ := sync_combine (by simp) hG h hq he hs hm hmk
  rw [if_neg (by simp)] at e1
  have hlen : (order.filter m).length = (((G q).procs e').filter fun p => p != q && m p).length := by
    have := (ho.filter m).length_eq
    rw [this, List.filter_filter]
    congr 1
    apply List.filter_congr
    intro x _
    rw [Bool.and_comm]
  have hz : order.any m = false → (order.filter m).length = 0 := by
    intro h0
    rw [List.length_eq_zero_iff, List.filter_eq_nil_iff]
    intro a ha h1
    rw [List.any_eq_true.2 ⟨a, ha, h1⟩] at h0
    cases h0
  have h01 : (if mk q e' then 1 else 0 : Nat) = 0 ∨ (if mk q e' then 1 else 0 : Nat) = 1 := by
    split <;> simp
  have val : nonzero d = true ↔ ((if mk q e' then 1 else 0) + (order.filter m).length) % 2 = 1 := by
    rw [hd]
    by_cases h1 : order.any m = true
    · rw [if_pos h1, fold_xor m order _ h01]
      simp only [nonzero, bne_iff_ne]
      omega
    · rw [if_neg h1, hz (by simpa using h1)]
      by_cases h2 : mk q e' = true <;> simp [h2, nonzero]
  refine ⟨by rw [e1, val, hlen], ?_⟩
  intro p hp e g
  rw [e2 p hp e g, if_neg (by simp), e1]
  split
  · rename_i hn
    rw [hn]
    -- no copy was marked
    rw [hd] at hn
    by_cases h1 : order.any m = true
    · rw [if_pos h1] at hn; cases hn
    · cases hb : mk p e with
      | false => rfl
      | true =>
        exact absurd (List.any_eq_true.2 ⟨p, ho.mem_iff.2 (List.mem_filter.2
          ⟨g.procs, by simpa using g.ne.symm⟩), by rw [hmk p e g]; exact hb⟩) h1
  · rfl

/-- C62, SYNC_BIT_AND: afterwards all copies of a shared element are marked the same; what they have is the
marker of the owner's copy, so the result is the conjunction if the owner's copy was not marked, or if all
copies were.  Missing: the remaining case, in which the result is wrong (`C62_and_fails`). -/
theorem C62_and_partial (n k : Nat) (mask : Nat → Bool) (G : Nat → Local Nat) (hG : Distributed n G)
    (mk mk' : Nat → El → Bool) (h : SyncMarker n k mask .and G mk mk')
    (q : Nat) (hq : q < n) (e' : El) (he : e' ∈ (G q).elems) (hs : (G q).status e' = .shared)
    (hm : mask e'.ty = true) :
    mk' q e' = mk q e' ∧ (∀ p, p < n → ∀ e, GhostOf G p e q e' → mk' p e = mk' q e') ∧
    ((mk q e' = false ∨ ∀ p e, GhostOf G p e q e' → mk p e = true) →
      (mk' q e' = true ↔ mk q e' = true ∧ ∀ p e, GhostOf G p e q e' → mk p e = true)) := by
  classical
  have hpn : ∀ p e, GhostOf G p e q e' → p < n := fun p e g =>
    (hG.ghosts q hq e' g.mem' g.shared p g.procs g.ne.symm).1
  have uniq : ∀ p e e2, GhostOf G p e q e' → GhostOf G p e2 q e' → e = e2 := fun p e e2 g g2 =>
    hG.unique p (hpn p e g) e e2 g.mem g2.mem (g.same.1.trans g2.same.1.symm) (g.same.2.trans g2.same.2.symm)
  let m : Nat → Bool := fun p => decide (∃ e, GhostOf G p e q e' ∧ mk p e = true)
  have hmk : ∀ p e, GhostOf G p e q e' → m p = mk p e := by
    intro p e g
    cases hb : mk p e with
    | true => exact decide_eq_true ⟨e, g, hb⟩
    | false =>
      apply decide_eq_false
      rintro ⟨e2, g2, h2⟩
      rw [uniq p e e2 g g2, h2] at hb
      cases hb
  obtain ⟨order, ho, d, hd, e1, e2⟩ := sync_combine (by simp) hG h hq he hs hm hmk
  rw [if_neg (by simp)] at e1
  have h01 : (if mk q e' then 1 else 0 : Nat) = 0 ∨ (if mk q e' then 1 else 0 : Nat) = 1 := by
    split <;> simp
  have val : nonzero d = mk q e' := by
    rw [hd]
    by_cases h1 : order.any m = true
    · rw [if_pos h1, fold_and m order _ h01]
      cases mk q e' <;> rfl
    · rw [if_neg h1]
      cases mk q e' <;> rfl
  have hq' : mk' q e' = mk q e' := by rw [e1, val]
  refine ⟨hq', ?_, ?_⟩
  · intro p hp e g
    rw [e2 p hp e g, if_neg (by simp), e1]
    split
    · rename_i hn
      rw [hn]
      rw [hd] at hn
      by_cases h1 : order.any m = true
      · rw [if_pos h1] at hn; cases hn
      · cases hb : mk p e with
        | false => rfl
        | true =>
          exact absurd (List.any_eq_true.2 ⟨p, ho.mem_iff.2 (List.mem_filter.2
            ⟨g.procs, by simpa using g.ne.symm⟩), by rw [hmk p e g]; exact hb⟩) h1
    · rfl
  · rintro (h1 | h1)
    · rw [hq', h1]; simp
    · rw [hq']
      exact ⟨fun h => ⟨h, h1⟩, fun h => h.1⟩

/-! ## A concrete mesh -/

/-- The mesh of `exMesh` with bulk data. -/
def syncMesh (p : Nat) : Local Nat :=
  { elems := (exMesh (fun _ _ _ => none) p).elems
    status := (exMesh (fun _ _ _ => none) p).status
    owner := (exMesh (fun _ _ _ => none) p).owner
    procs := (exMesh (fun _ _ _ => none) p).procs
    key := (exMesh (fun _ _ _ => none) p).key
    sel := fun _ => true
    data := fun _ _ => none }

theorem syncMesh_ok : Distributed 3 syncMesh := distributed_of (by decide +kernel)

/-- All operations have executions on this mesh; the node 10 of processor 0 is shared, its ghosts are on 1
and 2. -/
example (op : BitOp) (mk : Nat → El → Bool) : (∃ mk', SyncMarker 3 0 (fun i => i < 4) op syncMesh mk mk') ∧
    (syncMesh 0).status ⟨0, 0⟩ = .shared ∧ GhostOf syncMesh 1 ⟨0, 3⟩ 0 ⟨0, 0⟩ ∧
    GhostOf syncMesh 2 ⟨0, 7⟩ 0 ⟨0, 0⟩ :=
  ⟨(C62_terminates 3 0 _ op syncMesh syncMesh_ok mk).1, by decide, ghostOfB_iff.1 (by decide +kernel),
    ghostOfB_iff.1 (by decide +kernel)⟩

/-- C62 fails for SYNC_BIT_AND: the owner's copy is marked, the ghost is not; afterwards both are, because a
copy that is not marked sends nothing (parallel.cpp L705-707). -/
theorem C62_and_fails : ∃ (n : Nat) (G : Nat → Local Nat) (mk mk' : Nat → El → Bool) (e e' : El),
    Distributed n G ∧ SyncMarker n 0 (fun _ => true) .and G mk mk' ∧ GhostOf G 1 e 0 e' ∧
    mk 0 e' = true ∧ mk 1 e = false ∧ mk' 0 e' = true ∧ mk' 1 e = true := by
  let mk : Nat → El → Bool := fun p _ => p == 0
  obtain ⟨mk', h⟩ := (C62_terminates 3 0 (fun _ => true) .and syncMesh syncMesh_ok mk).1
  have g : GhostOf syncMesh 1 ⟨0, 3⟩ 0 ⟨0, 0⟩ := ghostOfB_iff.1 (by decide +kernel)
  obtain ⟨h1, h2, _⟩ := C62_and_partial 3 0 (fun _ => true) syncMesh syncMesh_ok mk mk' h 0 (by decide) ⟨0, 0⟩
    (by decide) (by decide) rfl
  exact ⟨3, syncMesh, mk, mk', ⟨0, 3⟩, ⟨0, 0⟩, syncMesh_ok, h, g, rfl, rfl, h1, (h2 1 (by decide) _ g).trans h1⟩

end Verif.Parallel
