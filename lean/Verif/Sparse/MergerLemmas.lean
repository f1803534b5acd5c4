import Verif.Sparse.MergerSpec
import Verif.Sparse.RowLemmas

/-!
# Invariant of `RowMerger`
-/

namespace Verif.Sparse

variable {K : Type} [CommRing K] [DecidableEq K]

@[simp] theorem setAt_same {α : Type} (f : Nat → α) (p : Nat) (v : α) : setAt f p v p = v := by simp [setAt]

theorem setAt_ne {α : Type} (f : Nat → α) (p : Nat) (v : α) (q : Nat) (h : q ≠ p) : setAt f p v q = f q := by
  simp [setAt, h]

/-! ## `std::map` -/

omit [DecidableEq K] in
theorem mapUpd_cols (r : Row K) (c : Nat) (f : K → K) (d : Nat) :
    HasColumn (mapUpd r c f) d ↔ d = c ∨ HasColumn r d := by
  unfold HasColumn
  induction r with
  | nil => simp [mapUpd]
  | cons e r ih =>
    obtain ⟨i, v⟩ := e
    rw [mapUpd]
    split
    · simp
    · split
      · rename_i h; subst h; simp
      · simp only [List.map_cons, List.mem_cons, ih]; tauto

omit [DecidableEq K] in
theorem mapUpd_sorted (r : Row K) (c : Nat) (f : K → K) (h : StrictlySorted r) :
    StrictlySorted (mapUpd r c f) := by
  induction r with
  | nil => simp [mapUpd, StrictlySorted]
  | cons e r ih =>
    obtain ⟨i, v⟩ := e
    unfold StrictlySorted at h
    simp only [List.map_cons, List.pairwise_cons] at h
    rw [mapUpd]
    split
    · rename_i hc
      simp only [StrictlySorted, List.map_cons, List.pairwise_cons, List.mem_cons]
      refine ⟨?_, h.1, h.2⟩
      rintro a (rfl | ha)
      · exact hc
      · have := h.1 a ha; omega
    · split
      · simp only [StrictlySorted, List.map_cons, List.pairwise_cons]
        exact h
      · rename_i h1 h2
        simp only [StrictlySorted, List.map_cons, List.pairwise_cons]
        refine ⟨?_, ih h.2⟩
        intro a ha
        have := (mapUpd_cols r c f a).1 ha
        rcases this with rfl | ha
        · omega
        · exact h.1 a ha

omit [DecidableEq K] in
theorem mapUpd_get (r : Row K) (c : Nat) (f : K → K) (h : StrictlySorted r) (d : Nat) :
    getSafe (mapUpd r c f) d = if d = c then f (getSafe r d) else getSafe r d := by
  induction r with
  | nil => simp [mapUpd, getSafe, eq_comm]
  | cons e r ih =>
    obtain ⟨i, v⟩ := e
    unfold StrictlySorted at h
    simp only [List.map_cons, List.pairwise_cons] at h
    rw [mapUpd]
    split
    · rename_i hc
      by_cases hd : d = c
      · subst hd
        have hz : getSafe r d = 0 := getSafe_absent r d (fun hh => by have := h.1 d hh; omega)
        have hi : i ≠ d := by omega
        simp [getSafe, hi, hz]
      · have : ¬ c = d := fun h => hd h.symm
        simp [getSafe, this, hd]
    · split
      · rename_i h1; subst h1
        by_cases hd : d = i
        · subst hd; simp [getSafe]
        · have : ¬ i = d := fun h => hd h.symm
          simp [getSafe, this, hd]
      · rename_i h1 h2
        by_cases hd : i = d
        · subst hd; simp [getSafe, h2]
        · simp [getSafe, hd, ih h.2]

/-! ## Linked lists -/

/-- `L` are the positions of the linked list behind `p`. -/
def Chain (nxt : Nat → Nat) : Nat → List Nat → Prop
  | p, [] => nxt p = EOL
  | p, x :: L => nxt p = x ∧ Chain nxt x L

theorem chain_congr (n1 n2 : Nat → Nat) (p : Nat) (L : List Nat) (h : ∀ q ∈ p :: L, n1 q = n2 q)
    (hc : Chain n1 p L) : Chain n2 p L := by
  induction L generalizing p with
  | nil => rw [Chain] at hc ⊢; rw [← h p (by simp)]; exact hc
  | cons x L ih =>
    rw [Chain] at hc ⊢
    exact ⟨by rw [← h p (by simp)]; exact hc.1, ih x (fun q hq => h q (by simp [hq])) hc.2⟩

/-- The last position of the list `p :: M`. -/
def lastOf (p : Nat) (M : List Nat) : Nat := (p :: M).getLast (by simp)

theorem lastOf_nil (p : Nat) : lastOf p [] = p := rfl

theorem lastOf_cons (p x : Nat) (M : List Nat) : lastOf p (x :: M) = lastOf x M := by
  simp [lastOf]

theorem lastOf_append (p x : Nat) (M : List Nat) : lastOf p (M ++ [x]) = x := by
  simp [lastOf]

theorem lastOf_mem (p : Nat) (M : List Nat) : lastOf p M ∈ p :: M := List.getLast_mem _

theorem lastOf_trans (p : Nat) (A B : List Nat) : lastOf (lastOf p A) B = lastOf p (A ++ B) := by
  induction A generalizing p with
  | nil => rfl
  | cons x A ih => rw [lastOf_cons, ih, List.cons_append, lastOf_cons]

theorem chain_append (nxt : Nat → Nat) (p : Nat) (A B : List Nat) (h : Chain nxt p (A ++ B)) :
    Chain nxt (lastOf p A) B := by
  induction A generalizing p with
  | nil => exact h
  | cons x A ih => rw [lastOf_cons]; exact ih x h.2

theorem chain_next (nxt : Nat → Nat) (p : Nat) (B : List Nat) (h : Chain nxt p B) :
    nxt p = EOL ∨ nxt p ∈ B := by
  cases B with
  | nil => exact .inl h
  | cons x B => exact .inr (by rw [h.1]; simp)

theorem chain_insert (nxt : Nat → Nat) (p t : Nat) (M1 M2 : List Nat) (h : Chain nxt p (M1 ++ M2))
    (hnd : (p :: (M1 ++ M2)).Nodup) (ht : t ∉ p :: (M1 ++ M2)) :
    Chain (setAt (setAt nxt (lastOf p M1) t) t (nxt (lastOf p M1))) p (M1 ++ t :: M2) := by
  induction M1 generalizing p with
  | nil =>
    rw [lastOf_nil]
    simp only [List.nil_append, List.mem_cons, not_or] at h ht hnd ⊢
    refine ⟨by rw [setAt_ne _ _ _ _ (Ne.symm ht.1), setAt_same], ?_⟩
    cases M2 with
    | nil => show setAt _ _ _ _ = EOL; rw [setAt_same]; exact h
    | cons x M2 =>
      refine ⟨by rw [setAt_same]; exact h.1, ?_⟩
      apply chain_congr nxt _ _ _ _ h.2
      intro q hq
      have h1 : q ≠ t := by rintro rfl; exact ht.2 hq
      have h2 : q ≠ p := by rintro rfl; exact (List.nodup_cons.1 hnd).1 hq
      rw [setAt_ne _ _ _ _ h1, setAt_ne _ _ _ _ h2]
  | cons x M1 ih =>
    rw [lastOf_cons]
    simp only [List.cons_append] at h ht hnd ⊢
    have hp : p ∉ x :: (M1 ++ M2) := (List.nodup_cons.1 hnd).1
    refine ⟨?_, ih x h.2 (List.nodup_cons.1 hnd).2 (fun hh => ht (List.mem_cons_of_mem _ hh))⟩
    have h1 : p ≠ t := by rintro rfl; exact ht (by simp)
    have h2 : p ≠ lastOf x M1 := by
      rintro e
      have := lastOf_mem x M1
      rw [← e] at this
      apply hp
      simp only [List.mem_cons, List.mem_append] at this ⊢
      tauto
    rw [setAt_ne _ _ _ _ h1, setAt_ne _ _ _ _ h2]
    exact h.1

/-! ## Invariant -/

/-- The invariant; `L` are the positions in the list. -/
structure MInv (m : Merger K) (L : List Nat) : Prop where
  chain : Chain m.nxt m.ibeg L
  nodup : L.Nodup
  range : ∀ x ∈ L, m.ibeg < x ∧ x ≤ m.iend
  ord : m.sorted = true → L.Pairwise (· < ·)
  off : ∀ x, x ∉ L → x ≠ m.ibeg → m.nxt x = UNDEF
  zero : ∀ x, x ∉ L → m.val x = 0
  nnz : m.nonzeros = L.length
  ints : m.ibeg ≤ m.iend
  bound : m.iend < EOL
  nls : StrictlySorted m.nonlocal
  nlo : ∀ c, HasColumn m.nonlocal c → m.isLocal c = false

/-- The value of the accumulator in a column. -/
def Merger.sem (m : Merger K) (c : Nat) : K := if m.isLocal c then m.val (c + 1) else getSafe m.nonlocal c

variable {m : Merger K} {L : List Nat}

omit [DecidableEq K] in
theorem MInv.headNodup (h : MInv m L) : (m.ibeg :: L).Nodup :=
  List.nodup_cons.2 ⟨fun hh => by have := h.range _ hh; omega, h.nodup⟩

omit [DecidableEq K] in
theorem MInv.len (h : MInv m L) : L.length ≤ m.iend - m.ibeg := by
  have : L ⊆ List.range' (m.ibeg + 1) (m.iend - m.ibeg) := by
    intro x hx
    have := h.range x hx
    rw [List.mem_range'_1]; omega
  simpa using (List.Nodup.subperm h.nodup this).length_le

omit [DecidableEq K] in
theorem MInv.mem_iff (h : MInv m L) (c : Nat) (hc : m.isLocal c = true) :
    m.nxt (c + 1) ≠ UNDEF ↔ c + 1 ∈ L := by
  have hl : m.ibeg ≤ c ∧ c < m.iend := by simpa [Merger.isLocal] using hc
  constructor
  · intro hn
    by_contra hc
    exact hn (h.off _ hc (by omega))
  · intro hm
    obtain ⟨A, B, rfl⟩ := List.append_of_mem hm
    have h1 := chain_append _ _ _ _ (by simpa using h.chain : Chain m.nxt m.ibeg ((A ++ [c + 1]) ++ B))
    rw [lastOf_append] at h1
    have h2 := h.bound
    rcases chain_next _ _ _ h1 with e | e
    · rw [e]; unfold EOL UNDEF; omega
    · have := h.range (m.nxt (c + 1)) (by simp [e])
      unfold EOL at h2; unfold UNDEF; omega

omit [DecidableEq K] in
/-- Linking a new position into the list. -/
theorem link_inv (h : MInv m L) (M1 M2 : List Nat) (hL : L = M1 ++ M2) (t : Nat) (v : K) (ht : t ∉ L)
    (hr : m.ibeg < t ∧ t ≤ m.iend)
    (ho : m.sorted = true → (∀ x ∈ M1, x < t) ∧ ∀ x ∈ M2, t < x) (n : Nat)
    (hn : n = m.nxt (lastOf m.ibeg M1)) :
    MInv (m.link (lastOf m.ibeg M1) t n v) (M1 ++ t :: M2) := by
  subst hL; subst hn
  have hmem : ∀ x, x ∈ M1 ++ t :: M2 ↔ x = t ∨ x ∈ M1 ++ M2 := by
    intro x; simp only [List.mem_append, List.mem_cons]; tauto
  refine ⟨?_, ?_, ?_, ?_, ?_, ?_, ?_, h.ints, h.bound, h.nls, h.nlo⟩
  · refine chain_insert m.nxt m.ibeg t M1 M2 h.chain h.headNodup ?_
    simp only [List.mem_cons, not_or]
    exact ⟨by omega, ht⟩
  · exact (List.perm_middle.nodup_iff).2 (List.nodup_cons.2 ⟨ht, h.nodup⟩)
  · intro x hx
    rcases (hmem x).1 hx with rfl | hx
    · exact hr
    · exact h.range x hx
  · intro hs
    have := h.ord hs
    rw [List.pairwise_append] at this ⊢
    obtain ⟨h1, h2⟩ := ho hs
    refine ⟨this.1, List.pairwise_cons.2 ⟨h2, this.2.1⟩, ?_⟩
    intro a ha b hb
    rcases List.mem_cons.1 hb with rfl | hb
    · exact h1 a ha
    · exact this.2.2 a ha b hb
  · intro x hx hxb
    rw [hmem] at hx
    simp only [not_or] at hx
    have hl := lastOf_mem m.ibeg M1
    have hxl : x ≠ lastOf m.ibeg M1 := by
      rintro rfl
      rcases List.mem_cons.1 hl with e | e
      · exact hxb e
      · exact hx.2 (by simp [e])
    show setAt _ _ _ _ = _
    rw [setAt_ne _ _ _ _ hx.1, setAt_ne _ _ _ _ hxl]
    exact h.off x hx.2 hxb
  · intro x hx
    rw [hmem] at hx
    simp only [not_or] at hx
    show setAt _ _ _ _ = _
    rw [setAt_ne _ _ _ _ hx.1]
    exact h.zero x hx.2
  · show m.nonzeros + 1 = _
    rw [h.nnz]; simp; omega

omit [DecidableEq K] in
/-- The search of the sorted mode. -/
theorem findPlace_spec (m : Merger K) (tgt : Nat) (B : List Nat) (fuel idx : Nat)
    (hc : Chain m.nxt idx B) (hs : B.Pairwise (· < ·)) (ht : tgt ∉ B) (hE : tgt < EOL)
    (hr : ∀ x ∈ B, m.ibeg < x ∧ x ≤ m.iend) (hf : B.length < fuel) :
    ∃ B1 B2, B = B1 ++ B2 ∧
      findPlace m tgt fuel idx (m.nxt idx) = some (lastOf idx B1, m.nxt (lastOf idx B1)) ∧
      tgt < m.nxt (lastOf idx B1) ∧ (∀ x ∈ B1, x < tgt) ∧ ∀ x ∈ B2, tgt < x := by
  induction B generalizing fuel idx with
  | nil =>
    obtain ⟨f, rfl⟩ : ∃ f, fuel = f + 1 := ⟨fuel - 1, by simp at hf; omega⟩
    have hc : m.nxt idx = EOL := hc
    refine ⟨[], [], rfl, ?_, ?_, by simp, by simp⟩
    · rw [findPlace, if_neg (by omega)]; rfl
    · rw [lastOf_nil]; omega
  | cons x B ih =>
    obtain ⟨f, rfl⟩ : ∃ f, fuel = f + 1 := ⟨fuel - 1, by simp at hf; omega⟩
    simp only [List.mem_cons, not_or] at ht
    rw [List.pairwise_cons] at hs
    by_cases hx : x < tgt
    · obtain ⟨B1, B2, h1, h2, h3, h4, h5⟩ := ih f x hc.2 hs.2 ht.2
        (fun y hy => hr y (by simp [hy])) (by simp at hf; omega)
      refine ⟨x :: B1, B2, by rw [h1]; rfl, ?_, ?_, ?_, h5⟩
      · have hh : m.has x = true := by
          have := hr x (by simp)
          simp [Merger.has]; omega
        rw [findPlace, hc.1, if_pos hx, if_pos hh, h2, lastOf_cons]
      · rw [lastOf_cons]; exact h3
      · intro y hy
        rcases List.mem_cons.1 hy with rfl | hy
        · exact hx
        · exact h4 y hy
    · have hxt : tgt < x := by omega
      refine ⟨[], x :: B, rfl, ?_, ?_, by simp, ?_⟩
      · rw [findPlace, hc.1, if_neg hx, lastOf_nil, hc.1]
      · rw [lastOf_nil, hc.1]; exact hxt
      · intro y hy
        rcases List.mem_cons.1 hy with rfl | hy
        · exact hxt
        · have := hs.1 y hy; omega

omit [DecidableEq K] in
/-- Inserting from a position `index` in the list that is in front of the place of the column.  -/
theorem insertFrom_spec (h : MInv m L) (A B : List Nat) (hL : L = A ++ B) (tgt : Nat) (v : K)
    (ht : tgt ∉ L) (hr : m.ibeg < tgt ∧ tgt ≤ m.iend)
    (hA : m.sorted = true → ∀ x ∈ A, x < tgt) (hA' : m.sorted = false → A = []) :
    ∃ M1 M2, L = M1 ++ M2 ∧
      m.insertFrom (lastOf m.ibeg A) tgt v =
        some (m.link (lastOf m.ibeg M1) tgt (m.nxt (lastOf m.ibeg M1)) v, lastOf m.ibeg M1) ∧
      (m.sorted = true → (∀ x ∈ M1, x < tgt) ∧ ∀ x ∈ M2, tgt < x) ∧
      (m.sorted = false → M1 = []) := by
  have hb := h.bound
  subst hL
  by_cases hs : m.sorted = true
  · have hp := h.ord hs
    rw [List.pairwise_append] at hp
    have hlen := h.len
    rw [List.length_append] at hlen
    have hlt : lastOf m.ibeg A < tgt := by
      rcases List.mem_cons.1 (lastOf_mem m.ibeg A) with e | e
      · rw [e]; exact hr.1
      · exact hA hs _ e
    have hhas : m.has (lastOf m.ibeg A) = true := by
      rcases List.mem_cons.1 (lastOf_mem m.ibeg A) with e | e
      · rw [e]; have := h.ints; simp [Merger.has]; omega
      · have := h.range _ (List.mem_append_left _ e)
        simp [Merger.has]; omega
    obtain ⟨B1, B2, h1, h2, h3, h4, h5⟩ := findPlace_spec m tgt B (m.iend - m.ibeg + 2) (lastOf m.ibeg A)
      (chain_append _ _ _ _ h.chain) hp.2.1 (fun hh => ht (List.mem_append_right _ hh)) (by omega)
      (fun x hx => h.range x (List.mem_append_right _ hx)) (by omega)
    rw [lastOf_trans] at h2 h3
    refine ⟨A ++ B1, B2, by rw [h1, List.append_assoc], ?_, fun _ => ⟨?_, h5⟩, ?_⟩
    · have e1 : findPlace m tgt m.fuel (lastOf m.ibeg A) (lastOf m.ibeg A) =
          some (lastOf m.ibeg (A ++ B1), m.nxt (lastOf m.ibeg (A ++ B1))) := by
        show findPlace m tgt (m.iend - m.ibeg + 2 + 1) _ _ = _
        rw [findPlace, if_pos hlt, if_pos hhas, h2]
      have e2 : lastOf m.ibeg (A ++ B1) < tgt := by
        rcases List.mem_cons.1 (lastOf_mem m.ibeg (A ++ B1)) with e | e
        · rw [e]; exact hr.1
        · rcases List.mem_append.1 e with e | e
          · exact hA hs _ e
          · exact h4 _ e
      unfold Merger.insertFrom
      rw [if_pos hs, e1]
      simp only
      rw [if_pos ⟨e2, h3⟩]
    · intro x hx
      rcases List.mem_append.1 hx with e | e
      · exact hA hs _ e
      · exact h4 _ e
    · intro hf; rw [hs] at hf; cases hf
  · have hs' : m.sorted = false := by simpa using hs
    have := hA' hs'
    subst this
    refine ⟨[], B, rfl, ?_, fun e => (hs e).elim, fun _ => rfl⟩
    unfold Merger.insertFrom
    rw [if_neg hs]

omit [DecidableEq K] in
/-- Values after linking. -/
theorem link_sem (idx t n : Nat) (v : K) (c : Nat) (hc : m.isLocal c = true) (ht : t = c + 1) (d : Nat) :
    (m.link idx t n v).sem d = if d = c then v else m.sem d := by
  subst ht
  unfold Merger.sem
  show (if m.isLocal d then setAt m.val (c + 1) v (d + 1) else getSafe m.nonlocal d) = _
  by_cases hd : d = c
  · subst hd; simp [hc]
  · rw [setAt_ne _ _ _ _ (by omega)]; simp [hd]

omit [DecidableEq K] in
/-- Changing a value in the list. -/
theorem setVal_inv (h : MInv m L) (c : Nat) (hc : m.isLocal c = true) (hm : c + 1 ∈ L) (v : K) :
    MInv { m with val := setAt m.val (c + 1) v } L ∧
    ∀ d, ({ m with val := setAt m.val (c + 1) v } : Merger K).sem d = if d = c then v else m.sem d := by
  refine ⟨⟨h.chain, h.nodup, h.range, h.ord, h.off, ?_, h.nnz, h.ints, h.bound, h.nls, h.nlo⟩, ?_⟩
  · intro x hx
    show setAt _ _ _ _ = _
    rw [setAt_ne _ _ _ _ (by rintro rfl; exact hx hm)]
    exact h.zero x hx
  · intro d
    unfold Merger.sem
    show (if m.isLocal d then setAt m.val (c + 1) v (d + 1) else getSafe m.nonlocal d) = _
    by_cases hd : d = c
    · subst hd; simp [hc]
    · rw [setAt_ne _ _ _ _ (by omega)]; simp [hd]

omit [DecidableEq K] in
/-- Changing a value outside of the interval. -/
theorem nonlocal_inv (h : MInv m L) (c : Nat) (hc : m.isLocal c = false) (f : K → K) :
    MInv { m with nonlocal := mapUpd m.nonlocal c f } L ∧
    ∀ d, ({ m with nonlocal := mapUpd m.nonlocal c f } : Merger K).sem d =
      if d = c then f (m.sem c) else m.sem d := by
  refine ⟨⟨h.chain, h.nodup, h.range, h.ord, h.off, h.zero, h.nnz, h.ints, h.bound,
    mapUpd_sorted _ _ _ h.nls, ?_⟩, ?_⟩
  · intro d hd
    rcases (mapUpd_cols _ _ _ _).1 hd with rfl | hd
    · exact hc
    · exact h.nlo d hd
  · intro d
    unfold Merger.sem
    show (if m.isLocal d then m.val (d + 1) else getSafe (mapUpd m.nonlocal c f) d) = _
    rw [mapUpd_get _ _ _ h.nls]
    by_cases hd : d = c
    · subst hd; simp [hc]
    · simp [hd]

omit [DecidableEq K] in
theorem isLocal_iff (m : Merger K) (c : Nat) : m.isLocal c = true ↔ m.ibeg ≤ c ∧ c < m.iend := by
  simp [Merger.isLocal]

omit [DecidableEq K] in
theorem access_spec (h : MInv m L) (c : Nat) (f : K → K) :
    ∃ m' L', m.access c f = some m' ∧ MInv m' L' ∧ m'.sorted = m.sorted ∧
      ∀ d, m'.sem d = if d = c then f (m.sem d) else m.sem d := by
  unfold Merger.access
  by_cases hc : m.isLocal c = true
  · have hl := (isLocal_iff m c).1 hc
    rw [if_pos hc]
    by_cases hm : c + 1 ∈ L
    · rw [if_pos ((h.mem_iff c hc).2 hm)]
      obtain ⟨h1, h2⟩ := setVal_inv h c hc hm (f (m.val (c + 1)))
      refine ⟨_, L, rfl, h1, rfl, fun d => ?_⟩
      rw [h2]
      by_cases hd : d = c
      · subst hd; simp [Merger.sem, hc]
      · simp [hd]
    · rw [if_neg (fun e => hm ((h.mem_iff c hc).1 e))]
      obtain ⟨M1, M2, h1, h2, h3, h4⟩ := insertFrom_spec h [] L rfl (c + 1) (f (m.val (c + 1))) hm
        (by omega) (by simp) (fun _ => rfl)
      rw [lastOf_nil] at h2
      rw [h2]
      refine ⟨_, _, rfl, link_inv h M1 M2 h1 (c + 1) _ hm (by omega) h3 _ rfl, rfl, fun d => ?_⟩
      rw [link_sem _ _ _ _ c hc rfl]
      by_cases hd : d = c
      · subst hd; simp [Merger.sem, hc]
      · simp [hd]
  · have hc' : m.isLocal c = false := by simpa using hc
    rw [if_neg hc]
    obtain ⟨h1, h2⟩ := nonlocal_inv h c hc' f
    refine ⟨_, L, rfl, h1, rfl, fun d => ?_⟩
    rw [h2]
    by_cases hd : d = c
    · subst hd; simp
    · simp [hd]

omit [DecidableEq K] in
theorem ascends_of_sorted (c : Nat) (v : K) (r : Row K) (h : StrictlySorted ((c, v) :: r)) :
    ascends c r = true := by
  cases r with
  | nil => rfl
  | cons e r =>
    obtain ⟨d, w⟩ := e
    unfold StrictlySorted at h
    simp only [List.map_cons, List.pairwise_cons, List.mem_cons] at h
    simp only [ascends, decide_eq_true_iff]
    exact h.1 d (Or.inl rfl)

omit [DecidableEq K] in
theorem addLoop_spec (coef : K) (r : Row K) (m : Merger K) (L A B : List Nat) (h : MInv m L)
    (hL : L = A ++ B) (hr : m.sorted = true → StrictlySorted r)
    (hA : m.sorted = true → ∀ e ∈ r, ∀ x ∈ A, x < e.1 + 1) (hA' : m.sorted = false → A = []) :
    ∃ m' L', addLoop coef r (lastOf m.ibeg A) m = some m' ∧ MInv m' L' ∧ m'.sorted = m.sorted ∧
      ∀ d, m'.sem d = m.sem d + coef * colVal r d := by
  induction r generalizing m L A B with
  | nil => exact ⟨m, L, rfl, h, rfl, fun d => by simp⟩
  | cons e r ih =>
    obtain ⟨c, v⟩ := e
    have hasc : (m.sorted && !ascends c r) = false := by
      by_cases hs : m.sorted = true
      · rw [ascends_of_sorted c v r (hr hs)]; simp
      · simp [hs]
    have hr' : m.sorted = true → StrictlySorted r := fun hs => by
      have := hr hs
      unfold StrictlySorted at this ⊢
      exact (List.pairwise_cons.1 this).2
    have hcr : m.sorted = true → ∀ e ∈ r, c < e.1 := fun hs e he => by
      have := hr hs
      unfold StrictlySorted at this
      rw [List.map_cons, List.pairwise_cons] at this
      exact this.1 e.1 (List.mem_map.2 ⟨e, he, rfl⟩)
    rw [addLoop, hasc]
    simp only [Bool.false_eq_true, ↓reduceIte]
    unfold Merger.addEntry
    by_cases hc : m.isLocal c = true
    · have hl := (isLocal_iff m c).1 hc
      rw [if_pos hc]
      by_cases hm : c + 1 ∈ L
      · rw [if_pos ((h.mem_iff c hc).2 hm)]
        obtain ⟨h1, h2⟩ := setVal_inv h c hc hm (m.val (c + 1) + coef * v)
        obtain ⟨m', L', g1, g2, g3, g4⟩ := ih _ L A B h1 hL hr'
          (fun hs e he => hA hs e (List.mem_cons_of_mem _ he)) hA'
        refine ⟨m', L', g1, g2, g3, fun d => ?_⟩
        rw [g4, h2, colVal_cons]
        by_cases hd : d = c
        · subst hd; simp [Merger.sem, hc]; ring
        · simp [hd, Ne.symm hd]
      · rw [if_neg (fun e => hm ((h.mem_iff c hc).1 e))]
        have hz : m.sem c = 0 := by unfold Merger.sem; rw [if_pos hc]; exact h.zero _ hm
        obtain ⟨M1, M2, h1, h2, h3, h4⟩ := insertFrom_spec h A B hL (c + 1) (coef * v) hm
          (by omega) (fun hs => hA hs (c, v) (by simp)) hA'
        rw [h2]
        have hi := link_inv h M1 M2 h1 (c + 1) (coef * v) hm (by omega) h3 _ rfl
        obtain ⟨m', L', g1, g2, g3, g4⟩ := ih _ _ M1 ((c + 1) :: M2) hi rfl hr'
          (fun hs e he x hx => by
            have a := (h3 hs).1 x hx
            have b := hcr hs e he
            omega) h4
        refine ⟨m', L', g1, g2, g3, fun d => ?_⟩
        rw [g4, link_sem _ _ _ _ c hc rfl, colVal_cons]
        by_cases hd : d = c
        · subst hd; rw [hz]; simp; ring
        · simp [hd, Ne.symm hd]
    · have hc' : m.isLocal c = false := by simpa using hc
      rw [if_neg hc]
      obtain ⟨h1, h2⟩ := nonlocal_inv h c hc' (· + coef * v)
      obtain ⟨m', L', g1, g2, g3, g4⟩ := ih _ L A B h1 hL hr'
        (fun hs e he => hA hs e (List.mem_cons_of_mem _ he)) hA'
      refine ⟨m', L', g1, g2, g3, fun d => ?_⟩
      rw [g4, h2, colVal_cons]
      by_cases hd : d = c
      · subst hd; simp; ring
      · simp [hd, Ne.symm hd]

theorem addRow_spec (h : MInv m L) (coef : K) (r : Row K) (hr : m.sorted = true → StrictlySorted r) :
    ∃ m' L', m.addRow coef r = some m' ∧ MInv m' L' ∧ m'.sorted = m.sorted ∧
      ∀ d, m'.sem d = m.sem d + coef * colVal r d := by
  unfold Merger.addRow
  by_cases hc : coef = 0
  · rw [if_neg (by simpa using hc)]
    exact ⟨m, L, rfl, h, rfl, fun d => by rw [hc]; ring⟩
  · rw [if_pos hc]
    have := addLoop_spec coef r m L [] L h rfl hr (by simp) (fun _ => rfl)
    rw [lastOf_nil] at this
    exact this

omit [DecidableEq K] in
theorem pushLoop_spec (coef : K) (r : Row K) (m : Merger K) (L : List Nat) (h : MInv m L)
    (hd : Distinct r) (hr : m.sorted = true → StrictlySorted r)
    (hL : ∀ e ∈ r, e.1 + 1 ∉ L) (hs : m.sorted = true → ∀ e ∈ r, ∀ x ∈ L, x < e.1 + 1)
    (hz : ∀ e ∈ r, m.sem e.1 = 0) :
    ∃ m' L', pushLoop coef r (lastOf m.ibeg L) m = some m' ∧ MInv m' L' ∧ m'.sorted = m.sorted ∧
      ∀ d, m'.sem d = m.sem d + coef * colVal r d := by
  induction r generalizing m L with
  | nil => exact ⟨m, L, rfl, h, rfl, fun d => by simp⟩
  | cons e r ih =>
    obtain ⟨c, v⟩ := e
    have hasc : (m.sorted && !ascends c r) = false := by
      by_cases hs : m.sorted = true
      · rw [ascends_of_sorted c v r (hr hs)]; simp
      · simp [hs]
    have hr' : m.sorted = true → StrictlySorted r := fun hs => by
      have := hr hs
      unfold StrictlySorted at this ⊢
      exact (List.pairwise_cons.1 this).2
    have hcr : m.sorted = true → ∀ e ∈ r, c < e.1 := fun hs e he => by
      have := hr hs
      unfold StrictlySorted at this
      rw [List.map_cons, List.pairwise_cons] at this
      exact this.1 e.1 (List.mem_map.2 ⟨e, he, rfl⟩)
    unfold Distinct at hd
    rw [List.map_cons, List.nodup_cons] at hd
    have hne : ∀ e ∈ r, e.1 ≠ c := fun e he hh => hd.1 (hh ▸ List.mem_map.2 ⟨e, he, rfl⟩)
    have hcL : c + 1 ∉ L := hL (c, v) (by simp)
    have hzc : m.sem c = 0 := hz (c, v) (by simp)
    rw [pushLoop, hasc]
    simp only [Bool.false_eq_true, ↓reduceIte]
    by_cases hc : m.isLocal c = true
    · have hl := (isLocal_iff m c).1 hc
      rw [if_pos hc]
      have hE : EOL = m.nxt (lastOf m.ibeg L) := by
        have : Chain m.nxt m.ibeg (L ++ []) := by simpa using h.chain
        exact (chain_append _ _ _ _ this).symm
      have hi := link_inv h L [] (by simp) (c + 1) (v * coef) hcL (by omega)
        (fun hh => ⟨hs hh (c, v) (by simp), by simp⟩) EOL hE
      obtain ⟨m', L', g1, g2, g3, g4⟩ := ih _ _ hi hd.2 hr'
        (fun e he hh => by
          rcases List.mem_append.1 hh with hh | hh
          · exact hL e (List.mem_cons_of_mem _ he) hh
          · have := hne e he
            simp at hh; omega)
        (fun hh e he x hx => by
          rcases List.mem_append.1 hx with hx | hx
          · exact hs hh e (List.mem_cons_of_mem _ he) x hx
          · have := hcr hh e he
            simp at hx; omega)
        (fun e he => by
          rw [link_sem _ _ _ _ c hc rfl, if_neg (hne e he)]
          exact hz e (List.mem_cons_of_mem _ he))
      rw [lastOf_append] at g1
      refine ⟨m', L', g1, g2, g3, fun d => ?_⟩
      rw [g4, link_sem _ _ _ _ c hc rfl, colVal_cons]
      by_cases hd : d = c
      · subst hd; rw [hzc]; simp; ring
      · simp [hd, Ne.symm hd]
    · have hc' : m.isLocal c = false := by simpa using hc
      rw [if_neg hc]
      obtain ⟨h1, h2⟩ := nonlocal_inv h c hc' (fun _ => v * coef)
      obtain ⟨m', L', g1, g2, g3, g4⟩ := ih _ L h1 hd.2 hr'
        (fun e he => hL e (List.mem_cons_of_mem _ he))
        (fun hh e he => hs hh e (List.mem_cons_of_mem _ he))
        (fun e he => by rw [h2, if_neg (hne e he)]; exact hz e (List.mem_cons_of_mem _ he))
      refine ⟨m', L', g1, g2, g3, fun d => ?_⟩
      rw [g4, h2, colVal_cons]
      by_cases hd : d = c
      · subst hd; rw [hzc]; simp; ring
      · simp [hd, Ne.symm hd]

theorem pushRow_spec (h : MInv m []) (hz : ∀ d, m.sem d = 0) (coef : K) (r : Row K) (hd : Distinct r)
    (hr : m.sorted = true → StrictlySorted r) :
    ∃ m' L', m.pushRow coef r = some m' ∧ MInv m' L' ∧ m'.sorted = m.sorted ∧
      ∀ d, m'.sem d = coef * colVal r d := by
  unfold Merger.pushRow
  rw [if_pos ⟨h.nnz, h.chain⟩]
  by_cases hc : coef = 0
  · rw [if_neg (by simpa using hc)]
    exact ⟨m, [], rfl, h, rfl, fun d => by rw [hc, hz]; ring⟩
  · rw [if_pos hc]
    obtain ⟨m', L', g1, g2, g3, g4⟩ := pushLoop_spec coef r m [] h hd hr (by simp) (by simp) (fun e _ => hz _)
    rw [lastOf_nil] at g1
    exact ⟨m', L', g1, g2, g3, fun d => by rw [g4, hz]; ring⟩

/-! ## Loops along the list -/

/-- `L` are the positions of the list that starts with the link `i`. -/
def IsList (nxt : Nat → Nat) : Nat → List Nat → Prop
  | i, [] => i = EOL
  | i, x :: L => i = x ∧ IsList nxt (nxt x) L

theorem chain_isList (nxt : Nat → Nat) (p : Nat) (L : List Nat) (h : Chain nxt p L) : IsList nxt (nxt p) L := by
  induction L generalizing p with
  | nil => exact h
  | cons x L ih => exact ⟨h.1, ih x h.2⟩

theorem isList_congr (n1 n2 : Nat → Nat) (i : Nat) (L : List Nat) (h : ∀ q ∈ L, n1 q = n2 q)
    (hc : IsList n1 i L) : IsList n2 i L := by
  induction L generalizing i with
  | nil => exact hc
  | cons x L ih =>
    refine ⟨hc.1, ?_⟩
    rw [← h x (by simp)]
    exact ih _ (fun q hq => h q (by simp [hq])) hc.2

omit [DecidableEq K] in
theorem clearLoop_spec (L : List Nat) (m : Merger K) (fuel i : Nat) (h : IsList m.nxt i L)
    (hnd : L.Nodup) (hr : ∀ x ∈ L, m.ibeg ≤ x ∧ x ≤ m.iend) (hb : m.iend < EOL) (hf : L.length < fuel) :
    clearLoop m fuel i = some { m with nxt := fun q => if q ∈ L then UNDEF else m.nxt q,
                                       val := fun q => if q ∈ L then 0 else m.val q } := by
  induction L generalizing m fuel i with
  | nil =>
    obtain ⟨f, rfl⟩ : ∃ f, fuel = f + 1 := ⟨fuel - 1, by simp at hf; omega⟩
    have h : i = EOL := h
    rw [clearLoop, if_pos h]
    simp
  | cons x L ih =>
    obtain ⟨f, rfl⟩ : ∃ f, fuel = f + 1 := ⟨fuel - 1, by simp at hf; omega⟩
    have hx := hr x (by simp)
    have hh : m.has x = true := by simp [Merger.has]; omega
    obtain ⟨hxL, hnd2⟩ := List.nodup_cons.1 hnd
    obtain ⟨rfl, h2⟩ := h
    rw [clearLoop, if_neg (by omega), if_pos hh,
      ih { m with nxt := setAt m.nxt i UNDEF, val := setAt m.val i 0 } f (m.nxt i)
        (isList_congr m.nxt _ _ _ (fun q hq => by
          show _ = setAt m.nxt i UNDEF q
          rw [setAt_ne _ _ _ _ (by rintro rfl; exact hxL hq)]) h2) hnd2
        (fun y hy => hr y (by simp [hy])) hb (by simp at hf; omega)]
    congr 2
    · funext q
      show (if q ∈ L then UNDEF else setAt m.nxt i UNDEF q) = _
      by_cases hq : q = i
      · subst hq; simp
      · simp [setAt, hq]
    · funext q
      show (if q ∈ L then 0 else setAt m.val i 0 q) = _
      by_cases hq : q = i
      · subst hq; simp
      · simp [setAt, hq]

omit [DecidableEq K] in
theorem clear_spec (h : MInv m L) : m.clear = some (Merger.init m.ibeg m.iend m.sorted) := by
  have hlen := h.len
  have hnot : m.ibeg ∉ L := (List.nodup_cons.1 h.headNodup).1
  unfold Merger.clear
  have := clearLoop_spec L { m with nxt := setAt m.nxt m.ibeg EOL } m.fuel (m.nxt m.ibeg)
    (isList_congr m.nxt _ _ _ (fun q hq => by
      show _ = setAt m.nxt m.ibeg EOL q
      rw [setAt_ne _ _ _ _ (by rintro rfl; exact hnot hq)]) (chain_isList _ _ _ h.chain))
    h.nodup (fun x hx => by have := h.range x hx; exact ⟨by show m.ibeg ≤ x; omega, this.2⟩) h.bound
    (by unfold Merger.fuel; omega)
  rw [this]
  unfold Merger.init
  simp only
  congr 2
  · funext q
    by_cases hq : q ∈ L
    · rw [if_pos hq, setAt_ne _ _ _ _ (by rintro rfl; exact hnot hq)]
    · rw [if_neg hq]
      by_cases hqb : q = m.ibeg
      · subst hqb; rw [setAt_same, setAt_same]
      · rw [setAt_ne _ _ _ _ hqb, setAt_ne _ _ _ _ hqb, h.off q hq hqb]
  · funext q
    by_cases hq : q ∈ L
    · rw [if_pos hq]
    · rw [if_neg hq, h.zero q hq]

omit [DecidableEq K] in
theorem multiplyLoop_spec (coef : K) (L : List Nat) (m : Merger K) (fuel i : Nat) (h : IsList m.nxt i L)
    (hnd : L.Nodup) (hr : ∀ x ∈ L, m.ibeg ≤ x ∧ x ≤ m.iend) (hb : m.iend < EOL) (hf : L.length < fuel) :
    multiplyLoop coef m fuel i = some { m with val := fun q => if q ∈ L then m.val q * coef else m.val q } := by
  induction L generalizing m fuel i with
  | nil =>
    obtain ⟨f, rfl⟩ : ∃ f, fuel = f + 1 := ⟨fuel - 1, by simp at hf; omega⟩
    have h : i = EOL := h
    rw [multiplyLoop, if_pos h]
    simp
  | cons x L ih =>
    obtain ⟨f, rfl⟩ : ∃ f, fuel = f + 1 := ⟨fuel - 1, by simp at hf; omega⟩
    have hx := hr x (by simp)
    have hh : m.has x = true := by simp [Merger.has]; omega
    obtain ⟨hxL, hnd2⟩ := List.nodup_cons.1 hnd
    obtain ⟨rfl, h2⟩ := h
    rw [multiplyLoop, if_neg (by omega), if_pos hh,
      ih { m with val := setAt m.val i (m.val i * coef) } f (m.nxt i) h2 hnd2
        (fun y hy => hr y (by simp [hy])) hb (by simp at hf; omega)]
    congr 2
    funext q
    show (if q ∈ L then setAt m.val i (m.val i * coef) q * coef else setAt m.val i (m.val i * coef) q) = _
    by_cases hq : q = i
    · subst hq; simp [hxL]
    · simp [setAt, hq]

omit [DecidableEq K] in
theorem getSafe_scale (r : Row K) (coef : K) (c : Nat) :
    getSafe (r.map fun e => (e.1, e.2 * coef)) c = getSafe r c * coef := by
  induction r with
  | nil => simp [getSafe]
  | cons e r ih =>
    obtain ⟨i, v⟩ := e
    simp only [List.map_cons, getSafe, ih]
    split <;> rfl

omit [DecidableEq K] in
theorem multiply_spec (h : MInv m L) (coef : K) :
    ∃ m', m.multiply coef = some m' ∧ MInv m' L ∧ m'.sorted = m.sorted ∧ ∀ d, m'.sem d = coef * m.sem d := by
  have hlen := h.len
  unfold Merger.multiply
  rw [multiplyLoop_spec coef L m m.fuel (m.nxt m.ibeg) (chain_isList _ _ _ h.chain)
    h.nodup (fun x hx => by have := h.range x hx; exact ⟨by omega, this.2⟩) h.bound
    (by unfold Merger.fuel; omega)]
  have hk : ∀ r : Row K, (r.map fun e => (e.1, e.2 * coef)).map (·.1) = r.map (·.1) := by
    intro r; simp [List.map_map, Function.comp_def]
  refine ⟨_, rfl, ⟨h.chain, h.nodup, h.range, h.ord, h.off, ?_, h.nnz, h.ints, h.bound, ?_, ?_⟩, rfl, ?_⟩
  · intro x hx
    show (if x ∈ L then m.val x * coef else m.val x) = 0
    rw [if_neg hx, h.zero x hx]
  · have := h.nls
    unfold StrictlySorted at this ⊢
    simp only
    rw [hk]; exact this
  · intro c hc
    unfold HasColumn at hc
    simp only at hc
    rw [hk] at hc
    exact h.nlo c hc
  · intro d
    unfold Merger.sem
    show (if m.isLocal d then (if d + 1 ∈ L then m.val (d + 1) * coef else m.val (d + 1)) else
      getSafe (m.nonlocal.map fun e => (e.1, e.2 * coef)) d) = _
    rw [getSafe_scale]
    by_cases hd : m.isLocal d = true
    · rw [if_pos hd, if_pos hd]
      by_cases hm : d + 1 ∈ L
      · rw [if_pos hm, mul_comm]
      · rw [if_neg hm, h.zero _ hm, mul_zero]
    · rw [if_neg hd, if_neg hd, mul_comm]

theorem retrieveLoop_spec (L : List Nat) (m : Merger K) (fuel i : Nat) (h : IsList m.nxt i L)
    (hr : ∀ x ∈ L, m.ibeg ≤ x ∧ x ≤ m.iend) (hb : m.iend < EOL) (hf : L.length < fuel) :
    retrieveLoop m fuel i = some ((L.filter fun x => m.val x ≠ 0).map fun x => (x - 1, m.val x)) := by
  induction L generalizing fuel i with
  | nil =>
    obtain ⟨f, rfl⟩ : ∃ f, fuel = f + 1 := ⟨fuel - 1, by simp at hf; omega⟩
    have h : i = EOL := h
    rw [retrieveLoop, if_pos h]
    simp
  | cons x L ih =>
    obtain ⟨f, rfl⟩ : ∃ f, fuel = f + 1 := ⟨fuel - 1, by simp at hf; omega⟩
    have hx := hr x (by simp)
    have hh : m.has x = true := by simp [Merger.has]; omega
    obtain ⟨rfl, h2⟩ := h
    rw [retrieveLoop, if_neg (by omega), if_pos hh,
      ih f (m.nxt i) h2 (fun y hy => hr y (by simp [hy])) (by simp at hf; omega)]
    by_cases hv : m.val i = 0
    · simp [hv]
    · simp [hv]

theorem retrieve_eq (h : MInv m L) :
    m.retrieve = some (((L.filter fun x => m.val x ≠ 0).map fun x => (x - 1, m.val x)) ++
      m.nonlocal.filter fun e => e.2 ≠ 0) := by
  have hlen := h.len
  unfold Merger.retrieve
  rw [retrieveLoop_spec L m m.fuel (m.nxt m.ibeg) (chain_isList _ _ _ h.chain)
    (fun x hx => by have := h.range x hx; exact ⟨by omega, this.2⟩) h.bound
    (by unfold Merger.fuel; omega)]
  simp only
  rw [if_pos]
  rw [List.length_append, List.length_map, h.nnz]
  exact Nat.add_le_add (List.length_filter_le _ _) (List.length_filter_le _ _)

omit [DecidableEq K] in
theorem init_inv (ibeg iend : Nat) (s : Bool) (h1 : ibeg ≤ iend) (h2 : iend < EOL) :
    MInv (Merger.init ibeg iend s : Merger K) [] := by
  refine ⟨?_, by simp, by simp, by simp, ?_, by intros; rfl, rfl, h1, h2, by simp [Merger.init, StrictlySorted], ?_⟩
  · simp [Merger.init, Chain]
  · intro x _ hx
    have hx : x ≠ ibeg := hx
    simp [Merger.init, setAt, hx]
  · intro c hc; simp [Merger.init, HasColumn] at hc

omit [DecidableEq K] in
theorem init_sem (ibeg iend : Nat) (s : Bool) (d : Nat) :
    (Merger.init ibeg iend s : Merger K).sem d = 0 := by
  simp [Merger.sem, Merger.init, getSafe]

/-- The state after a history, with the list of positions hidden. -/
def Reach (m : Merger K) (s fresh : Bool) (f : Nat → K) : Prop :=
  m.sorted = s ∧ (∃ L, MInv m L ∧ (fresh = true → L = [] ∧ ∀ d, m.sem d = 0)) ∧ ∀ d, m.sem d = f d

/-- Every admissible history is executed and gives the accumulated combination. -/
theorem mrun_spec (ops : List (MOp K)) (m : Merger K) (s fresh : Bool) (f : Nat → K)
    (h : Reach m s fresh f) (ha : Admissible s fresh ops) :
    ∃ m' L, mrun m ops = some m' ∧ MInv m' L ∧ ∀ d, m'.sem d = ops.foldl accumulate f d := by
  induction ops generalizing m s fresh f with
  | nil =>
    obtain ⟨_, ⟨L, hL, _⟩, hs⟩ := h
    exact ⟨m, L, rfl, hL, hs⟩
  | cons op ops ih =>
    obtain ⟨rfl, ⟨L, hL, hfr⟩, hs⟩ := h
    cases op with
    | resize b e s =>
      obtain ⟨h1, h2, h3⟩ := ha
      exact ih (Merger.init b e s) s true _ ⟨rfl, ⟨[], init_inv b e s h1 h2, fun _ => ⟨rfl, init_sem b e s⟩⟩,
        init_sem b e s⟩ h3
    | clear =>
      obtain ⟨m', L', h1, h2, h3⟩ := ih (Merger.init m.ibeg m.iend m.sorted) m.sorted true (fun _ => 0)
        ⟨rfl, ⟨[], init_inv _ _ _ hL.ints hL.bound, fun _ => ⟨rfl, init_sem _ _ _⟩⟩, init_sem _ _ _⟩ ha
      refine ⟨m', L', ?_, h2, h3⟩
      rw [mrun, mstep, clear_spec hL]; exact h1
    | multiply coef =>
      obtain ⟨m1, g1, g2, g3, g4⟩ := multiply_spec hL coef
      obtain ⟨m', L', h1, h2, h3⟩ := ih m1 m.sorted fresh (fun c => coef * f c)
        ⟨g3, ⟨L, g2, fun e => ⟨(hfr e).1, fun d => by rw [g4, (hfr e).2, mul_zero]⟩⟩,
          fun d => by rw [g4, hs]⟩ ha
      refine ⟨m', L', ?_, h2, h3⟩
      rw [mrun, mstep, g1]; exact h1
    | push coef r =>
      obtain ⟨hf, hd, hss, ha⟩ := ha
      obtain ⟨rfl, hz⟩ := hfr hf
      obtain ⟨m1, L1, g1, g2, g3, g4⟩ := pushRow_spec hL hz coef r hd hss
      obtain ⟨m', L', h1, h2, h3⟩ := ih m1 m.sorted false (fun c => coef * colVal r c)
        ⟨g3, ⟨L1, g2, fun e => by cases e⟩, g4⟩ ha
      refine ⟨m', L', ?_, h2, h3⟩
      rw [mrun, mstep, g1]; exact h1
    | add coef r =>
      obtain ⟨hss, ha⟩ := ha
      obtain ⟨m1, L1, g1, g2, g3, g4⟩ := addRow_spec hL coef r hss
      obtain ⟨m', L', h1, h2, h3⟩ := ih m1 m.sorted false (fun c => f c + coef * colVal r c)
        ⟨g3, ⟨L1, g2, fun e => by cases e⟩, fun d => by rw [g4, hs]⟩ ha
      refine ⟨m', L', ?_, h2, h3⟩
      rw [mrun, mstep, g1]; exact h1
    | access c g =>
      obtain ⟨m1, L1, g1, g2, g3, g4⟩ := access_spec hL c g
      obtain ⟨m', L', h1, h2, h3⟩ := ih m1 m.sorted false (fun d => if d = c then g (f d) else f d)
        ⟨g3, ⟨L1, g2, fun e => by cases e⟩, fun d => by rw [g4, hs]⟩ ha
      refine ⟨m', L', ?_, h2, h3⟩
      rw [mrun, mstep, g1]; exact h1

/-- What `RetrieveRow` gives. -/
theorem retrieve_spec (h : MInv m L) :
    ∃ row, m.retrieve = some row ∧ Distinct row ∧ (∀ e ∈ row, e.2 ≠ 0) ∧
      (∀ c, getSafe row c = m.sem c) ∧
      (m.sorted = true → (∀ c, HasColumn m.nonlocal c → m.iend ≤ c) → StrictlySorted row) := by
  refine ⟨_, retrieve_eq h, ?_⟩
  set A : Row K := (L.filter fun x => m.val x ≠ 0).map fun x => (x - 1, m.val x) with hA
  set B : Row K := m.nonlocal.filter fun e => e.2 ≠ 0 with hB
  have hAc : ∀ c, HasColumn A c ↔ m.isLocal c = true ∧ m.val (c + 1) ≠ 0 := by
    intro c
    simp only [hA, HasColumn, List.mem_map, List.mem_filter, decide_eq_true_iff]
    constructor
    · rintro ⟨e, ⟨x, ⟨hx, hv⟩, rfl⟩, rfl⟩
      have := h.range x hx
      refine ⟨(isLocal_iff _ _).2 (by dsimp only; omega), ?_⟩
      dsimp only
      rw [show x - 1 + 1 = x by omega]; exact hv
    · rintro ⟨h1, h2⟩
      refine ⟨(c, m.val (c + 1)), ⟨c + 1, ⟨?_, h2⟩, rfl⟩, rfl⟩
      by_contra hc
      exact h2 (h.zero _ hc)
  have hBs : StrictlySorted B := by
    have := h.nls
    unfold StrictlySorted at this ⊢
    exact this.sublist ((List.filter_sublist).map _)
  have hBc : ∀ c, HasColumn B c → HasColumn m.nonlocal c := by
    intro c hc
    exact ((List.filter_sublist).map _).subset hc
  have hAd : Distinct A := by
    unfold Distinct
    rw [hA, List.map_map]
    refine List.Nodup.map_on ?_ (h.nodup.filter _)
    intro x hx y hy e
    have h1 := h.range x (List.mem_of_mem_filter hx)
    have h2 := h.range y (List.mem_of_mem_filter hy)
    simp only [Function.comp] at e
    omega
  have hd : Distinct (A ++ B) := by
    unfold Distinct
    rw [List.map_append, List.nodup_append]
    refine ⟨hAd, hBs.imp ne_of_lt, ?_⟩
    rintro a ha b hb rfl
    have h1 := (hAc a).1 ha
    have h2 := h.nlo a (hBc a hb)
    rw [h1.1] at h2; cases h2
  refine ⟨hd, ?_, ?_, ?_⟩
  · intro e he
    rcases List.mem_append.1 he with he | he
    · rw [hA, List.mem_map] at he
      obtain ⟨x, hx, rfl⟩ := he
      simpa using (List.mem_filter.1 hx).2
    · simpa using (List.mem_filter.1 he).2
  · intro c
    have hAval : ∀ e ∈ A, e.2 = m.val (e.1 + 1) := by
      intro e he
      rw [hA, List.mem_map] at he
      obtain ⟨x, hx, rfl⟩ := he
      have := h.range x (List.mem_of_mem_filter hx)
      dsimp only
      rw [show x - 1 + 1 = x by omega]
    have hget : ∀ (r : Row K) (c : Nat), HasColumn r c → ∃ e ∈ r, e.1 = c ∧ getSafe r c = e.2 := by
      intro r c
      induction r with
      | nil => intro h; simp [HasColumn] at h
      | cons e r ih =>
        obtain ⟨i, v⟩ := e
        intro hc
        by_cases hi : i = c
        · exact ⟨(i, v), by simp, hi, by simp [getSafe, hi]⟩
        · have : HasColumn r c := by
            unfold HasColumn at hc ⊢
            simp only [List.map_cons, List.mem_cons] at hc
            rcases hc with hc | hc
            · exact (hi hc.symm).elim
            · exact hc
          obtain ⟨e, h1, h2, h3⟩ := ih this
          exact ⟨e, by simp [h1], h2, by simp [getSafe, hi, h3]⟩
    have happ : ∀ (r s : Row K) (c : Nat), ¬ HasColumn r c → getSafe (r ++ s) c = getSafe s c := by
      intro r s c
      induction r with
      | nil => intro _; rfl
      | cons e r ih =>
        obtain ⟨i, v⟩ := e
        intro hc
        unfold HasColumn at hc ih
        simp only [List.map_cons, List.mem_cons, not_or] at hc
        simp only [List.cons_append, getSafe, Ne.symm hc.1, ↓reduceIte]
        exact ih hc.2
    have happl : ∀ (r s : Row K) (c : Nat), HasColumn r c → getSafe (r ++ s) c = getSafe r c := by
      intro r s c
      induction r with
      | nil => intro hc; simp [HasColumn] at hc
      | cons e r ih =>
        obtain ⟨i, v⟩ := e
        intro hc
        unfold HasColumn at hc ih
        simp only [List.map_cons, List.mem_cons] at hc
        simp only [List.cons_append, getSafe]
        split
        · rfl
        · rename_i hi
          exact ih (hc.resolve_left (fun e => hi e.symm))
    have hfil : ∀ (r : Row K), Distinct r → getSafe (r.filter fun e => e.2 ≠ 0) c = getSafe r c := by
      intro r
      induction r with
      | nil => intro _; rfl
      | cons e r ih =>
        obtain ⟨i, v⟩ := e
        intro hr
        unfold Distinct at hr ih
        rw [List.map_cons, List.nodup_cons] at hr
        by_cases hv : v = 0
        · rw [List.filter_cons_of_neg (by simpa using hv), ih hr.2]
          by_cases hi : i = c
          · subst hi
            rw [getSafe_absent r i hr.1]; simp [getSafe, hv]
          · simp [getSafe, hi]
        · rw [List.filter_cons_of_pos (by simpa using hv)]
          simp only [getSafe, ih hr.2]
    unfold Merger.sem
    by_cases hc : m.isLocal c = true
    · rw [if_pos hc]
      by_cases hv : m.val (c + 1) = 0
      · rw [hv, happ A B c (fun hh => ((hAc c).1 hh).2 hv)]
        apply getSafe_absent
        intro hh
        have := h.nlo c (hBc c hh)
        rw [hc] at this; cases this
      · have hh := (hAc c).2 ⟨hc, hv⟩
        rw [happl A B c hh]
        obtain ⟨e, h1, h2, h3⟩ := hget A c hh
        rw [h3, hAval e h1, h2]
    · rw [if_neg hc, happ A B c (fun hh => hc ((hAc c).1 hh).1)]
      exact hfil _ (h.nls.imp ne_of_lt)
  · intro hs hn
    unfold StrictlySorted
    rw [List.map_append, List.pairwise_append]
    refine ⟨?_, hBs, ?_⟩
    · rw [hA, List.map_map, List.pairwise_map]
      have := (h.ord hs).sublist (List.filter_sublist (p := fun x => decide (m.val x ≠ 0)))
      refine this.imp_of_mem ?_
      intro x y hx hy hxy
      have h1 := h.range x (List.mem_of_mem_filter hx)
      have h2 := h.range y (List.mem_of_mem_filter hy)
      simp only [Function.comp]
      omega
    · intro a ha b hb
      have h1 := (isLocal_iff _ _).1 ((hAc a).1 ha).1
      have h2 := hn b (hBc b hb)
      omega

/-! ## Columns outside of the interval -/

/-- A result of an operation keeps the interval and mode, and has other columns outside only if they are
mentioned. -/
def Tracks (m m' : Merger K) (cols : List Nat) : Prop :=
  m'.ibeg = m.ibeg ∧ m'.iend = m.iend ∧ m'.sorted = m.sorted ∧
    ∀ c, HasColumn m'.nonlocal c → HasColumn m.nonlocal c ∨ c ∈ cols

omit [DecidableEq K] [CommRing K] in
theorem tracks_refl (m : Merger K) (cols : List Nat) : Tracks m m cols := ⟨rfl, rfl, rfl, fun _ h => .inl h⟩

omit [DecidableEq K] [CommRing K] in
theorem tracks_trans {m1 m2 m3 : Merger K} {c1 c2 cols : List Nat} (h1 : Tracks m1 m2 c1) (h2 : Tracks m2 m3 c2)
    (s1 : ∀ c ∈ c1, c ∈ cols) (s2 : ∀ c ∈ c2, c ∈ cols) : Tracks m1 m3 cols := by
  obtain ⟨a1, a2, a3, a4⟩ := h1
  obtain ⟨b1, b2, b3, b4⟩ := h2
  refine ⟨b1.trans a1, b2.trans a2, b3.trans a3, fun c hc => ?_⟩
  rcases b4 c hc with h | h
  · rcases a4 c h with h | h
    · exact .inl h
    · exact .inr (s1 c h)
  · exact .inr (s2 c h)

omit [DecidableEq K] in
theorem tracks_insert (m : Merger K) (index tgt : Nat) (v : K) (x : Merger K × Nat)
    (h : m.insertFrom index tgt v = some x) : Tracks m x.1 [] := by
  unfold Merger.insertFrom at h
  split at h
  · split at h
    · cases h
    · split at h
      · injection h with h; subst h; exact ⟨rfl, rfl, rfl, fun _ h => .inl h⟩
      · cases h
  · injection h with h; subst h; exact ⟨rfl, rfl, rfl, fun _ h => .inl h⟩

omit [DecidableEq K] in
theorem tracks_nonlocal (m : Merger K) (c : Nat) (f : K → K) :
    Tracks m { m with nonlocal := mapUpd m.nonlocal c f } [c] :=
  ⟨rfl, rfl, rfl, fun d hd => ((mapUpd_cols _ _ _ _).1 hd).symm.imp id (fun h => by simp [h])⟩

omit [DecidableEq K] in
theorem tracks_access (m : Merger K) (c : Nat) (f : K → K) (m' : Merger K) (h : m.access c f = some m') :
    Tracks m m' [c] := by
  unfold Merger.access at h
  split at h
  · split at h
    · injection h with h; subst h; exact ⟨rfl, rfl, rfl, fun _ h => .inl h⟩
    · rw [Option.map_eq_some_iff] at h
      obtain ⟨x, h1, rfl⟩ := h
      exact tracks_trans (tracks_insert m _ _ _ x h1) (tracks_refl _ []) (by simp) (by simp)
  · injection h with h; subst h; exact tracks_nonlocal m c f

omit [DecidableEq K] in
theorem tracks_add (coef : K) (r : Row K) (idx : Nat) (m m' : Merger K) (h : addLoop coef r idx m = some m') :
    Tracks m m' (r.map (·.1)) := by
  induction r generalizing m idx with
  | nil => injection h with h; subst h; exact tracks_refl _ _
  | cons e r ih =>
    obtain ⟨c, v⟩ := e
    rw [addLoop] at h
    split at h
    · cases h
    · split at h
      · cases h
      · rename_i x m1 i1 hx
        refine tracks_trans (c1 := [c]) ?_ (ih _ _ h) (by simp) (by simp; tauto)
        unfold Merger.addEntry at hx
        split at hx
        · split at hx
          · injection hx with hx; injection hx with hx1 hx2; subst hx1
            exact ⟨rfl, rfl, rfl, fun _ h => .inl h⟩
          · exact tracks_trans (tracks_insert m _ _ _ _ hx) (tracks_refl _ []) (by simp) (by simp)
        · injection hx with hx; injection hx with hx1 hx2; subst hx1
          exact tracks_nonlocal m c _

omit [DecidableEq K] in
theorem tracks_push (coef : K) (r : Row K) (idx : Nat) (m m' : Merger K) (h : pushLoop coef r idx m = some m') :
    Tracks m m' (r.map (·.1)) := by
  induction r generalizing m idx with
  | nil => injection h with h; subst h; exact tracks_refl _ _
  | cons e r ih =>
    obtain ⟨c, v⟩ := e
    rw [pushLoop] at h
    split at h
    · cases h
    · split at h
      · refine tracks_trans (c1 := []) ?_ (ih _ _ h) (by simp) (by simp; tauto)
        exact ⟨rfl, rfl, rfl, fun _ h => .inl h⟩
      · exact tracks_trans (tracks_nonlocal m c _) (ih _ _ h) (by simp) (by simp; tauto)

omit [DecidableEq K] in
theorem tracks_multiplyLoop (coef : K) (fuel i : Nat) (m m' : Merger K)
    (h : multiplyLoop coef m fuel i = some m') : Tracks m m' [] := by
  induction fuel generalizing m i with
  | zero => cases h
  | succ f ih =>
    rw [multiplyLoop] at h
    split at h
    · injection h with h; subst h; exact tracks_refl _ _
    · split at h
      · refine tracks_trans (c1 := []) ?_ (ih _ _ h) (by simp) (by simp)
        exact ⟨rfl, rfl, rfl, fun _ h => .inl h⟩
      · cases h

omit [DecidableEq K] in
theorem tracks_clearLoop (fuel i : Nat) (m m' : Merger K)
    (h : clearLoop m fuel i = some m') : Tracks m m' [] := by
  induction fuel generalizing m i with
  | zero => cases h
  | succ f ih =>
    rw [clearLoop] at h
    split at h
    · injection h with h; subst h; exact tracks_refl _ _
    · split at h
      · refine tracks_trans (c1 := []) ?_ (ih _ _ h) (by simp) (by simp)
        exact ⟨rfl, rfl, rfl, fun _ h => .inl h⟩
      · cases h

theorem tracks_run (ops : List (MOp K)) (m m' : Merger K) (hr : ∀ b e s, MOp.resize b e s ∉ ops)
    (h : mrun m ops = some m') : Tracks m m' (mentioned ops) := by
  induction ops generalizing m with
  | nil => injection h with h; subst h; exact tracks_refl _ _
  | cons op ops ih =>
    rw [mrun] at h
    split at h
    · cases h
    · rename_i m1 hm
      have ih' := ih m1 (fun b e s hh => hr b e s (List.mem_cons_of_mem _ hh)) h
      cases op with
      | resize b e s => exact (hr b e s (by simp)).elim
      | clear =>
        refine tracks_trans (c1 := []) ?_ ih' (by simp) (fun c hc => hc)
        change m.clear = some m1 at hm
        unfold Merger.clear at hm
        split at hm
        · cases hm
        · rename_i m2 h2
          injection hm with hm; subst hm
          obtain ⟨a, b, c, _⟩ := tracks_clearLoop _ _ _ _ h2
          exact ⟨a, b, c, fun d hd => by simp [HasColumn] at hd⟩
      | multiply coef =>
        refine tracks_trans (c1 := []) ?_ ih' (by simp) (fun c hc => hc)
        change m.multiply coef = some m1 at hm
        unfold Merger.multiply at hm
        split at hm
        · cases hm
        · rename_i m2 h2
          injection hm with hm; subst hm
          obtain ⟨a, b, c, d⟩ := tracks_multiplyLoop _ _ _ _ _ h2
          refine ⟨a, b, c, fun e he => d e ?_⟩
          unfold HasColumn at he ⊢
          simpa [List.map_map, Function.comp_def] using he
      | push coef r =>
        refine tracks_trans (c1 := r.map (·.1)) ?_ ih' (fun c hc => List.mem_append_left _ hc)
          (fun c hc => List.mem_append_right _ hc)
        change m.pushRow coef r = some m1 at hm
        unfold Merger.pushRow at hm
        split at hm
        · split at hm
          · exact tracks_push _ _ _ _ _ hm
          · injection hm with hm; subst hm; exact tracks_refl _ _
        · cases hm
      | add coef r =>
        refine tracks_trans (c1 := r.map (·.1)) ?_ ih' (fun c hc => List.mem_append_left _ hc)
          (fun c hc => List.mem_append_right _ hc)
        change m.addRow coef r = some m1 at hm
        unfold Merger.addRow at hm
        split at hm
        · exact tracks_add _ _ _ _ _ hm
        · injection hm with hm; subst hm; exact tracks_refl _ _
      | access c f =>
        exact tracks_trans (tracks_access m c f m1 hm) ih' (by simp [mentioned]) (fun d hd => List.mem_cons_of_mem _ hd)

end Verif.Sparse
