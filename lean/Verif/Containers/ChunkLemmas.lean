import Verif.Containers.ChunkModel

/-! # Lemmas for linked and chunked arrays -/

namespace Verif.Containers

/-- The chain `l` represents a linked array of size `n`. -/
def WF (base : Nat) : LArr α → Nat → Prop
  | [], _ => False
  | nd :: rest, n =>
    (n ≤ base ∧ rest = [] ∧ nd.ne = n ∧ ∀ k, k < n → ∃ x, nd.e k = some x) ∨
    (base < n ∧ nd.ne = base ∧ (∀ k, k < base → ∃ x, nd.e k = some x) ∧ WF base rest (n - base))

section larr
variable {α : Type} {base : Nat}

theorem wf_init : WF base (LArr.init α) 0 := by
  simp [WF, LArr.init, Node.fresh]

theorem wf_clear {l : LArr α} {n : Nat} (h : WF base l n) : WF base l.clear 0 := by
  cases l with
  | nil => exact h.elim
  | cons nd rest => simp [WF, LArr.clear]

theorem wf_get {l : LArr α} {n k : Nat} (h : WF base l n) (hk : k < n) :
    ∃ x, l.get base k = some x := by
  induction l generalizing n k with
  | nil => exact h.elim
  | cons nd rest ih =>
    rcases h with ⟨h1, rfl, h2, h3⟩ | ⟨h1, h2, h3, h4⟩
    · rw [LArr.get, if_pos (by omega), if_pos (by omega)]; exact h3 k hk
    · rw [LArr.get]
      by_cases q : k < base
      · rw [if_pos q, if_pos (by omega)]; exact h3 k q
      · rw [if_neg q]; exact ih h4 (by omega)

theorem wf_get_none {l : LArr α} {n k : Nat} (h : WF base l n) (hk : n ≤ k) :
    l.get base k = none := by
  induction l generalizing n k with
  | nil => exact h.elim
  | cons nd rest ih =>
    rcases h with ⟨h1, rfl, h2, h3⟩ | ⟨h1, h2, h3, h4⟩
    · rw [LArr.get]
      by_cases q : k < base
      · rw [if_pos q, if_neg (by omega)]
      · rw [if_neg q, LArr.get]
    · rw [LArr.get, if_neg (by omega)]; exact ih h4 (by omega)

theorem wf_set {l : LArr α} {n k : Nat} (h : WF base l n) (hk : k < n) (x : α) :
    ∃ l', l.set base k x = some l' ∧ WF base l' n ∧
      ∀ j, l'.get base j = if j = k then some x else l.get base j := by
  induction l generalizing n k with
  | nil => exact h.elim
  | cons nd rest ih =>
    rw [LArr.set]
    by_cases q : k < base
    · have hne : k < nd.ne := by
        rcases h with ⟨h1, rfl, h2, h3⟩ | ⟨h1, h2, h3, h4⟩ <;> omega
      rw [if_pos q, if_pos hne]
      refine ⟨_, rfl, ?_, ?_⟩
      · rcases h with ⟨h1, rfl, h2, h3⟩ | ⟨h1, h2, h3, h4⟩
        · refine Or.inl ⟨h1, rfl, h2, fun j hj => ?_⟩
          by_cases e : j = k
          · exact ⟨x, by simp [e]⟩
          · simpa [e] using h3 j hj
        · refine Or.inr ⟨h1, h2, fun j hj => ?_, h4⟩
          by_cases e : j = k
          · exact ⟨x, by simp [e]⟩
          · simpa [e] using h3 j hj
      · intro j
        rw [LArr.get, LArr.get]
        by_cases e : j = k
        · subst e; simp [q, hne]
        · simp [e]
    · rw [if_neg q]
      rcases h with ⟨h1, rfl, h2, h3⟩ | ⟨h1, h2, h3, h4⟩
      · omega
      · obtain ⟨l', e, w, g⟩ := ih (k := k - base) h4 (by omega)
        rw [e]
        refine ⟨nd :: l', rfl, Or.inr ⟨h1, h2, h3, w⟩, fun j => ?_⟩
        rw [LArr.get, LArr.get]
        by_cases e : j = k
        · subst e; rw [if_neg q, if_pos rfl, g]; simp
        · rw [if_neg e]
          by_cases qj : j < base
          · simp [qj]
          · rw [if_neg qj, if_neg qj, g, if_neg (by omega)]

theorem wf_resize (hb : 0 < base) (c : α) (m : Nat) : ∀ {l : LArr α} {n : Nat}, WF base l n →
    ∃ l', l.resize base c m = some l' ∧ WF base l' m ∧
      ∀ j, j < m → l'.get base j = if j < n then l.get base j else some c := by
  induction m using Nat.strongRecOn with
  | ind m ih =>
    intro l n h
    cases l with
    | nil => exact h.elim
    | cons nd rest =>
      rw [LArr.resize, dif_pos hb]
      by_cases q : m ≤ base
      · simp only [if_pos q]
        have hfull : ∀ k, k < nd.ne → ∃ x, nd.e k = some x := by
          rcases h with ⟨h1, rfl, h2, h3⟩ | ⟨h1, h2, h3, h4⟩
          · rw [h2]; exact h3
          · rw [h2]; exact h3
        refine ⟨_, rfl, Or.inl ⟨q, rfl, rfl, ?_⟩, ?_⟩
        · intro k hk
          simp only [Node.fill]
          by_cases e : nd.ne ≤ k
          · exact ⟨c, by simp [e, hk]⟩
          · rw [if_neg (by omega)]; exact hfull k (by omega)
        · intro j hj
          have hjb : j < base := by omega
          simp only [LArr.get, if_pos hjb, Node.fill, if_pos hj]
          rcases h with ⟨h1, rfl, h2, h3⟩ | ⟨h1, h2, h3, h4⟩
          · by_cases e : j < n
            · rw [if_neg (by omega), if_pos e, if_pos (by omega)]; simp [hj]
            · rw [if_pos (by omega), if_neg e]; simp [hj]
          · rw [if_neg (by omega), if_pos (show j < n by omega), if_pos (by omega)]; simp [hj]
      · simp only [if_neg q]
        -- the rest of the chain
        obtain ⟨r1, hr1, wr1, gr1⟩ : ∃ r1 : LArr α, (LArr.orInit rest) = r1 ∧ WF base r1 (n - base) ∧
              ∀ j, j < n - base → LArr.get base r1 j = LArr.get base rest j := by
          rcases h with ⟨h1, rfl, h2, h3⟩ | ⟨h1, h2, h3, h4⟩
          · refine ⟨_, rfl, ?_, fun j hj => by omega⟩
            rw [show n - base = 0 by omega]; exact wf_init
          · cases rest with
            | nil => exact h4.elim
            | cons a r => exact ⟨_, rfl, h4, fun j _ => rfl⟩
        rw [hr1]
        obtain ⟨l', e', w', g'⟩ := ih (m - base) (by omega) wr1
        rw [e']
        refine ⟨_, rfl, ?_, ?_⟩
        · refine Or.inr ⟨by omega, ?_, ?_, w'⟩
          · split
            · rfl
            · rcases h with ⟨h1, rfl, h2, h3⟩ | ⟨h1, h2, h3, h4⟩ <;> omega
          · intro k hk
            split
            · next hlt =>
              simp only [Node.fill]
              by_cases e : nd.ne ≤ k
              · exact ⟨c, by simp [e, hk]⟩
              · rw [if_neg (by omega)]
                rcases h with ⟨h1, rfl, h2, h3⟩ | ⟨h1, h2, h3, h4⟩
                · exact h3 k (by omega)
                · exact h3 k hk
            · rcases h with ⟨h1, rfl, h2, h3⟩ | ⟨h1, h2, h3, h4⟩
              · exact h3 k (by omega)
              · exact h3 k hk
        · intro j hj
          rw [LArr.get, LArr.get]
          by_cases qj : j < base
          · simp only [if_pos qj]
            by_cases hlt : nd.ne < base
            · simp only [if_pos hlt, Node.fill, if_pos qj]
              rcases h with ⟨h1, rfl, h2, h3⟩ | ⟨h1, h2, h3, h4⟩
              · by_cases e : j < n
                · rw [if_neg (by omega), if_pos e, if_pos (by omega)]
                · rw [if_pos (by omega), if_neg e]
              · omega
            · simp only [if_neg hlt]
              rcases h with ⟨h1, rfl, h2, h3⟩ | ⟨h1, h2, h3, h4⟩
              · rw [if_pos (by omega), if_pos (by omega)]
              · rw [if_pos (by omega), if_pos (by omega)]
          · simp only [if_neg qj]
            rw [g' (j - base) (by omega)]
            by_cases e : j < n
            · rw [if_pos e, if_pos (by omega)]
              exact gr1 _ (by omega)
            · rw [if_neg e, if_neg (by omega)]

end larr

/-! ## Blocks -/

theorem nblocks_eq (b n : Nat) : nblocks b n = n / 2 ^ b + (if n % 2 ^ b ≠ 0 then 1 else 0) := by
  rw [nblocks, Nat.shiftRight_eq_div_pow, Nat.and_two_pow_sub_one_eq_mod]

theorem nblocks_le (b n : Nat) : n ≤ nblocks b n * 2 ^ b := by
  rw [nblocks_eq]
  have h := Nat.div_add_mod n (2 ^ b)
  have hp : 0 < 2 ^ b := Nat.pos_of_ne_zero (by simp)
  have hlt := Nat.mod_lt n hp
  split
  · rw [Nat.add_mul, Nat.one_mul, Nat.mul_comm]; omega
  · rw [Nat.add_zero, Nat.mul_comm]; omega

theorem lt_nblocks {b n k : Nat} : k >>> b < nblocks b n ↔ (k >>> b) * 2 ^ b < n := by
  rw [nblocks_eq, Nat.shiftRight_eq_div_pow]
  have h := Nat.div_add_mod n (2 ^ b)
  have hp : 0 < 2 ^ b := Nat.pos_of_ne_zero (by simp)
  have hlt := Nat.mod_lt n hp
  generalize k / 2 ^ b = q at *
  generalize n / 2 ^ b = d at *
  generalize n % 2 ^ b = r at *
  generalize 2 ^ b = P at *
  constructor
  · intro hq
    split at hq
    · have : q * P ≤ d * P := Nat.mul_le_mul_right _ (by omega)
      rw [Nat.mul_comm d P] at this; omega
    · have : (q + 1) * P ≤ d * P := Nat.mul_le_mul_right _ (by omega)
      rw [Nat.succ_mul, Nat.mul_comm d P] at this; omega
  · intro hq
    by_cases c : q < d
    · omega
    · have : d * P ≤ q * P := Nat.mul_le_mul_right _ (by omega)
      rw [Nat.mul_comm d P] at this
      have hqd : q = d := by
        by_cases e : q = d
        · exact e
        · have : (d + 1) * P ≤ q * P := Nat.mul_le_mul_right _ (by omega)
          rw [Nat.succ_mul, Nat.mul_comm d P] at this; omega
      subst hqd
      rw [if_pos (by rw [Nat.mul_comm q P] at hq; omega)]; omega

theorem lt_nblocks_of_lt {b n k : Nat} (h : k < n) : k >>> b < nblocks b n := by
  rw [lt_nblocks, Nat.shiftRight_eq_div_pow]
  exact Nat.lt_of_le_of_lt (Nat.div_mul_le_self _ _) h

theorem nblocks_zero (b : Nat) : nblocks b 0 = 0 := by simp [nblocks]

theorem div_mod_eq {b j k : Nat} (h1 : j >>> b = k >>> b)
    (h2 : j &&& (2 ^ b - 1) = k &&& (2 ^ b - 1)) : j = k := by
  rw [Nat.shiftRight_eq_div_pow, Nat.shiftRight_eq_div_pow] at h1
  rw [Nat.and_two_pow_sub_one_eq_mod, Nat.and_two_pow_sub_one_eq_mod] at h2
  rw [← Nat.div_add_mod j (2 ^ b), ← Nat.div_add_mod k (2 ^ b), h1, h2]

/-! ## Directory of chunks -/

/-- The directory `l` holds allocated chunks at `0 ≤ q < nc` and NULL at all other entries. -/
structure Dir (cfg : ChunkCfg) (l : LArr (Option (Block α))) (nc : Nat) : Prop where
  wf : WF cfg.base l (cfg.fwd * nblocks 6 nc)
  full : ∀ q, q < nc → ∃ b, l.get cfg.base q = some (some b) ∧ b.length = 2 ^ cfg.bits
  null : ∀ q, nc ≤ q → q < cfg.fwd * nblocks 6 nc → l.get cfg.base q = some none

section dir
variable {α : Type} {cfg : ChunkCfg}

theorem dir_cap (nc : Nat) : nc ≤ cfg.fwd * nblocks 6 nc := by
  have h := nblocks_le 6 nc
  have hp := cfg.ptr_pos
  unfold ChunkCfg.fwd
  have : 1 * (nblocks 6 nc * 64) ≤ cfg.ptr * (nblocks 6 nc * 64) := Nat.mul_le_mul_right _ hp
  rw [show cfg.ptr * 64 * nblocks 6 nc = cfg.ptr * (nblocks 6 nc * 64) by
    rw [Nat.mul_assoc, Nat.mul_comm 64]]
  omega

theorem freeChunks_spec {N : Nat} (cnt : Nat) : ∀ (q : Nat) (l : LArr (Option (Block α))),
    WF cfg.base l N → q + cnt ≤ N →
    (∀ j, q ≤ j → j < q + cnt → ∃ b, l.get cfg.base j = some (some b)) →
    ∃ l', freeChunks cfg q cnt l = some l' ∧ WF cfg.base l' N ∧
      ∀ j, l'.get cfg.base j = if q ≤ j ∧ j < q + cnt then some none else l.get cfg.base j := by
  induction cnt with
  | zero =>
    intro q l w _ _
    exact ⟨l, rfl, w, fun j => by rw [if_neg (by omega)]⟩
  | succ cnt ih =>
    intro q l w hN hf
    obtain ⟨b, hb⟩ := hf q (by omega) (by omega)
    obtain ⟨l1, e1, w1, g1⟩ := wf_set w (show q < N by omega) none
    obtain ⟨l2, e2, w2, g2⟩ := ih (q + 1) l1 w1 (by omega) (by
      intro j h1 h2
      rw [g1, if_neg (by omega)]; exact hf j (by omega) (by omega))
    refine ⟨l2, by simp [freeChunks, hb, e1, e2], w2, fun j => ?_⟩
    rw [g2, g1]
    by_cases c : j = q
    · subst c; rw [if_neg (by omega), if_pos rfl, if_pos (by omega)]
    · by_cases c2 : q + 1 ≤ j ∧ j < q + 1 + cnt
      · rw [if_pos c2, if_pos (by omega)]
      · rw [if_neg c2, if_neg c, if_neg (by omega)]

theorem allocChunks_spec {N : Nat} (blk : Block α) (cnt : Nat) :
    ∀ (q : Nat) (l : LArr (Option (Block α))),
    WF cfg.base l N → q + cnt ≤ N →
    (∀ j, q ≤ j → j < q + cnt → l.get cfg.base j = some none) →
    ∃ l', allocChunks cfg blk q cnt l = some l' ∧ WF cfg.base l' N ∧
      ∀ j, l'.get cfg.base j = if q ≤ j ∧ j < q + cnt then some (some blk)
        else l.get cfg.base j := by
  induction cnt with
  | zero =>
    intro q l w _ _
    exact ⟨l, rfl, w, fun j => by rw [if_neg (by omega)]⟩
  | succ cnt ih =>
    intro q l w hN hf
    have hb := hf q (by omega) (by omega)
    obtain ⟨l1, e1, w1, g1⟩ := wf_set w (show q < N by omega) (some blk)
    obtain ⟨l2, e2, w2, g2⟩ := ih (q + 1) l1 w1 (by omega) (by
      intro j h1 h2
      rw [g1, if_neg (by omega)]; exact hf j (by omega) (by omega))
    refine ⟨l2, by simp [allocChunks, hb, e1, e2], w2, fun j => ?_⟩
    rw [g2, g1]
    by_cases c : j = q
    · subst c; rw [if_neg (by omega), if_pos rfl, if_pos (by omega)]
    · by_cases c2 : q + 1 ≤ j ∧ j < q + 1 + cnt
      · rw [if_pos c2, if_pos (by omega)]
      · rw [if_neg c2, if_neg c, if_neg (by omega)]

theorem innerResize_spec (blk : Block α) (hblk : blk.length = 2 ^ cfg.bits)
    {l : LArr (Option (Block α))} {size : Nat} (D : Dir cfg l (nblocks cfg.bits size)) (new : Nat) :
    ∃ l', innerResize cfg blk l size new = some l' ∧ Dir cfg l' (nblocks cfg.bits new) ∧
      (∀ q, q < nblocks cfg.bits new → q < nblocks cfg.bits size →
        l'.get cfg.base q = l.get cfg.base q) ∧
      (∀ q, q < nblocks cfg.bits new → nblocks cfg.bits size ≤ q →
        l'.get cfg.base q = some (some blk)) := by
  unfold innerResize
  generalize hoc : nblocks cfg.bits size = oc at *
  generalize hnc : nblocks cfg.bits new = nc at *
  have capo := dir_cap (cfg := cfg) oc
  have capn := dir_cap (cfg := cfg) nc
  obtain ⟨l1, e1, w1, g1⟩ : ∃ l1, freeChunks cfg nc (oc - nc) l = some l1 ∧
      WF cfg.base l1 (cfg.fwd * nblocks 6 oc) ∧
      ∀ j, l1.get cfg.base j = if nc ≤ j ∧ j < oc then some none else l.get cfg.base j := by
    by_cases c : nc ≤ oc
    · obtain ⟨l1, e1, w1, g1⟩ := freeChunks_spec (oc - nc) nc l D.wf (by omega) (by
        intro j h1 h2
        obtain ⟨b, hb, _⟩ := D.full j (by omega)
        exact ⟨b, hb⟩)
      refine ⟨l1, e1, w1, fun j => ?_⟩
      rw [g1 j, show nc + (oc - nc) = oc by omega]
    · rw [show oc - nc = 0 by omega]
      exact ⟨l, rfl, D.wf, fun j => by rw [if_neg (by omega)]⟩
  simp only [e1]
  -- entries of l1 from `min` on are NULL
  have null1 : ∀ j, min nc oc ≤ j → j < cfg.fwd * nblocks 6 oc → l1.get cfg.base j = some none := by
    intro j h1 h2
    rw [g1]
    by_cases c : nc ≤ j ∧ j < oc
    · rw [if_pos c]
    · rw [if_neg c]; exact D.null j (by omega) h2
  obtain ⟨l2, e2, w2, g2, n2⟩ : ∃ l2, (if nblocks 6 nc ≠ nblocks 6 oc then
        (if nblocks 6 nc > 0 then LArr.resize cfg.base none l1 (cfg.fwd * nblocks 6 nc)
          else some l1.clear)
      else some l1) = some l2 ∧ WF cfg.base l2 (cfg.fwd * nblocks 6 nc) ∧
      (∀ j, j < min nc oc → l2.get cfg.base j = l.get cfg.base j) ∧
      (∀ j, min nc oc ≤ j → j < cfg.fwd * nblocks 6 nc → l2.get cfg.base j = some none) := by
    have keep : ∀ j, j < min nc oc → l1.get cfg.base j = l.get cfg.base j := by
      intro j hj; rw [g1, if_neg (by omega)]
    by_cases c : nblocks 6 nc = nblocks 6 oc
    · refine ⟨l1, by simp [c], by rw [c]; exact w1, keep, ?_⟩
      rw [c]; exact null1
    · by_cases c0 : nblocks 6 nc > 0
      · obtain ⟨l2, e2, w2, g2⟩ := wf_resize cfg.base_pos (none : Option (Block α))
          (cfg.fwd * nblocks 6 nc) w1
        refine ⟨l2, by simp [c, c0, e2], w2, ?_, ?_⟩
        · intro j hj
          rw [g2 j (by omega), if_pos (by omega)]; exact keep j hj
        · intro j h1 h2
          rw [g2 j h2]
          split
          · next h3 => exact null1 j h1 h3
          · rfl
      · have hz : nblocks 6 nc = 0 := by omega
        refine ⟨l1.clear, by simp [hz] at c ⊢; intro h; exact absurd h c, ?_, ?_, ?_⟩
        · rw [hz, Nat.mul_zero]; exact wf_clear w1
        · intro j hj; rw [hz, Nat.mul_zero] at capn; omega
        · intro j h1 h2; rw [hz, Nat.mul_zero] at h2; omega
  simp only [ne_eq] at e2
  simp only [ne_eq, e2]
  obtain ⟨l3, e3, w3, g3⟩ : ∃ l3, allocChunks cfg blk oc (nc - oc) l2 = some l3 ∧
      WF cfg.base l3 (cfg.fwd * nblocks 6 nc) ∧
      ∀ j, l3.get cfg.base j = if oc ≤ j ∧ j < nc then some (some blk) else l2.get cfg.base j := by
    by_cases c : oc ≤ nc
    · obtain ⟨l3, e3, w3, g3⟩ := allocChunks_spec blk (nc - oc) oc l2 w2 (by omega) (by
        intro j h1 h2; exact n2 j (by omega) (by omega))
      refine ⟨l3, e3, w3, fun j => ?_⟩
      rw [g3 j, show oc + (nc - oc) = nc by omega]
    · rw [show nc - oc = 0 by omega]
      exact ⟨l2, rfl, w2, fun j => by rw [if_neg (by omega)]⟩
  refine ⟨l3, e3, ⟨w3, ?_, ?_⟩, ?_, ?_⟩
  · intro q hq
    rw [g3]
    by_cases c : oc ≤ q ∧ q < nc
    · exact ⟨blk, by rw [if_pos c], hblk⟩
    · rw [if_neg c, g2 q (by omega)]; exact D.full q (by omega)
  · intro q h1 h2
    rw [g3, if_neg (by omega)]; exact n2 q (by omega) h2
  · intro q h1 h2
    rw [g3, if_neg (by omega)]; exact g2 q (by omega)
  · intro q h1 h2
    rw [g3, if_pos ⟨h2, h1⟩]

theorem and_mask_lt (k : Nat) : k &&& (2 ^ cfg.bits - 1) < 2 ^ cfg.bits := by
  rw [Nat.and_two_pow_sub_one_eq_mod]
  exact Nat.mod_lt _ (Nat.pos_of_ne_zero (by simp))

theorem rawSet_spec {l : LArr (Option (Block α))} {nc : Nat} (D : Dir cfg l nc) {k : Nat}
    (hk : k >>> cfg.bits < nc) (x : α) :
    ∃ l', rawSet cfg l k x = some l' ∧ Dir cfg l' nc ∧
      ∀ j, rawGet cfg l' j = if j = k then some x else rawGet cfg l j := by
  obtain ⟨b, hb, hlen⟩ := D.full _ hk
  have hcap := dir_cap (cfg := cfg) nc
  have hm := and_mask_lt (cfg := cfg) k
  obtain ⟨l', e, w, g⟩ := wf_set D.wf (show k >>> cfg.bits < _ by omega)
    (some (b.set (k &&& (2 ^ cfg.bits - 1)) (some x)))
  refine ⟨l', ?_, ⟨w, ?_, ?_⟩, ?_⟩
  · rw [rawSet, hb]; simp only; rw [if_pos (by omega), e]
  · intro q hq
    rw [g]
    split
    · exact ⟨_, rfl, by simpa using hlen⟩
    · exact D.full q hq
  · intro q h1 h2
    rw [g, if_neg (by omega)]; exact D.null q h1 h2
  · intro j
    rw [rawGet, g]
    by_cases e1 : j >>> cfg.bits = k >>> cfg.bits
    · rw [if_pos e1]
      simp only
      by_cases e2 : j &&& (2 ^ cfg.bits - 1) = k &&& (2 ^ cfg.bits - 1)
      · have := div_mod_eq e1 e2
        subst this
        rw [if_pos rfl, List.getElem?_set_self (by omega)]; rfl
      · have hne : j ≠ k := by rintro rfl; exact e2 rfl
        rw [if_neg hne, List.getElem?_set_ne (Ne.symm e2), rawGet, e1, hb]
    · have hne : j ≠ k := by rintro rfl; exact e1 rfl
      rw [if_neg e1, if_neg hne, rawGet]

end dir
end Verif.Containers
