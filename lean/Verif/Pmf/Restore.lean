import Verif.Pmf.Whole

/-!
# The mesh that was read
-/

namespace Verif.Pmf
open Verif.Topology Verif.Binary

theorem gather_count (T : Topo) (x y : El) : ∀ n, (gather T x n).count y =
    if y.ty = x.ty + 1 ∧ y.id < n then (T.low y).count x else 0
  | 0 => by simp [gather]
  | n + 1 => by
    rw [gather_succ, List.count_append, gather_count T x y n, List.count_replicate]
    obtain ⟨t, i⟩ := y
    by_cases ht : t = x.ty + 1
    · subst ht
      by_cases hi : i = n
      · subst hi; simp
      · have h2 : ((⟨x.ty + 1, n⟩ : El) == ⟨x.ty + 1, i⟩) = false := by
          rw [beq_eq_false_iff_ne]; intro h; exact hi (by cases h; rfl)
        rw [h2]
        simp only [true_and]
        by_cases hl : i < n
        · simp [hl, Nat.lt_succ_of_lt hl]
        · have hl2 : ¬ i < n + 1 := by omega
          simp [hl, hl2]
    · have h2 : ((⟨x.ty + 1, n⟩ : El) == ⟨t, i⟩) = false := by
        rw [beq_eq_false_iff_ne]; intro h; exact ht (by cases h; rfl)
      simp [h2, ht]

theorem gatherN_count (T : Topo) (x y : El) : ∀ n, (gatherN T x n).count y =
    if y.ty = 3 ∧ y.id < n then (T.high y).count x else 0
  | 0 => by simp [gatherN]
  | n + 1 => by
    rw [gatherN_succ, List.count_append, gatherN_count T x y n, List.count_replicate]
    obtain ⟨t, i⟩ := y
    by_cases ht : t = 3
    · subst ht
      by_cases hi : i = n
      · subst hi; simp
      · have h2 : ((⟨3, n⟩ : El) == ⟨3, i⟩) = false := by
          rw [beq_eq_false_iff_ne]; intro h; exact hi (by cases h; rfl)
        rw [h2]
        simp only [true_and]
        by_cases hl : i < n
        · simp [hl, Nat.lt_succ_of_lt hl]
        · have hl2 : ¬ i < n + 1 := by omega
          simp [hl, hl2]
    · have h2 : ((⟨3, n⟩ : El) == ⟨t, i⟩) = false := by
        rw [beq_eq_false_iff_ne]; intro h; exact ht (by cases h; rfl)
      simp [h2, ht]

theorem gather_sorted (T : Topo) (x : El) : ∀ n, (gather T x n).Pairwise (fun a b => a.id ≤ b.id) ∧ ∀ a ∈ gather T x n, a.id < n
  | 0 => by simp [gather]
  | n + 1 => by
    obtain ⟨h1, h2⟩ := gather_sorted T x n
    rw [gather_succ]
    constructor
    · rw [List.pairwise_append]
      refine ⟨h1, ?_, ?_⟩
      · rw [List.pairwise_replicate]; exact Or.inr (le_refl _)
      · intro a ha b hb
        obtain rfl := List.eq_of_mem_replicate hb
        exact (h2 a ha).le
    · intro a ha
      rcases List.mem_append.1 ha with ha | ha
      · exact Nat.lt_succ_of_lt (h2 a ha)
      · obtain rfl := List.eq_of_mem_replicate ha
        exact Nat.lt_succ_self n

/-- A table of boundaries. -/
structure Table (T : Topo) (n : Nat → Nat) : Prop where
  low : ∀ ty k, 0 < ty → ty < 4 → k < n ty → T.low ⟨ty, k⟩ ≠ [] ∧ ∀ y ∈ T.low ⟨ty, k⟩, y.ty + 1 = ty ∧ y.id < n y.ty
  nodes : T.cn = true → ∀ k, k < n 3 → ∀ y ∈ T.high ⟨3, k⟩, y.ty = 0 ∧ y.id < n 0

/-- The numbers without those of sets. -/
def cut4 (n : Nat → Nat) : Nat → Nat := fun ty => if ty < 4 then n ty else 0

theorem alive_upTo {T : Topo} {n : Nat → Nat} {y : El} (h : y.ty < 4) (hk : y.id < n y.ty) : (upTo T n).alive y = true := by
  simp [upTo, h, hk]

theorem reach_one {T : Topo} {n n' : Nat → Nat} (H : Table T n) {ty : Nat} (h1 : 0 < ty) (h4 : ty < 4)
    (hb : ∀ t, t < ty → n' t = n t) (hz : ∀ t, ty ≤ t → n' t = 0) (R : Reach T.cn (upTo T n')) :
    ∀ a, a ≤ n ty → Reach T.cn (upTo T (set1 n' ty a))
  | 0, _ => by
    have e : set1 n' ty 0 = n' := by
      funext t; simp only [set1]; split
      · next h => subst h; exact (hz t (le_refl _)).symm
      · rfl
    rw [e]; exact R
  | a + 1, h => by
    have R' := reach_one H h1 h4 hb hz R a (by omega)
    have h0 : set1 n' ty a ty = a := by simp [set1]
    have hlow := H.low ty a h1 h4 (by omega)
    have hid : ∀ y : El, y.ty + 1 = ty → set1 n' ty a y.ty = n y.ty := fun y hy => by
      rw [set1_ne _ _ (by omega), hb _ (by omega)]
    have hnod : ty = 3 → T.cn = true → ∀ y ∈ T.high ⟨3, a⟩, y.ty = 0 ∧ y.id < set1 n' ty a 0 := by
      intro h3 hc y hy
      subst h3
      have := H.nodes hc a (by omega) y hy
      rw [set1_ne _ _ (by omega), hb 0 (by omega)]
      exact this
    have e := create_upTo (T := T) (n := set1 n' ty a) (ty := ty) (by omega) (by rw [set1_ne _ _ (by omega)]; exact hz _ (by omega))
      (fun h3 => by rw [set1_ne _ _ (by omega)]; exact hz _ (by omega)) (by rw [h0]; exact hlow.1)
      (by rw [h0]; exact fun y hy => ⟨(hlow.2 y hy).1, by rw [hid y (hlow.2 y hy).1]; exact (hlow.2 y hy).2⟩)
      (by intro h3 hc; have := hnod h3 hc; subst h3; rw [h0]; exact this)
      (if ty = 3 ∧ T.cn = true then T.high ⟨3, a⟩ else []) (by
        intro h3 hc; subst h3; rw [h0]; simp [hc])
    rw [inc_set1, h0] at e
    refine Reach.create (T := upTo T (set1 n' ty a)) false ty a _ _ R' ⟨by omega, ?_, ?_⟩ e
    · intro y hy
      have := hlow.2 y hy
      exact ⟨alive_upTo (by omega) (by rw [hid y this.1]; exact this.2), this.1⟩
    · intro y hy
      by_cases hc : ty = 3 ∧ T.cn = true
      · rw [if_pos hc] at hy
        have := hnod hc.1 hc.2 y hy
        exact ⟨alive_upTo (by omega) (by rw [this.1]; exact this.2), this.1⟩
      · rw [if_neg hc] at hy; cases hy

theorem reach_nodes {T : Topo} : ∀ a, Reach T.cn (upTo T (set1 (fun _ => 0) 0 a))
  | 0 => by
    have e : set1 (fun _ => 0) 0 0 = fun _ : Nat => (0 : Nat) := by funext t; simp [set1]
    rw [e]
    exact Reach.beginMod .init (beginMod_init T)
  | a + 1 => by
    have e := createNode_upTo (T := T) (n := set1 (fun _ => 0) 0 a) (by simp [set1]) (by simp [set1])
    rw [inc_set1] at e
    exact Reach.createNode _ (reach_nodes a) e

theorem reach_upTo {T : Topo} {n : Nat → Nat} (H : Table T n) : Reach T.cn { upTo T (cut4 n) with hide := false } := by
  have r0 := reach_nodes (T := T) (n 0)
  have r1 := reach_one H (ty := 1) (by omega) (by omega) (n' := set1 (fun _ => 0) 0 (n 0))
    (fun t h => by have : t = 0 := by omega
                   subst this; simp [set1]) (fun t h => by rw [set1_ne _ _ (by omega)]) r0 (n 1) (le_refl _)
  have r2 := reach_one H (ty := 2) (by omega) (by omega) (n' := set1 (set1 (fun _ => 0) 0 (n 0)) 1 (n 1))
    (fun t h => by
      have : t = 0 ∨ t = 1 := by omega
      rcases this with rfl | rfl <;> simp [set1])
    (fun t h => by rw [set1_ne _ _ (by omega), set1_ne _ _ (by omega)]) r1 (n 2) (le_refl _)
  have r3 := reach_one H (ty := 3) (by omega) (by omega) (n' := set1 (set1 (set1 (fun _ => 0) 0 (n 0)) 1 (n 1)) 2 (n 2))
    (fun t h => by
      have : t = 0 ∨ t = 1 ∨ t = 2 := by omega
      rcases this with rfl | rfl | rfl <;> simp [set1])
    (fun t h => by rw [set1_ne _ _ (by omega), set1_ne _ _ (by omega), set1_ne _ _ (by omega)]) r2 (n 3) (le_refl _)
  have e : set1 (set1 (set1 (set1 (fun _ => 0) 0 (n 0)) 1 (n 1)) 2 (n 2)) 3 (n 3) = cut4 n := by
    funext t
    simp only [set1, cut4]
    by_cases h3 : t = 3
    · simp [h3]
    by_cases h2 : t = 2
    · simp [h2]
    by_cases h1 : t = 1
    · simp [h1]
    by_cases h0 : t = 0
    · simp [h0]
    rw [if_neg h3, if_neg h2, if_neg h1, if_neg h0, if_neg (by omega)]
  rw [e] at r3
  exact Reach.endMod (fun _ _ => false) r3 (endMod_upTo _ _ _)

variable {m : Machine} {lw : Nat} {x : Extra} {no only no' only' : List (List Nat)} {M M0 : PMesh}

theorem table_of (S : Saveable m lw x no only M) : Table M.T M.T.last where
  low ty k h1 h4 hk := by
    have := lowOk S (n := M.T.last) h1 h4 hk rfl
    exact ⟨this.ne, fun y hy => ⟨(this.low y hy).1, (this.low y hy).2.1⟩⟩
  nodes hc k hk y hy := by
    have := (nodesOk S (n := M.T.last) hk rfl hc).2.2 y hy
    exact ⟨this.1, this.2.1⟩

theorem sameTopo (S : Saveable m lw x no only M) : SameTopo M.T { upTo M.T (full M) with hide := false } := by
  have I := (reach_inv S.reach).1
  have hf : ∀ ty, ty < 4 → full M ty = M.T.last ty := fun ty h => if_pos h
  have hin : ∀ y : El, M.T.alive y = true → y.ty < 4 ∧ y.id < full M y.ty := by
    intro y hy
    have := (S.whole y).1 hy
    exact ⟨this.1, by rw [hf _ this.1]; exact this.2⟩
  have hhigh : ∀ y, M.T.alive y = true → y.ty < 3 → (upTo M.T (full M)).high y = gather M.T y (M.T.last (y.ty + 1)) := by
    intro y hy h3
    show (if _ then _ else _) = _
    rw [if_pos (hin y hy), if_neg (by omega), hf _ (by omega)]
  refine ⟨rfl, hf, ?_, ?_, ?_, ?_, ?_, ?_, ?_⟩
  · intro y
    show decide _ = _
    rw [Bool.eq_iff_iff, decide_eq_true_eq, S.whole]
    constructor
    · rintro ⟨h1, h2⟩; exact ⟨h1, by rwa [hf _ h1] at h2⟩
    · rintro ⟨h1, h2⟩; exact ⟨h1, by rwa [hf _ h1]⟩
  · intro y; rfl
  · intro y hy h0
    show (if _ then _ else _) = _
    rw [if_pos (hin y hy), if_neg (by omega)]
  · intro y hy h3
    show (if _ then _ else _) = _
    rw [if_pos (hin y hy), if_pos h3]
    cases hc : M.T.cn with
    | true => rfl
    | false =>
      cases hl : M.T.high y with
      | nil => rfl
      | cons z l =>
        have := ((I.highTy (fun h => h) (show z ∈ M.T.high y by rw [hl]; exact List.mem_cons_self ..)).2 h3).1
        rw [hc] at this; cases this
  · intro y hy h3
    show ((upTo M.T (full M)).high y).Perm _
    rw [hhigh y hy h3, List.perm_iff_count]
    intro z
    rw [gather_count]
    by_cases hz : z.ty = y.ty + 1 ∧ z.id < M.T.last (y.ty + 1)
    · rw [if_pos hz, I.mirror y z (fun h => h)]
    · rw [if_neg hz, eq_comm, List.count_eq_zero]
      intro hm
      apply hz
      have h1 := (I.highTy (fun h => h) hm).1 h3
      have h2 := ((S.whole z).1 (I.highLive (fun h => h) hm).2).2
      exact ⟨h1, by rwa [h1] at h2⟩
  · intro y hy h3
    show ((upTo M.T (full M)).high y).Pairwise _
    rw [hhigh y hy h3]
    exact (gather_sorted _ _ _).1
  · intro y hy h0
    show (if _ then _ else _ : List El).Perm _
    rw [if_pos (hin y hy), if_pos h0, hf 3 (by omega)]
    cases hc : M.T.cn with
    | false =>
      cases hl : M.T.low y with
      | nil => exact List.Perm.refl _
      | cons z l =>
        have := ((I.lowTy _ _ (show z ∈ M.T.low y by rw [hl]; exact List.mem_cons_self ..)).2 h0).1
        rw [hc] at this; cases this
    | true =>
      rw [if_pos rfl, List.perm_iff_count]
      intro z
      rw [gatherN_count]
      by_cases hz : z.ty = 3 ∧ z.id < M.T.last 3
      · rw [if_pos hz, I.mirror z y (fun h => h)]
      · rw [if_neg hz, eq_comm, List.count_eq_zero]
        intro hm
        apply hz
        have h1 := ((I.lowTy _ _ hm).2 h0).2
        have h2 := ((S.whole z).1 (I.lowLive hm).1).2
        exact ⟨h1, by rwa [h1] at h2⟩

theorem same_tag {t u : TagRec} {num : Nat → Nat} (R : Ready t u) (D : ∀ ty k, ty < 6 → t.defined ty = true → t.sparse ty = false →
    k < num ty → t.data ty k ≠ none) : SameTag num t (patch t (allData t num) u) := by
  refine ⟨R.name, R.dtype, R.size, R.defined, R.sparse, ?_⟩
  intro ty k h1 h2 h3
  show (if _ then _ else _) = _
  have ha : allData t num ty k = true := by simp [allData, h1, h2, h3]
  cases hd : t.data ty k with
  | some r => rw [if_pos ⟨ha, rfl⟩]; rfl
  | none =>
    rw [if_neg (by simp), R.data ty k h1 h2]
    cases hs : t.sparse ty with
    | true => simp [newRec]
    | false => exact absurd hd (D ty k h1 h2 hs h3)

theorem mem_saved {t : TagRec} : t ∈ savedTags no only M ↔ t ∈ M.tags ∧ checkSkip t.name no only = false := by
  simp [savedTags]

theorem restored (hm : Machines m lw) (S : Saveable m lw x no only M) (F : Fresh no only M M0) {file : Bytes} {M1 : PMesh}
    (hs : save m x no only M = some (file, M1)) (hl : file.length < 256 ^ 8) :
    ∃ M', load lw no' only' M0 file = some M' ∧ Restored no only no' only' M M0 M' := by
  obtain ⟨L, e, K⟩ := load_save (no' := no') (only' := only') hm S F hs hl
  refine ⟨_, e, rfl, sameTopo S, ?_, ?_, rfl, ?_, K.nodup, ?_, ?_⟩
  · have := reach_upTo (table_of S)
    exact this
  · intro k hk; exact if_pos hk
  · rintro t ⟨h1, h2, h3⟩
    have ht := mem_saved.2 ⟨h1, h2⟩
    obtain ⟨u, hu, R⟩ := K.tags t ht h3
    exact ⟨_, hu, same_tag R (S.tags t ht).2.dense⟩
  · intro u hu h
    exact K.others u hu (fun t ht hk => h t ⟨(mem_saved.1 ht).1, (mem_saved.1 ht).2, hk⟩)
  · intro u hu h
    exact K.kept u hu (fun t ht hk => h t ⟨(mem_saved.1 ht).1, (mem_saved.1 ht).2, hk⟩)

theorem save_some (S : Saveable m lw x no only M) : ∃ file, save m x no only M =
    some (file, { M with tags := M.tags.map fun t => if checkSkip t.name no only then t else touch M.num t }) := by
  obtain ⟨d, hd⟩ := wAll_some (f := wData m M.num) (savedTags no only M) (fun t ht => wData_some (S.tags t ht).2)
  unfold save body
  simp only [hd]
  exact ⟨_, rfl⟩

end Verif.Pmf
