import Verif.Refs.Spec
import Verif.Refs.TreeClean
import Verif.Sets.Lemmas
import Verif.Topology.ReachInv

/-! # Lemmas for C91 -/

namespace Verif.Refs

open Verif.Topology (El Topo Inv)
open Verif.Sets

theorem elOf_handleOf {x : El} (h : x.ty < 5) : elOf (handleOf x) = x := by
  obtain ⟨ty, id⟩ := x
  simp only at h
  simp only [elOf, handleOf, El.mk.injEq]
  omega

theorem handleOf_elOf {h : Nat} (h0 : h ≠ 0) : handleOf (elOf h) = h := by
  simp only [elOf, handleOf]; omega

theorem handleOf_ne (x : El) : handleOf x ≠ 0 := by simp only [handleOf]; omega

/-- The parts of the state that say which elements exist and are marked. -/
structure Same (W W' : World) : Prop where
  T : W'.T = W.T
  setLast : W'.setLast = W.setLast
  setLive : W'.setLive = W.setLive
  setHid : W'.setHid = W.setHid
  tags : W'.tags = W.tags
  remote : W'.remote = W.remote

theorem Same.rfl' (W : World) : Same W W := ⟨rfl, rfl, rfl, rfl, rfl, rfl⟩

theorem Same.trans {W W' W'' : World} (h : Same W W') (g : Same W' W'') : Same W W'' :=
  ⟨g.T.trans h.T, g.setLast.trans h.setLast, g.setLive.trans h.setLive, g.setHid.trans h.setHid,
    g.tags.trans h.tags, g.remote.trans h.remote⟩

variable {W W' : World}

theorem Same.live (h : Same W W') : W'.live = W.live := by
  funext x; simp only [World.live, h.T, h.setLive]

theorem Same.marked (h : Same W W') : W'.marked = W.marked := by
  funext x; simp only [World.marked, h.T, h.setHid]

theorem Same.setList (h : Same W W') : W'.setList = W.setList := by
  simp only [World.setList, h.setLast, h.setLive]

theorem Same.holders (h : Same W W') : W'.holders = W.holders := by
  have : W'.elList = W.elList := by
    funext ty; simp only [World.elList, h.T]
  simp only [World.holders, this, h.setList]

theorem marked_zero : W.marked 0 = false := by simp [World.marked]

/-- A reference after cleaning. -/
def cleaned (W : World) (x : Nat) : Nat := if W.marked x = true then 0 else x

theorem cleaned_idem (x : Nat) : cleaned W (cleaned W x) = cleaned W x := by
  simp only [cleaned]
  by_cases h : W.marked x = true
  · simp [h, marked_zero]
  · simp [h]

theorem cleanArr_spec : ∀ (l : List Nat), (∀ x ∈ l, x = 0 ∨ W.live x = true) →
    W.cleanArr l = some (l.map (cleaned W))
  | [], _ => rfl
  | x :: l, h => by
    rw [World.cleanArr, cleanArr_spec l fun y hy => h y (by simp [hy])]
    by_cases h0 : x = 0
    · subst h0; simp [cleaned, marked_zero]
    · have hl := (h x (by simp)).resolve_left h0
      rw [if_neg h0, World.getMarker, if_pos hl]
      cases hm : W.marked x <;> simp [cleaned, hm]

/-- What a state satisfies at any time. -/
structure Sound (W : World) : Prop where
  inv : Inv W.T (fun _ => False)
  bound : ∀ i, W.setLive i = true → i < W.setLast
  nd : NoDangling W
  forest : Forest W.tree
  ends : Ends W.tree
  noLinks : ∀ s, ¬ W.isSet s → W.tree s = ⟨0, 0, 0⟩
  noElems : ∀ s, ¬ W.isSet s → W.sets s = ESet.empty
  noData : ∀ t h, h ≠ 0 → W.live h = false → W.data t h = none

theorem mem_setList (hb : ∀ i, W.setLive i = true → i < W.setLast) {s : Nat} :
    s ∈ W.setList ↔ W.isSet s := by
  simp only [World.setList, List.mem_map, List.mem_filter, List.mem_range, World.isSet, World.live]
  constructor
  · rintro ⟨i, ⟨_, h2⟩, rfl⟩
    rw [elOf_handleOf (by simp)]
    simp [handleOf_ne, h2]
  · rintro ⟨h1, h2⟩
    by_cases h0 : s = 0
    · simp [h0] at h1
    · rw [if_neg h0, if_pos h2] at h1
      refine ⟨(elOf s).id, ⟨hb _ h1, h1⟩, ?_⟩
      have := handleOf_elOf h0
      rw [← this]
      congr 1
      rw [this, ← h2]

theorem mem_holders (S : Sound W) {h : Nat} : h ∈ W.holders ↔ W.holds h := by
  simp only [World.holders, List.mem_append, List.mem_flatMap, mem_setList S.bound, List.mem_singleton,
    World.holds]
  have key : (∃ a ∈ [0, 1, 2, 3], h ∈ W.elList a) ↔ h ≠ 0 ∧ (elOf h).ty ≠ 4 ∧ W.live h = true := by
    simp only [World.elList, List.mem_map, List.mem_filter, List.mem_range, World.live]
    constructor
    · rintro ⟨ty, hty, i, ⟨_, h2⟩, rfl⟩
      have : ty ≤ 3 := by simp only [List.mem_cons, List.not_mem_nil, or_false] at hty; omega
      rw [elOf_handleOf (by simp only; omega)]
      refine ⟨handleOf_ne _, by simp only; omega, ?_⟩
      rw [if_neg (handleOf_ne _), if_neg (by simp only; omega)]
      exact h2
    · rintro ⟨h0, h4, h1⟩
      rw [if_neg h0, if_neg h4] at h1
      have ht := S.inv.tyLe _ h1
      have hlt := S.inv.lastLt _ h1
      refine ⟨(elOf h).ty, ?_, (elOf h).id, ⟨hlt, h1⟩, handleOf_elOf h0⟩
      have : (elOf h).ty = 0 ∨ (elOf h).ty = 1 ∨ (elOf h).ty = 2 ∨ (elOf h).ty = 3 := by omega
      simpa using this
  rw [key]
  constructor
  · rintro ((h1 | h1) | h1)
    · exact .inr h1.2.2
    · exact .inr h1.1
    · exact .inl h1
  · rintro (h1 | h1)
    · exact .inr h1
    · by_cases h0 : h = 0
      · exact .inr h0
      · by_cases h4 : (elOf h).ty = 4
        · exact .inl (.inr ⟨h1, h4⟩)
        · exact .inl (.inl ⟨h0, h4, h1⟩)

/-- Another array on one holder. -/
def World.put (W : World) (t h : Nat) (l : List Nat) : World :=
  { W with data := fun t2 h2 => if t2 = t ∧ h2 = h then some l else W.data t2 h2 }

/-- The loop over the holders for one tag. -/
theorem cleanData_loop (t : Nat) : ∀ (hs : List Nat) (W : World),
    (∀ h ∈ hs, ∀ l, W.data t h = some l → ∀ x ∈ l, x = 0 ∨ W.live x = true) →
    ∃ W', each (World.cleanData t) hs W = some W' ∧ Same W W' ∧ W'.sets = W.sets ∧ W'.tree = W.tree ∧
      W'.shared = W.shared ∧ ∀ t2 h2, W'.data t2 h2 =
        if t2 = t ∧ h2 ∈ hs then (W.data t2 h2).map (List.map (cleaned W)) else W.data t2 h2
  | [], W, _ => ⟨W, rfl, .rfl' W, rfl, rfl, rfl, by simp⟩
  | h :: hs, W, H => by
    cases hd : W.data t h with
    | none =>
      obtain ⟨W', e1, e2, e3, e4, e5, e6⟩ := cleanData_loop t hs W fun k hk => H k (by simp [hk])
      refine ⟨W', ?_, e2, e3, e4, e5, fun t2 h2 => ?_⟩
      · simp only [each, World.cleanData, hd]; exact e1
      · rw [e6]
        by_cases e : t2 = t ∧ h2 = h
        · obtain ⟨rfl, rfl⟩ := e; simp [hd]
        · simp only [List.mem_cons]
          by_cases et : t2 = t
          · subst et
            have : h2 ≠ h := fun e' => e ⟨rfl, e'⟩
            simp [this]
          · simp [et]
    | some l =>
      have hl := cleanArr_spec l (H h (by simp) l hd)
      have hS : Same W (W.put t h (l.map (cleaned W))) := ⟨rfl, rfl, rfl, rfl, rfl, rfl⟩
      have hcl : ∀ x, x = 0 ∨ W.live x = true → cleaned W x = 0 ∨ W.live (cleaned W x) = true := by
        intro x hx
        simp only [cleaned]
        split
        · exact .inl rfl
        · exact hx
      obtain ⟨W', e1, e2, e3, e4, e5, e6⟩ := cleanData_loop t hs (W.put t h (l.map (cleaned W))) (by
        intro k hk l2 hl2 x hx
        simp only [World.put] at hl2
        rw [hS.live]
        split at hl2
        · cases hl2
          simp only [List.mem_map] at hx
          obtain ⟨y, hy, rfl⟩ := hx
          exact hcl y (H h (by simp) l hd y hy)
        · exact H k (by simp [hk]) l2 hl2 x hx)
      refine ⟨W', ?_, hS.trans e2, e3, e4, e5, fun t2 h2 => ?_⟩
      · simp only [each, World.cleanData, hd, hl]; exact e1
      · have hcw : cleaned (W.put t h (l.map (cleaned W))) = cleaned W := by
          funext x; simp only [cleaned, hS.marked]
        rw [e6, hcw]
        simp only [List.mem_cons, World.put]
        by_cases et : t2 = t
        · subst et
          by_cases eh : h2 = h
          · subst eh
            by_cases hm : h2 ∈ hs
            · simp only [hm, and_self, if_true, hd, Option.map_some, List.map_map]
              simp [Function.comp_def, cleaned_idem]
            · simp [hm, hd]
          · simp [eh]
        · simp [et]

/-- The loop over the tags. -/
theorem cleanTags_loop : ∀ (ts : List Nat) (W : World),
    (∀ t ∈ ts, W.remote t = false → ∀ h ∈ W.holders, ∀ l, W.data t h = some l →
      ∀ x ∈ l, x = 0 ∨ W.live x = true) →
    ∃ W', each World.cleanTag ts W = some W' ∧ Same W W' ∧ W'.sets = W.sets ∧ W'.tree = W.tree ∧
      W'.shared = W.shared ∧ ∀ t h, W'.data t h =
        if t ∈ ts ∧ W.remote t = false ∧ h ∈ W.holders then (W.data t h).map (List.map (cleaned W))
        else W.data t h
  | [], W, _ => ⟨W, rfl, .rfl' W, rfl, rfl, rfl, by simp⟩
  | t :: ts, W, H => by
    cases hr : W.remote t with
    | true =>
      obtain ⟨W', e1, e2, e3, e4, e5, e6⟩ := cleanTags_loop ts W fun k hk => H k (by simp [hk])
      refine ⟨W', ?_, e2, e3, e4, e5, fun t2 h2 => ?_⟩
      · simp only [each, World.cleanTag, hr, if_true]; exact e1
      · rw [e6]
        by_cases et : t2 = t
        · subst et; simp [hr]
        · simp [et]
    | false =>
      obtain ⟨W1, a1, a2, a3, a4, a5, a6⟩ := cleanData_loop t W.holders W fun h hh l hl =>
        H t (by simp) hr h hh l hl
      have hcl : ∀ x, x = 0 ∨ W.live x = true → cleaned W x = 0 ∨ W.live (cleaned W x) = true := by
        intro x hx
        simp only [cleaned]
        split
        · exact .inl rfl
        · exact hx
      obtain ⟨W', e1, e2, e3, e4, e5, e6⟩ := cleanTags_loop ts W1 (by
        intro k hk hrk h hh l hl x hx
        rw [a2.live]
        rw [a2.holders] at hh
        rw [a2.remote] at hrk
        rw [a6] at hl
        split at hl
        · cases hd : W.data k h with
          | none => rw [hd] at hl; cases hl
          | some l0 =>
            rw [hd] at hl
            simp only [Option.map_some, Option.some.injEq] at hl
            subst hl
            simp only [List.mem_map] at hx
            obtain ⟨y, hy, rfl⟩ := hx
            exact hcl y (H k (by simp [hk]) hrk h hh l0 hd y hy)
        · exact H k (by simp [hk]) hrk h hh l hl x hx)
      have hcw : cleaned W1 = cleaned W := by funext x; simp only [cleaned, a2.marked]
      refine ⟨W', ?_, a2.trans e2, e3.trans a3, e4.trans a4, e5.trans a5, fun t2 h2 => ?_⟩
      · simp only [each, World.cleanTag, hr, Bool.false_eq_true, if_false, a1]; exact e1
      · rw [e6, a2.remote, a2.holders, a6, hcw]
        simp only [List.mem_cons]
        by_cases et : t2 = t
        · subst et
          by_cases hh : h2 ∈ W.holders
          · cases hd : W.data t2 h2 with
            | none => simp
            | some l0 =>
              by_cases hm : t2 ∈ ts
              · simp [hr, hh, hm, cleaned_idem]
              · simp [hr, hh, hm]
          · simp [hh]
        · simp [et]

/-- The elements of a set are erased as by `RemoveElements`. -/
theorem eraseMarkedIt_eq {lv mk : Nat → Bool} : ∀ (b : List Nat) (a : List Nat) (s : ESet),
    s.lc = a ++ b → (∀ x ∈ b, x = 0 ∨ lv x = true) →
    eraseMarkedIt lv mk s (skipHoles s.lc a.length) =
      some { s with lc := a ++ (eraseLoop mk true a.length b s.holes).1
                    holes := (eraseLoop mk true a.length b s.holes).2 }
  | [], a, s, hs, _ => by
    have h1 : ¬ a.length < s.lc.length := by rw [hs]; simp
    rw [skipHoles, dif_neg h1, eraseMarkedIt, dif_neg h1]
    simp only [eraseLoop, ← hs]
  | x :: b, a, s, hs, hb => by
    have h1 : a.length < s.lc.length := by rw [hs]; simp
    have hx : s.lc[a.length] = x := by simp [hs]
    have hge : ∀ lc : List Nat, a.length + 1 ≤ skipHoles lc (a.length + 1) := fun lc =>
      (skipHoles_spec lc _ _ rfl).1
    by_cases h0 : x = 0
    · subst h0
      rw [skipHoles, dif_pos h1, if_pos hx]
      have := eraseMarkedIt_eq (lv := lv) (mk := mk) b (a ++ [0]) s (by simp [hs]) fun y hy => hb y (by simp [hy])
      simp only [List.length_append, List.length_singleton] at this
      rw [this]
      simp [eraseLoop]
    · have hl := (hb x (by simp)).resolve_left h0
      rw [skipHoles, dif_pos h1, if_neg (by rw [hx]; exact h0), eraseMarkedIt, dif_pos h1, hx, linkMarked,
        if_pos hl]
      cases hm : mk x with
      | true =>
        simp only [if_neg h0]
        have hset : s.lc.set a.length 0 = (a ++ [0]) ++ b := by
          rw [hs, List.set_append_right _ _ (Nat.le_refl _)]; simp
        have := eraseMarkedIt_eq (lv := lv) (mk := mk) b (a ++ [0])
          { s with lc := s.lc.set a.length 0, holes := a.length :: s.holes } hset
          fun y hy => hb y (by simp [hy])
        simp only [List.length_append, List.length_singleton] at this
        rw [Nat.max_eq_right (hge _), this]
        simp [eraseLoop, h0, hm]
      | false =>
        simp only
        have := eraseMarkedIt_eq (lv := lv) (mk := mk) b (a ++ [x]) s (by simp [hs])
          fun y hy => hb y (by simp [hy])
        simp only [List.length_append, List.length_singleton] at this
        rw [Nat.max_eq_right (hge _), this]
        simp [eraseLoop, h0, hm]

theorem eraseSet_eq {lv mk : Nat → Bool} (s : ESet) (h : ∀ x ∈ elements s, lv x = true) :
    eraseMarkedIt lv mk s (skipHoles s.lc 0) = some (eraseMarked mk true s) := by
  have := eraseMarkedIt_eq (lv := lv) (mk := mk) s.lc [] s rfl fun x hx => by
    by_cases h0 : x = 0
    · exact .inl h0
    · exact .inr (h x (by rw [elements_eq, mem_valid]; exact ⟨hx, h0⟩))
  simpa [eraseMarked] using this

theorem elements_eraseMarked (mk : Nat → Bool) (s : ESet) :
    elements (eraseMarked mk true s) = (elements s).filter fun x => !mk x := by
  rw [elements_eq, elements_eq]
  obtain ⟨h1, _⟩ := eraseLoop_spec mk true s.lc 0 s.holes
  simp only [eraseMarked, h1, valid]
  induction s.lc with
  | nil => rfl
  | cons x l ih =>
    rw [List.map_cons, List.filter_cons, List.filter_cons, ih]
    by_cases hx : x = 0
    · simp [hx]
    · cases hm : mk x <;> simp [hx, hm]

/-- The loop over the sets. -/
theorem cleanSets_loop {t0 : Tree} {lv mk : Nat → Bool} (m0 : mk 0 = false)
    (A : ∀ x, mk x = true → mk (t0 x).parent = false) (H : Linked lv t0) :
    ∀ (ss : List Nat) (W : World), W.live = lv → W.marked = mk → Part mk t0 W.tree →
    Loose mk W.tree → ss.Nodup → (∀ s ∈ ss, s ≠ 0 ∧ ∀ x ∈ elements (W.sets s), lv x = true) →
    ∃ W' m, (∀ n, m ≤ n → each (World.cleanSet n) ss W = some W') ∧ Same W W' ∧ W'.data = W.data ∧
      W'.shared = W.shared ∧ Part mk t0 W'.tree ∧ (∀ s ∈ ss, Clean mk W'.tree s) ∧
      (∀ y, Clean mk W.tree y → Clean mk W'.tree y) ∧
      (∀ s, W'.sets s = if s ∈ ss then eraseMarked mk true (W.sets s) else W.sets s)
  | [], W, _, _, P, _, _, _ => ⟨W, 0, fun _ _ => rfl, .rfl' W, rfl, rfl, P, by simp, fun _ h => h, by simp⟩
  | s :: ss, W, hlv, hmk, P, B, hnd, hs => by
    rw [List.nodup_cons] at hnd
    obtain ⟨t', m1, a1, a2, a3, a4, a5⟩ := dropLinks_spec (lv := lv) P m0 A H B (hs s (by simp)).1
    have he := eraseSet_eq (mk := mk) (W.sets s) (hs s (by simp)).2
    have hS : Same W { W with
      tree := t', sets := fun s2 => if s2 = s then eraseMarked mk true (W.sets s) else W.sets s2 } :=
      ⟨rfl, rfl, rfl, rfl, rfl, rfl⟩
    obtain ⟨W', m2, b1, b2, b3, b4, b5, b6, b7, b8⟩ := cleanSets_loop m0 A H ss { W with
      tree := t', sets := fun s2 => if s2 = s then eraseMarked mk true (W.sets s) else W.sets s2 }
      (hS.live.trans hlv) (hS.marked.trans hmk) a2 a3 hnd.2 (by
        intro k hk
        refine ⟨(hs k (by simp [hk])).1, ?_⟩
        simp only
        rw [if_neg (by rintro rfl; exact hnd.1 hk)]
        exact (hs k (by simp [hk])).2)
    refine ⟨W', max m1 m2, fun n hn => ?_, hS.trans b2, b3, b4, b5, ?_, fun y hy => b7 y (a5 y hy), ?_⟩
    · simp only [each, World.cleanSet, hlv, hmk, a1 n (by omega), he]
      exact b1 n (by omega)
    · intro k hk
      rcases List.mem_cons.1 hk with rfl | h
      · exact b7 k a4
      · exact b6 k h
    · intro k
      rw [b8]
      simp only [List.mem_cons]
      by_cases e : k = s
      · subst e; simp [hnd.1]
      · simp [e]

theorem compactAll_spec (mk : Nat → Bool) : ∀ (ls : List (List Nat)), (∀ l ∈ ls, ∀ x ∈ l, x ≠ 0) →
    compactAll mk ls = some (ls.map fun l => l.filter fun x => !mk x)
  | [], _ => rfl
  | l :: ls, h => by
    rw [compactAll, compact_eq mk false _ l 0 0 rfl (Nat.le_refl _) (by simpa using h l (by simp))]
    simp only [compactAll_spec mk ls fun k hk => h k (by simp [hk]), Option.map_some, List.map_cons]
    simp

theorem setList_nodup : W.setList.Nodup := by
  rw [World.setList]
  refine List.Nodup.map ?_ ((List.nodup_range).filter _)
  intro i j h
  simp only [handleOf] at h
  omega

theorem Sound.linked (S : Sound W) : Linked W.live W.tree := by
  intro x
  by_cases h : W.isSet x
  · obtain ⟨h1, h2, h3⟩ := S.nd.links x h
    exact ⟨h1.imp id (·.1), h2.imp id (·.1), h3.imp id (·.1)⟩
  · rw [S.noLinks x h]; simp

instance {h : Nat} : Decidable (W.holds h) := inferInstanceAs (Decidable (_ ∨ _))
instance {s : Nat} : Decidable (W.isSet s) := inferInstanceAs (Decidable (_ ∧ _))

/-- The result of `ApplyModification`. -/
structure Result (W W' : World) : Prop where
  same : Same W W'
  data : ∀ t h, W'.data t h = if t ∈ W.tags ∧ W.remote t = false ∧ W.holds h then
    (W.data t h).map (List.map (cleaned W)) else W.data t h
  sets : ∀ s, W'.sets s = if W.isSet s then eraseMarked W.marked true (W.sets s) else W.sets s
  part : Part W.marked W.tree W'.tree
  clean : ∀ s, Clean W.marked W'.tree s
  shared : W'.shared = W.shared.map fun l => l.filter fun x => !W.marked x

theorem apply_result (S : Sound W) (O : Orderly W) : ∃ W', Applied W W' ∧ Result W W' := by
  obtain ⟨W1, a1, a2, a3, a4, a5, a6⟩ := cleanTags_loop W.tags W fun t ht hr h hh l hl =>
    S.nd.refs t ht hr h l ((mem_holders S).1 hh) hl
  have P : Part W.marked W.tree W1.tree := by rw [a4]; exact Part.refl S.forest S.ends
  have hb : ∀ i, W1.setLive i = true → i < W1.setLast := by
    intro i hi; rw [a2.setLive] at hi; rw [a2.setLast]; exact S.bound i hi
  obtain ⟨W2, m, b1, b2, b3, b4, b5, b6, b7, b8⟩ := cleanSets_loop (lv := W.live) (mk := W.marked)
    (t0 := W.tree) marked_zero O.parent S.linked W1.setList W1 a2.live a2.marked P
    (by rw [a4]; exact O.loose) setList_nodup (by
      intro s hs
      rw [a2.setList, mem_setList S.bound] at hs
      refine ⟨?_, ?_⟩
      · rintro rfl; simp [World.isSet, World.live] at hs
      · rw [a3]; exact S.nd.elems s hs)
  have hsl : ∀ s, s ∈ W1.setList ↔ W.isSet s := fun s => by rw [a2.setList, mem_setList S.bound]
  have hm2 : W2.marked = W.marked := b2.marked.trans a2.marked
  have hc : compactAll W2.marked W2.shared = some (W.shared.map fun l => l.filter fun x => !W.marked x) := by
    rw [hm2, b4, a5]
    exact compactAll_spec _ _ fun l hl x hx h0 => by
      have := S.nd.shared l hl x hx
      simp [h0, World.live] at this
  refine ⟨{ W2 with shared := W.shared.map fun l => l.filter fun x => !W.marked x }, ⟨m, fun n hn => ?_⟩, ?_⟩
  · rw [World.apply, World.removeLinks, a1]
    simp only [b1 n hn, hc]
  · refine ⟨⟨b2.T.trans a2.T, b2.setLast.trans a2.setLast, b2.setLive.trans a2.setLive,
      b2.setHid.trans a2.setHid, b2.tags.trans a2.tags, b2.remote.trans a2.remote⟩, ?_, ?_, b5, ?_, rfl⟩
    · intro t h
      rw [b3, a6]
      simp only [mem_holders S]
    · intro s
      rw [b8, a3]
      simp only [hsl]
    · intro s
      by_cases h : W.isSet s
      · exact b6 s ((hsl s).2 h)
      · refine b7 s ?_
        rw [a4, Clean, S.noLinks s h]
        exact ⟨marked_zero, marked_zero, marked_zero⟩

end Verif.Refs
