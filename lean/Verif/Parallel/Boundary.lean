import Verif.Parallel.Sync
import Mathlib.Tactic.Choose

/-!
# Model of MarkBoundaryFaces on several processors

Source: `Source/Mesh/geometry.cpp`, UnpackBoundary L2912-2924, MarkBoundaryFaces L2926-2975.

`cells p f` are the global numbers of the cells of the face `f` on processor `p` (`face->getCells()`,
geometry.cpp L2940-2942).  The second collective call runs after the first one, as in `Sync`.
-/

namespace Verif.Parallel

/-- Loop of UnpackBoundary (geometry.cpp L2918-2922): numbers that are not there yet are appended. -/
def addNew : List Int → List Int → List Int
  | arr, [] => arr
  | arr, v :: vs => if v ∈ arr then addNew arr vs else addNew (arr ++ [v]) vs

/-- UnpackBoundary (geometry.cpp L2912-2924).  `none`: the array of a dense tag is missing. -/
def boundUnpack : Op Int := fun _ _ d x =>
  match d with
  | none => none
  | some arr => some (some (addNew arr x))

/-- The tag CALC_BOUNDARY (geometry.cpp L2930): arrays of integers on faces. -/
def boundTag : TagInfo := ⟨none, fun i => i == 2, fun _ => false⟩

/-- The arrays before the exchange (geometry.cpp L2936-2943); `select` is 0. -/
def boundInit (k : Nat) (cells : Nat → El → List Int) (G : Nat → Local Int) : Nat → Local Int := fun p =>
  { G p with
    sel := fun _ => true
    data := setTag (G p).data k fun e => if e.ty = 2 then some (cells p e) else none }

/-- The two collective calls (geometry.cpp L2944-2945). -/
def BoundRun (n k : Nat) (cells : Nat → El → List Int) (G G2 : Nat → Local Int) : Prop :=
  ∃ G1, Collective (reduceCall n [(k, boundTag)] (fun i => i == 2) boundUnpack) (boundInit k cells G) G1 ∧
    Collective (exchangeCall n [(k, boundTag)] fun i => i == 2) G1 G2

/-- The assertion L2952 on processor `p`. -/
def boundAssert (k : Nat) (L : Local Int) : Bool :=
  L.elems.all fun e => if e.ty = 2 then decide (((L.data k e).getD []).length ≤ 2) else true

/-- The marker after the last loop (geometry.cpp L2949-2957). -/
def boundFinish (k : Nat) (L : Local Int) (mrk : El → Bool) (e : El) : Bool :=
  if e ∈ L.elems ∧ e.ty = 2 then decide (((L.data k e).getD []).length = 1) else mrk e

/-! ## Lemmas -/

theorem addNew_spec : ∀ (x arr : List Int), arr.Nodup →
    (addNew arr x).Nodup ∧ ∀ i, i ∈ addNew arr x ↔ i ∈ arr ∨ i ∈ x
  | [], arr, h => ⟨h, by simp [addNew]⟩
  | v :: vs, arr, h => by
    unfold addNew
    by_cases hv : v ∈ arr
    · rw [if_pos hv]
      obtain ⟨h1, h2⟩ := addNew_spec vs arr h
      refine ⟨h1, fun i => ?_⟩
      rw [h2, List.mem_cons]
      constructor
      · rintro (h | h)
        · exact Or.inl h
        · exact Or.inr (Or.inr h)
      · rintro (h | rfl | h)
        · exact Or.inl h
        · exact Or.inl hv
        · exact Or.inr h
    · rw [if_neg hv]
      obtain ⟨h1, h2⟩ := addNew_spec vs (arr ++ [v]) (by
        rw [List.nodup_append]
        refine ⟨h, by simp, ?_⟩
        intro a ha b hb
        rw [List.mem_singleton] at hb
        subst hb
        rintro rfl
        exact hv ha)
      refine ⟨h1, fun i => ?_⟩
      rw [h2]
      simp only [List.mem_append, List.mem_cons, List.not_mem_nil, or_false]
      rw [or_assoc]

theorem boundUnpack_safe : OpSafe boundUnpack boundTag := by
  intro e d x _ hd _ _
  cases d with
  | none => exact absurd rfl (hd.dense rfl)
  | some arr => exact ⟨_, rfl, fun _ _ _ hm => (by cases hm), fun _ => by simp⟩

theorem foldOp_bound (T : TagInfo) (e : El) (val : Nat → Option (List Int)) : ∀ (l : List Nat) (arr : List Int),
    arr.Nodup → ∃ res, foldOp boundUnpack T e val l (some arr) = some (some res) ∧ res.Nodup ∧
      ∀ i, i ∈ res ↔ i ∈ arr ∨ ∃ p ∈ l, ∃ x, val p = some x ∧ i ∈ x
  | [], arr, h => ⟨arr, rfl, h, by simp⟩
  | q :: l, arr, h => by
    unfold foldOp
    cases hq : val q with
    | none =>
      obtain ⟨res, h1, h2, h3⟩ := foldOp_bound T e val l arr h
      refine ⟨res, h1, h2, fun i => ?_⟩
      rw [h3]
      constructor
      · rintro (h | ⟨p, hp, h⟩)
        · exact Or.inl h
        · exact Or.inr ⟨p, by simp [hp], h⟩
      · rintro (h | ⟨p, hp, x, hx, h⟩)
        · exact Or.inl h
        · rcases List.mem_cons.1 hp with rfl | hp
          · rw [hq] at hx; cases hx
          · exact Or.inr ⟨p, hp, x, hx, h⟩
    | some y =>
      simp only [boundUnpack]
      obtain ⟨a1, a2⟩ := addNew_spec y arr h
      obtain ⟨res, h1, h2, h3⟩ := foldOp_bound T e val l (addNew arr y) a1
      refine ⟨res, h1, h2, fun i => ?_⟩
      rw [h3, a2]
      constructor
      · rintro ((h | h) | ⟨p, hp, h⟩)
        · exact Or.inl h
        · exact Or.inr ⟨q, by simp, y, hq, h⟩
        · exact Or.inr ⟨p, by simp [hp], h⟩
      · rintro (h | ⟨p, hp, x, hx, h⟩)
        · exact Or.inl (Or.inl h)
        · rcases List.mem_cons.1 hp with rfl | hp
          · rw [hq] at hx
            cases hx
            exact Or.inl (Or.inr h)
          · exact Or.inr ⟨p, hp, x, hx, h⟩

theorem boundInit_same {n k : Nat} {cells : Nat → El → List Int} {G : Nat → Local Int} :
    SameMesh n G (boundInit k cells G) :=
  ⟨fun _ _ => rfl, fun _ _ => rfl, fun _ _ => rfl, fun _ _ => rfl, fun _ _ => rfl⟩

theorem boundInit_data {k : Nat} {cells : Nat → El → List Int} {G : Nat → Local Int} {p : Nat} {e : El}
    (he : e.ty = 2) : (boundInit k cells G p).data k e = some (cells p e) := by
  simp only [boundInit, setTag, if_true, he]

theorem bound_sized {n k : Nat} {G : Nat → Local Int}
    (h : ∀ p, p < n → ∀ e, e ∈ (G p).elems → e.ty = 2 → (G p).data k e ≠ none) :
    Sized n [(k, boundTag)] G := by
  intro t ht p hp e he hdef
  rw [List.mem_singleton] at ht
  subst ht
  exact ⟨fun _ _ _ hm => (by cases hm), fun _ => h p hp e he (by simpa [boundTag] using hdef)⟩

/-- The arrays after the first collective call. -/
theorem bound_mid {n k : Nat} {cells : Nat → El → List Int} {G G1 : Nat → Local Int} (D : Distributed n G)
    (hc : ∀ p, p < n → ∀ e, e ∈ (G p).elems → e.ty = 2 → (cells p e).Nodup)
    (h1 : Collective (reduceCall n [(k, boundTag)] (fun i => i == 2) boundUnpack) (boundInit k cells G) G1) :
    Distributed n G1 ∧ Sized n [(k, boundTag)] G1 ∧ SameMesh n G G1 ∧
    (∀ p, p < n → (G1 p).sel = fun _ => true) ∧
    (∀ q, q < n → ∀ e', e' ∈ (G q).elems → e'.ty = 2 → (G q).status e' = .shared →
      ∃ res, (G1 q).data k e' = some res ∧ res.Nodup ∧
        ∀ i, i ∈ res ↔ i ∈ cells q e' ∨ ∃ p e, p < n ∧ GhostOf G p e q e' ∧ i ∈ cells p e) ∧
    (∀ q, q < n → ∀ e', e'.ty = 2 → (G q).status e' ≠ .shared → (G1 q).data k e' = some (cells q e')) := by
  have s0 : SameMesh n G (boundInit k cells G) := boundInit_same
  have D0 : Distributed n (boundInit k cells G) := s0.distributed D fun _ _ _ _ _ _ _ => rfl
  have hsz : Sized n [(k, boundTag)] (boundInit k cells G) :=
    bound_sized fun p _ e _ h2 => by rw [boundInit_data h2]; simp
  obtain ⟨x1, x2⟩ := reduce_collective D0 hsz (by simp) (fun t ht => by
    rw [show t = (k, boundTag) from List.mem_singleton.1 ht]; exact boundUnpack_safe) h1
  have s1 : SameMesh n G G1 := s0.trans (sameMesh_data x1)
  have hsel : ∀ p, p < n → (G1 p).sel = fun _ => true := fun p hp => by rw [x1 p hp]; rfl
  have hsh : ∀ q, q < n → ∀ e', e' ∈ (G q).elems → e'.ty = 2 → (G q).status e' = .shared →
      ∃ res, (G1 q).data k e' = some res ∧ res.Nodup ∧
        ∀ i, i ∈ res ↔ i ∈ cells q e' ∨ ∃ p e, p < n ∧ GhostOf G p e q e' ∧ i ∈ cells p e := by
    intro q hq e' he h2 hst
    have hgh : ∀ p, ∃ x : Option (List Int), ∀ e, GhostOf G p e q e' → p < n → x = present (some (cells p e)) := by
      intro p
      by_cases h : ∃ e, GhostOf G p e q e' ∧ p < n
      · obtain ⟨e, hg, hp⟩ := h
        refine ⟨present (some (cells p e)), fun e2 hg2 _ => ?_⟩
        have : e = e2 := D.unique p hp e e2 hg.mem hg2.mem (hg.same.1.trans hg2.same.1.symm)
          (hg.same.2.trans hg2.same.2.symm)
        rw [this]
      · exact ⟨none, fun e hg hp => absurd ⟨e, hg, hp⟩ h⟩
    choose val hval using hgh
    have hpn : ∀ p e, GhostOf G p e q e' → p < n := fun p e hg =>
      (D.ghosts q hq e' he hst p hg.procs hg.ne.symm).1
    have back : ∀ p e, GhostOf (boundInit k cells G) p e q e' → GhostOf G p e q e' := by
      intro p e hg
      have hp : p < n := (D0.ghosts q hq e' he hst p hg.procs hg.ne.symm).1
      exact s0.symm.ghostOf hp hq hg
    obtain ⟨order, ho, hf⟩ := (x2 q hq (k, boundTag) (by simp) e').1 he hst (by simp [h2]) (by simp [boundTag, h2])
      rfl val (fun p e hg => by
        have hg' := back p e hg
        rw [hval p e hg' (hpn p e hg')]
        simp only
        rw [boundInit_data (by rw [hg'.same.1]; exact h2)])
    simp only at hf
    rw [boundInit_data h2] at hf
    obtain ⟨res, r1, r2, r3⟩ := foldOp_bound boundTag e' val order (cells q e') (hc q hq e' he h2)
    rw [r1] at hf
    injection hf with hf
    refine ⟨res, hf.symm, r2, fun i => ?_⟩
    rw [r3]
    constructor
    · rintro (h | ⟨p, hp, x, hx, hi⟩)
      · exact Or.inl h
      · have hp' := ho.mem_iff.1 hp
        rw [List.mem_filter] at hp'
        obtain ⟨hpl, e, hg⟩ := D.ghosts q hq e' he hst p hp'.1 (by simpa using hp'.2)
        rw [hval p e hg hpl] at hx
        refine Or.inr ⟨p, e, hpl, hg, ?_⟩
        cases hcp : cells p e with
        | nil => rw [hcp] at hx; cases hx
        | cons a l => rw [hcp] at hx; cases hx; exact hi
    · rintro (h | ⟨p, e, hp, hg, hi⟩)
      · exact Or.inl h
      · refine Or.inr ⟨p, ho.mem_iff.2 ?_, cells p e, ?_, hi⟩
        · rw [List.mem_filter]
          exact ⟨hg.procs, by simpa using hg.ne.symm⟩
        · rw [hval p e hg hp]
          cases hcp : cells p e with
          | nil => rw [hcp] at hi; simp at hi
          | cons a l => rfl
  have hot : ∀ q, q < n → ∀ e', e'.ty = 2 → (G q).status e' ≠ .shared → (G1 q).data k e' = some (cells q e') := by
    intro q hq e' h2 hst
    have := (x2 q hq (k, boundTag) (by simp) e').2 (Or.inl hst)
    simp only at this
    rw [this, boundInit_data h2]
  refine ⟨s1.distributed D fun p q hp hq _ _ _ => by rw [hsel p hp, hsel q hq], ?_, s1, hsel, hsh, hot⟩
  refine bound_sized fun p hp e he h2 => ?_
  rw [s1.elems p hp] at he
  by_cases hst : (G p).status e = .shared
  · obtain ⟨res, r1, _⟩ := hsh p hp e he h2 hst
    rw [r1]; simp
  · rw [hot p hp e h2 hst]; simp

end Verif.Parallel
