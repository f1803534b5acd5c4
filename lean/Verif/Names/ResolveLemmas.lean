import Verif.Names.ResolveSpec
import Verif.Names.Lemmas

/-! # Lemmas for C93 -/

namespace Verif.Names

/-- The names a process sends. -/
def sent (S : Sets) : Reg → List Str
  | [] => []
  | (k, h) :: r => if S.isHidden h then sent S r else k :: sent S r

def enc : List Str → List Nat
  | [] => []
  | n :: ns => n ++ 0 :: enc ns

theorem sendNames_eq (S : Sets) : ∀ r, sendNames S r = enc (sent S r)
  | [] => rfl
  | (k, h) :: r => by
    rw [sendNames, sent]
    split
    · exact sendNames_eq S r
    · rw [enc, sendNames_eq S r]

theorem cstr_append {n : Str} (h : 0 ∉ n) (t : List Nat) : cstr (n ++ 0 :: t) = some n := by
  induction n with
  | nil => rfl
  | cons a n ih =>
    simp only [List.mem_cons, not_or] at h
    rw [List.cons_append, cstr, if_neg (fun e => h.1 e.symm), ih h.2]

/-- `map_names` after the names `ns` of rank `k`. -/
def pushAll (M : Str → List Nat) (k : Nat) : List Str → Str → List Nat
  | [] => M
  | n :: ns => pushAll (pushRank M n k) k ns

theorem readNames_eq {pre post : List Nat} (k : Nat) : ∀ (ns : List Str) (fuel beg : Nat) (p : List Nat)
    (M : Str → List Nat), (∀ n ∈ ns, 0 ∉ n) → beg = (pre ++ p).length → (enc ns).length ≤ fuel →
    readNames (pre ++ (p ++ (enc ns ++ post))) k fuel beg (beg + (enc ns).length) M
      = some (pushAll M k ns)
  | [], fuel, beg, p, M, _, hb, _ => by
    cases fuel <;> simp [readNames, enc, pushAll]
  | n :: ns, fuel, beg, p, M, h0, hb, hf => by
    have hlen : (enc (n :: ns)).length = n.length + 1 + (enc ns).length := by
      simp only [enc, List.length_append, List.length_cons]; omega
    cases fuel with
    | zero => omega
    | succ fuel =>
      have hd : (pre ++ (p ++ (enc (n :: ns) ++ post))).drop beg = n ++ 0 :: (enc ns ++ post) := by
        rw [← List.append_assoc, hb, List.drop_left]
        simp [enc]
      rw [readNames, if_pos (by omega), hd, cstr_append (h0 n (List.mem_cons_self ..))]
      have ih := readNames_eq (pre := pre) (post := post) k ns fuel (beg + (n.length + 1)) (p ++ (n ++ [0]))
        (pushRank M n k) (fun m hm => h0 m (List.mem_cons_of_mem _ hm))
        (by simp only [List.length_append, List.length_cons, List.length_nil] at hb ⊢; omega) (by omega)
      have e1 : pre ++ (p ++ (n ++ [0]) ++ (enc ns ++ post)) = pre ++ (p ++ (enc (n :: ns) ++ post)) := by
        simp [enc]
      have e2 : beg + (n.length + 1) + (enc ns).length = beg + (enc (n :: ns)).length := by omega
      rw [e1, e2] at ih
      exact ih

theorem pushAll_mem (k : Nat) : ∀ (ns : List Str) (M : Str → List Nat) (m : Str), ns.Nodup →
    pushAll M k ns m = if m ∈ ns then M m ++ [k] else M m
  | [], M, m, _ => by simp [pushAll]
  | n :: ns, M, m, hn => by
    rw [List.nodup_cons] at hn
    rw [pushAll, pushAll_mem k ns _ m hn.2, pushRank]
    by_cases e : m = n
    · subst e
      simp [hn.1]
    · simp [e]

/-- The ranks, counted from `k`, of the lists that contain `m`. -/
def ranksOf (m : Str) : Nat → List (List Str) → List Nat
  | _, [] => []
  | k, ns :: L => if m ∈ ns then k :: ranksOf m (k + 1) L else ranksOf m (k + 1) L

theorem readRanks_eq : ∀ (L : List (List Str)) (pre : List Nat) (k : Nat) (M : Str → List Nat),
    (∀ ns ∈ L, ns.Nodup ∧ ∀ n ∈ ns, 0 ∉ n) →
    ∃ M', readRanks (pre ++ (L.map enc).flatten) k (displs pre.length (L.map fun ns => (enc ns).length))
      (L.map fun ns => (enc ns).length) M = some M' ∧ ∀ m, M' m = M m ++ ranksOf m k L
  | [], pre, k, M, _ => ⟨M, rfl, fun m => by simp [ranksOf]⟩
  | ns :: L, pre, k, M, h => by
    have hh := h ns (List.mem_cons_self ..)
    simp only [List.map_cons, List.flatten_cons, displs, readRanks]
    have e := readNames_eq (pre := pre) (post := (L.map enc).flatten) k ns (enc ns).length pre.length [] M hh.2
      (by simp) (Nat.le_refl _)
    rw [List.nil_append] at e
    rw [e]
    obtain ⟨M', e1, e2⟩ := readRanks_eq L (pre ++ enc ns) (k + 1) (pushAll M k ns)
      fun x hx => h x (List.mem_cons_of_mem _ hx)
    rw [List.length_append, List.append_assoc] at e1
    refine ⟨M', e1, fun m => ?_⟩
    rw [e2, pushAll_mem k ns M m hh.1, ranksOf]
    split <;> simp

theorem mem_ranksOf {m : Str} : ∀ {L : List (List Str)} {k j : Nat},
    j ∈ ranksOf m k L ↔ k ≤ j ∧ ∃ ns, L[j - k]? = some ns ∧ m ∈ ns
  | [], k, j => by simp [ranksOf]
  | ns :: L, k, j => by
    have ih := @mem_ranksOf m L (k + 1) j
    have key : j ∈ ranksOf m k (ns :: L) ↔ (j = k ∧ m ∈ ns) ∨ j ∈ ranksOf m (k + 1) L := by
      rw [ranksOf]
      split
      · rename_i hm; simp [hm]
      · rename_i hm; simp [hm]
    rw [key, ih]
    constructor
    · rintro (⟨rfl, hm⟩ | ⟨h1, ns', h2, h3⟩)
      · exact ⟨Nat.le_refl _, ns, by simp, hm⟩
      · refine ⟨by omega, ns', ?_, h3⟩
        have : j - k = j - (k + 1) + 1 := by omega
        rw [this, List.getElem?_cons_succ]; exact h2
    · rintro ⟨h1, ns', h2, h3⟩
      by_cases e : j = k
      · subst e
        simp only [Nat.sub_self, List.getElem?_cons_zero, Option.some.injEq] at h2
        subst h2
        exact .inl ⟨rfl, h3⟩
      · right
        refine ⟨by omega, ns', ?_, h3⟩
        have : j - k = j - (k + 1) + 1 := by omega
        rw [this, List.getElem?_cons_succ] at h2; exact h2

theorem ranksOf_sorted {m : Str} : ∀ {L : List (List Str)} {k : Nat}, (ranksOf m k L).Pairwise (· < ·)
  | [], k => List.Pairwise.nil
  | ns :: L, k => by
    rw [ranksOf]
    split
    · rw [List.pairwise_cons]
      refine ⟨fun j hj => ?_, ranksOf_sorted⟩
      have := (mem_ranksOf.1 hj).1; omega
    · exact ranksOf_sorted

theorem mem_sent {S : Sets} {n : Str} : ∀ {r : Reg}, n ∈ sent S r ↔ ∃ h, (n, h) ∈ r ∧ S.isHidden h = false
  | [] => by simp [sent]
  | (k, h) :: r => by
    rw [sent]
    have ih := @mem_sent S n r
    split
    · rename_i e
      rw [ih]
      constructor
      · rintro ⟨g, h1, h2⟩; exact ⟨g, List.mem_cons_of_mem _ h1, h2⟩
      · rintro ⟨g, h1, h2⟩
        rcases List.mem_cons.1 h1 with h3 | h3
        · cases h3; rw [e] at h2; cases h2
        · exact ⟨g, h3, h2⟩
    · rename_i e
      rw [List.mem_cons, ih]
      constructor
      · rintro (rfl | ⟨g, h1, h2⟩)
        · exact ⟨h, List.mem_cons_self .., by simpa using e⟩
        · exact ⟨g, List.mem_cons_of_mem _ h1, h2⟩
      · rintro ⟨g, h1, h2⟩
        rcases List.mem_cons.1 h1 with h3 | h3
        · cases h3; exact .inl rfl
        · exact .inr ⟨g, h3, h2⟩

theorem sent_nodup {S : Sets} : ∀ {r : Reg}, Sorted r → (sent S r).Nodup
  | [], _ => List.nodup_nil
  | (k, h) :: r, hs => by
    rw [Sorted, List.pairwise_cons] at hs
    rw [sent]
    split
    · exact sent_nodup hs.2
    · rw [List.nodup_cons]
      refine ⟨fun hm => ?_, sent_nodup hs.2⟩
      obtain ⟨g, h1, _⟩ := mem_sent.1 hm
      have := hs.1 _ h1
      exact Before.irrefl this

theorem sent_has {S : Sets} (I : Ok S) (n : Str) : n ∈ sent S S.reg ↔ S.Has n := by
  rw [mem_sent]
  constructor
  · rintro ⟨h, h1, h2⟩
    have := (I.mem n h).1 h1
    exact ⟨h, this.1, this.2, fun x => by rw [Sets.isHidden, x.1, x.2] at h2; cases h2⟩
  · rintro ⟨h, h1, h2, h3⟩
    refine ⟨h, (I.mem n h).2 ⟨h1, h2⟩, ?_⟩
    rw [Sets.isHidden]
    cases a : S.hide <;> cases b : S.hidden h <;> simp_all

theorem mapNames_eq {P : List Sets} (hP : ∀ S ∈ P, Ok S)
    (h0 : ∀ S ∈ P, ∀ n, S.Has n → 0 ∉ n) :
    ∃ M, mapNames P = some M ∧ ∀ n, Holders P n (M n) := by
  have hL : ∀ ns ∈ P.map (fun S => sent S S.reg), ns.Nodup ∧ ∀ n ∈ ns, 0 ∉ n := by
    intro ns hns
    obtain ⟨S, hS, rfl⟩ := List.mem_map.1 hns
    exact ⟨sent_nodup (hP S hS).sorted, fun n hn => h0 S hS n ((sent_has (hP S hS) n).1 hn)⟩
  obtain ⟨M, e1, e2⟩ := readRanks_eq (P.map fun S => sent S S.reg) [] 0 (fun _ => []) hL
  refine ⟨M, ?_, fun n => ?_⟩
  · rw [mapNames]
    simp only [List.map_map, sendNames_eq, List.nil_append, List.length_nil] at e1 ⊢
    exact e1
  · rw [e2, List.nil_append]
    refine ⟨ranksOf_sorted, fun k => ?_⟩
    rw [mem_ranksOf, Nat.sub_zero]
    constructor
    · rintro ⟨_, ns, h1, h2⟩
      rw [List.getElem?_map, Option.map_eq_some_iff] at h1
      obtain ⟨S, h3, rfl⟩ := h1
      exact ⟨S, h3, (sent_has (hP S (List.mem_of_getElem? h3)) n).1 h2⟩
    · rintro ⟨S, h1, h2⟩
      exact ⟨Nat.zero_le _, sent S S.reg, by rw [List.getElem?_map, h1]; rfl,
        (sent_has (hP S (List.mem_of_getElem? h1)) n).2 h2⟩

theorem Holders.unique {P : List Sets} {n : Str} {a b : List Nat} (ha : Holders P n a)
    (hb : Holders P n b) : a = b :=
  List.Perm.eq_of_pairwise (le := (· < ·)) (fun _ _ _ _ h1 h2 => absurd (Nat.lt_trans h1 h2) (Nat.lt_irrefl _))
    ha.1 hb.1 ((List.perm_ext_iff_of_nodup (ha.1.imp fun {_ _} h => Nat.ne_of_lt h)
      (hb.1.imp fun {_ _} h => Nat.ne_of_lt h)).2 fun k => (ha.2 k).trans (hb.2 k).symm)

/-- What `ResolveSets` writes for a set with the given holders. -/
theorem resolveSet_eq {rank : Nat} {procs : List Nat} (hs : procs.Pairwise (· < ·)) (hr : rank ∈ procs) :
    ∃ p, resolveSet rank procs = some p ∧ p.procs = procs ∧ p.owner ∈ procs ∧ (∀ k ∈ procs, p.owner ≤ k) ∧
      (p.status = .owned ↔ procs = [rank]) ∧
      (p.status = .shared ↔ procs ≠ [rank] ∧ p.owner = rank) ∧
      (p.status = .ghost ↔ p.owner ≠ rank) := by
  match procs, hs, hr with
  | [p], _, hr =>
    rw [List.mem_singleton] at hr
    subst hr
    refine ⟨⟨[rank], rank, .owned⟩, by simp [resolveSet], rfl, by simp, by simp, by simp, by simp, by simp⟩
  | p :: q :: r, hs, hr =>
    refine ⟨_, rfl, rfl, List.mem_cons_self .., fun k hk => ?_, ?_, ?_, ?_⟩
    · rw [List.pairwise_cons] at hs
      rcases List.mem_cons.1 hk with h | h
      · exact Nat.le_of_eq h.symm
      · exact Nat.le_of_lt (hs.1 k h)
    · simp only [List.cons.injEq, reduceCtorEq, and_false, iff_false]
      split <;> simp
    · simp only [ne_eq, List.cons.injEq, reduceCtorEq, and_false, not_false_eq_true, true_and]
      split <;> simp_all
    · split <;> simp_all

theorem resolveLoop_eq {S : Sets} {rank : Nat} {M : Str → List Nat} : ∀ (r : Reg) (D : Nat → Par),
    (r.map (·.2)).Nodup →
    (∀ a ∈ r, S.isHidden a.2 = false → ∃ p, resolveSet rank (M a.1) = some p) →
    ∃ D', resolveLoop S rank M r D = some D' ∧
      (∀ a ∈ r, S.isHidden a.2 = false → resolveSet rank (M a.1) = some (D' a.2)) ∧
      (∀ h, (∀ a ∈ r, a.2 = h → S.isHidden h = true) → D' h = D h)
  | [], D, _, _ => ⟨D, rfl, (fun a h => (by cases h)), fun _ _ => rfl⟩
  | (k, h) :: r, D, hn, hp => by
    rw [List.map_cons, List.nodup_cons] at hn
    rw [resolveLoop]
    cases hh : S.isHidden h with
    | true =>
      rw [if_pos rfl]
      obtain ⟨D', e, e1, e2⟩ := resolveLoop_eq r D hn.2 fun a ha => hp a (List.mem_cons_of_mem _ ha)
      refine ⟨D', e, fun a ha hv => ?_, fun g hg => e2 g fun a ha => hg a (List.mem_cons_of_mem _ ha)⟩
      rcases List.mem_cons.1 ha with h1 | h1
      · subst h1; rw [hh] at hv; cases hv
      · exact e1 a h1 hv
    | false =>
      rw [if_neg (by simp)]
      obtain ⟨p, ep⟩ := hp (k, h) (List.mem_cons_self ..) hh
      obtain ⟨D', e, e1, e2⟩ := resolveLoop_eq r (fun g => if g = h then p else D g) hn.2
        fun a ha => hp a (List.mem_cons_of_mem _ ha)
      simp only at ep
      rw [ep]
      refine ⟨D', e, fun a ha hv => ?_, fun g hg => ?_⟩
      · rcases List.mem_cons.1 ha with h1 | h1
        · subst h1
          have := e2 h fun a ha he => absurd (List.mem_map.2 ⟨a, ha, he⟩) hn.1
          simp only [if_true] at this
          simp only [this]
          exact ep
        · exact e1 a h1 hv
      · rw [e2 g fun a ha => hg a (List.mem_cons_of_mem _ ha), if_neg]
        rintro rfl
        rw [hg (k, g) (List.mem_cons_self ..) rfl] at hh; cases hh

end Verif.Names
