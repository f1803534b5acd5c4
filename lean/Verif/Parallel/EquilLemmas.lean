import Verif.Parallel.Bfs
import Verif.Parallel.Agreed

/-!
# The stages of EquilibrateGhost
-/

namespace Verif.Parallel

/-- What the connectivity of the parts has to do with copies: neighbours of cells are cells, upper elements are one
type higher, and a processor that has an element has the elements below it. -/
structure Links (n : Nat) (G : Nat → Local Int) (near high : Nat → El → List El) : Prop where
  cells : ∀ p, p < n → ∀ c, c ∈ (G p).elems → c.ty = 3 → ∀ x, x ∈ near p c → x ∈ (G p).elems ∧ x.ty = 3
  up : ∀ p, p < n → ∀ e, e ∈ (G p).elems → e.ty < 3 → ∀ x, x ∈ high p e → x ∈ (G p).elems ∧ x.ty = e.ty + 1
  whole : ∀ p q, p < n → q < n → ∀ e, e ∈ (G p).elems → e.ty < 3 → ∀ x, x ∈ high p e → ∀ x', x' ∈ (G q).elems →
    SameElem G p x q x' → ∃ e', e' ∈ (G q).elems ∧ SameElem G p e q e'

/-- Nothing but owners, status, data and `select` differs. -/
structure SameLists (n : Nat) (G H : Nat → Local Int) : Prop where
  elems : ∀ p, p < n → (H p).elems = (G p).elems
  procs : ∀ p, p < n → (H p).procs = (G p).procs
  key : ∀ p, p < n → (H p).key = (G p).key

theorem SameLists.trans {n : Nat} {G H K : Nat → Local Int} (h : SameLists n G H) (g : SameLists n H K) :
    SameLists n G K :=
  ⟨fun p hp => (g.elems p hp).trans (h.elems p hp), fun p hp => (g.procs p hp).trans (h.procs p hp),
   fun p hp => (g.key p hp).trans (h.key p hp)⟩

theorem SameLists.sameElem {n : Nat} {G H : Nat → Local Int} (h : SameLists n G H) {p q : Nat} (hp : p < n) (hq : q < n)
    {e e' : El} : SameElem H p e q e' ↔ SameElem G p e q e' := by
  unfold SameElem
  rw [h.key p hp, h.key q hq]

theorem SameLists.links {n : Nat} {G H : Nat → Local Int} {near high : Nat → El → List El} (h : SameLists n G H)
    (K : Links n G near high) : Links n H near high where
  cells p hp := by rw [h.elems p hp]; exact K.cells p hp
  up p hp := by rw [h.elems p hp]; exact K.up p hp
  whole p q hp hq e := by
    rw [h.elems p hp, h.elems q hq]
    intro he ht x hx x' hx' hs
    obtain ⟨e', h1, h2⟩ := K.whole p q hp hq e he ht x hx x' hx' ((h.sameElem hp hq).1 hs)
    exact ⟨e', h1, (h.sameElem hp hq).2 h2⟩

/-- The lesser of two records of OperationMinDistance. -/
def bestD (a b : List Int) : List Int :=
  if b.getD 1 0 < a.getD 1 0 ∨ (b.getD 1 0 = a.getD 1 0 ∧ b.getD 0 0 < a.getD 0 0) then b else a

def leD (a b : List Int) : Prop :=
  a.getD 1 0 < b.getD 1 0 ∨ (a.getD 1 0 = b.getD 1 0 ∧ a.getD 0 0 ≤ b.getD 0 0)

theorem two_of_length {a : List Int} (h : a.length = 2) : ∃ o k, a = [o, k] := by
  match a, h with
  | [o, k], _ => exact ⟨o, k, rfl⟩

theorem one_of_length {a : List Int} (h : a.length = 1) : ∃ o, a = [o] := by
  match a, h with
  | [o], _ => exact ⟨o, rfl⟩

theorem minDistance_chooses : Chooses minDistance distTag 2 bestD leD where
  op e a b ha hb := by
    obtain ⟨o, k, rfl⟩ := two_of_length ha
    obtain ⟨o', k', rfl⟩ := two_of_length hb
    simp only [minDistance, bestD, Option.getD_some, List.getD_cons_succ, List.getD_cons_zero]
    by_cases h1 : k' < k
    · simp [h1]
    · by_cases h2 : k' = k ∧ o' < o
      · simp [h1, h2]
      · simp [h1, h2]
  one a b := by unfold bestD; split <;> simp
  left a b _ _ := by unfold bestD leD; split <;> omega
  right a b _ _ := by unfold bestD leD; split <;> omega
  refl a := by unfold leD; omega
  trans a b c := by unfold leD; omega

theorem leD_antisymm {a b : List Int} (ha : a.length = 2) (hb : b.length = 2) (h : leD a b) (h' : leD b a) : a = b := by
  obtain ⟨o, k, rfl⟩ := two_of_length ha
  obtain ⟨o', k', rfl⟩ := two_of_length hb
  simp only [leD, List.getD_cons_succ, List.getD_cons_zero] at h h'
  have h1 : k = k' := by omega
  have h2 : o = o' := by omega
  rw [h1, h2]

theorem minDistance_safe : OpSafe minDistance distTag := by
  intro e d x hde hd _ hx
  have hx2 : x.length = 2 := hx 2 rfl
  obtain ⟨o', k', rfl⟩ := two_of_length hx2
  have : ∃ o k, d.getD [0, 0] = [o, k] := by
    cases d with
    | none => exact ⟨0, 0, rfl⟩
    | some a => exact two_of_length (hd.size a 2 rfl rfl)
  obtain ⟨o, k, h⟩ := this
  have hok : ∀ v : List Int, v.length = 2 → SizedAt distTag e.ty (some v) := fun v hv =>
    ⟨fun y m hy hm => by cases hy; cases hm; exact hv, fun _ => by simp⟩
  unfold minDistance
  rw [h]
  simp only
  split
  · exact ⟨_, rfl, hok _ rfl⟩
  · split
    · exact ⟨_, rfl, hok _ rfl⟩
    · exact ⟨_, rfl, hok _ rfl⟩

def leO (a b : List Int) : Prop := a.getD 0 0 ≤ b.getD 0 0

/-- The lesser of two records of OperationMinOwner. -/
def bestO (a b : List Int) : List Int := if a.getD 0 0 ≤ b.getD 0 0 then a else b

theorem minOwner_chooses : Chooses minOwner ownTag 1 bestO leO where
  op e a b ha hb := by
    obtain ⟨o, rfl⟩ := one_of_length ha
    obtain ⟨o', rfl⟩ := one_of_length hb
    simp only [minOwner, bestO, Option.getD_some, List.getD_cons_zero]
    by_cases h : o ≤ o'
    · rw [if_pos h, Int.min_eq_left h]
    · rw [if_neg h, Int.min_eq_right (by omega)]
  one a b := by unfold bestO; split <;> simp
  left a b _ _ := by unfold bestO leO; split <;> omega
  right a b _ _ := by unfold bestO leO; split <;> omega
  refl a := by unfold leO; omega
  trans a b c := by unfold leO; omega

theorem leO_antisymm {a b : List Int} (ha : a.length = 1) (hb : b.length = 1) (h : leO a b) (h' : leO b a) : a = b := by
  obtain ⟨o, rfl⟩ := one_of_length ha
  obtain ⟨o', rfl⟩ := one_of_length hb
  simp only [leO, List.getD_cons_zero] at h h'
  have : o = o' := by omega
  rw [this]

theorem minOwner_safe : OpSafe minOwner ownTag := by
  intro e d x hde hd _ hx
  have hx2 : x.length = 1 := hx 1 rfl
  obtain ⟨o', rfl⟩ := one_of_length hx2
  have : ∃ o, d.getD [0] = [o] := by
    cases d with
    | none => exact ⟨0, rfl⟩
    | some a => exact one_of_length (hd.size a 1 rfl rfl)
  obtain ⟨o, h⟩ := this
  unfold minOwner
  rw [h]
  exact ⟨_, rfl, fun y m hy hm => by cases hy; cases hm; rfl, fun _ => by simp⟩

theorem withTag_same {n k : Nat} {d : Nat → El → Option (List Int)} {G : Nat → Local Int} :
    SameMesh n G (withTag k d G) :=
  ⟨fun _ _ => rfl, fun _ _ => rfl, fun _ _ => rfl, fun _ _ => rfl, fun _ _ => rfl⟩

theorem withTag_data {k : Nat} {d : Nat → El → Option (List Int)} {G : Nat → Local Int} {p : Nat} {e : El} :
    (withTag k d G p).data k e = d p e := by
  simp [withTag, setTag]

theorem withTag_sized {n k m : Nat} {T : TagInfo} {d : Nat → El → Option (List Int)} {G : Nat → Local Int}
    (hs : ∀ i, T.defd i = true → T.sparse i = true) (hT : T.size = some m)
    (hd : ∀ p, p < n → ∀ e, e ∈ (G p).elems → ∀ x, d p e = some x → x.length = m) :
    Sized n [(k, T)] (withTag k d G) := by
  intro t ht p hp e he hde
  have : t = (k, T) := List.mem_singleton.1 ht
  subst this
  rw [withTag_data]
  refine ⟨fun x r hx hr => ?_, fun h => ?_⟩
  · rw [hT] at hr
    cases hr
    exact hd p hp e he x hx
  · rw [hs _ hde] at h
    cases h

/-- Owners and status from values on which the copies agree. -/
theorem setOwners_agreed {n k t : Nat} {skip : Int} {G G2 : Nat → Local Int} (A : Agreed n G)
    (hG : ∀ p, p < n → G2 p = { G p with sel := (G2 p).sel, data := (G2 p).data })
    (hin : ∀ p, p < n → ∀ e, e ∈ (G p).elems → e.ty = t → (G p).status e ≠ .owned → ownAt ((G2 p).data k) e ≠ skip →
      ∃ q : Nat, ownAt ((G2 p).data k) e = q ∧ q ∈ (G p).procs e)
    (hsame : ∀ p q, p < n → q < n → ∀ e e', e ∈ (G p).elems → e' ∈ (G q).elems → e.ty = t →
      (G p).status e ≠ .owned → SameElem G p e q e' → ownAt ((G2 p).data k) e = ownAt ((G2 q).data k) e') :
    SameLists n G (fun p => setOwners k t skip p (G2 p)) ∧ Agreed n (fun p => setOwners k t skip p (G2 p)) ∧
    (∀ p, p < n → ∀ e, e ∈ (G p).elems → (e.ty ≠ t ∨ (G p).status e = .owned ∨ ownAt ((G2 p).data k) e = skip) →
      (setOwners k t skip p (G2 p)).owner e = (G p).owner e) ∧
    ∀ p, p < n → ∀ e, e ∈ (G p).elems → e.ty = t → (G p).status e ≠ .owned → ownAt ((G2 p).data k) e ≠ skip →
      ((setOwners k t skip p (G2 p)).owner e : Int) = ownAt ((G2 p).data k) e := by
  have hst : ∀ p, p < n → (G2 p).status = (G p).status := fun p hp => by rw [hG p hp]
  have how : ∀ p, p < n → (G2 p).owner = (G p).owner := fun p hp => by rw [hG p hp]
  have helem : ∀ p, p < n → (G2 p).elems = (G p).elems := fun p hp => by rw [hG p hp]
  have hproc : ∀ p, p < n → (G2 p).procs = (G p).procs := fun p hp => by rw [hG p hp]
  have hkey : ∀ p, p < n → (G2 p).key = (G p).key := fun p hp => by rw [hG p hp]
  have S : SameLists n G (fun p => setOwners k t skip p (G2 p)) :=
    ⟨fun p hp => helem p hp, fun p hp => hproc p hp, fun p hp => hkey p hp⟩
  have o1 : ∀ p, p < n → ∀ e, e ∈ (G p).elems → (e.ty ≠ t ∨ (G p).status e = .owned ∨ ownAt ((G2 p).data k) e = skip) →
      (setOwners k t skip p (G2 p)).owner e = (G p).owner e := by
    intro p hp e he h
    simp only [setOwners, hst p hp, how p hp]
    rw [if_neg]
    rintro ⟨a, b, c, _⟩
    rcases h with h | h | h
    · exact h a
    · exact b h
    · exact c h
  have o2 : ∀ p, p < n → ∀ e, e ∈ (G p).elems → e.ty = t → (G p).status e ≠ .owned → ownAt ((G2 p).data k) e ≠ skip →
      ((setOwners k t skip p (G2 p)).owner e : Int) = ownAt ((G2 p).data k) e := by
    intro p hp e he h1 h2 h3
    simp only [setOwners, hst p hp, how p hp]
    obtain ⟨q, hq, _⟩ := hin p hp e he h1 h2 h3
    split
    · rw [hq]; simp
    · rename_i h
      by_contra hne
      exact h ⟨h1, h2, h3, Or.inr hne⟩
  refine ⟨S, ?_, o1, o2⟩
  refine ⟨?_, ?_, ?_, ?_, ?_, ?_, ?_, ?_⟩
  · intro p hp; rw [S.elems p hp]; exact A.nodup p hp
  · intro p hp; rw [S.elems p hp]; exact A.types p hp
  · intro p hp e e'
    rw [S.elems p hp]
    intro he he' hs
    exact A.unique p hp e e' he he' ((S.sameElem hp hp).1 hs)
  · intro p hp; rw [S.elems p hp, S.procs p hp]; exact A.sorted p hp
  · intro p hp e
    rw [S.elems p hp, S.procs p hp]
    intro he q
    rw [A.procs p hp e he]
    constructor
    · rintro ⟨hq, e', he', hs⟩
      exact ⟨hq, e', by rw [S.elems q hq]; exact he', (S.sameElem hp hq).2 hs⟩
    · rintro ⟨hq, e', he', hs⟩
      exact ⟨hq, e', by rw [← S.elems q hq]; exact he', (S.sameElem hp hq).1 hs⟩
  · intro p hp e
    rw [S.elems p hp, S.procs p hp]
    intro he
    by_cases h : e.ty ≠ t ∨ (G p).status e = .owned ∨ ownAt ((G2 p).data k) e = skip
    · show (setOwners k t skip p (G2 p)).owner e ∈ _
      rw [o1 p hp e he h]
      exact A.owner p hp e he
    · simp only [not_or, not_not] at h
      obtain ⟨q, hq, hqm⟩ := hin p hp e he h.1 h.2.1 h.2.2
      have := o2 p hp e he h.1 h.2.1 h.2.2
      rw [hq] at this
      have : (setOwners k t skip p (G2 p)).owner e = q := by exact_mod_cast this
      show (setOwners k t skip p (G2 p)).owner e ∈ _
      rw [this]
      exact hqm
  · intro p q hp hq e e'
    rw [S.elems p hp, S.elems q hq]
    intro he he' hs
    have hs' := (S.sameElem hp hq).1 hs
    show (setOwners k t skip p (G2 p)).owner e = (setOwners k t skip q (G2 q)).owner e'
    by_cases h : e.ty ≠ t ∨ (G p).status e = .owned ∨ ownAt ((G2 p).data k) e = skip
    · rw [o1 p hp e he h, o1 q hq e' he' ?_]
      · exact A.same p q hp hq e e' he he' hs'
      · by_cases h1 : e.ty = t
        · by_cases h2 : (G p).status e = .owned
          · refine Or.inr (Or.inl ?_)
            by_contra hc
            exact A.notOwned hq hp he' he hs'.symm hc h2
          · refine Or.inr (Or.inr ?_)
            rw [← hsame p q hp hq e e' he he' h1 h2 hs']
            exact (h.resolve_left (fun h => h h1)).resolve_left h2
        · exact Or.inl fun h => h1 (hs'.1.trans h)
    · simp only [not_or, not_not] at h
      have h1 := o2 p hp e he h.1 h.2.1 h.2.2
      have h2 := o2 q hq e' he' (hs'.1 ▸ h.1) (A.notOwned hp hq he he' hs' h.2.1)
        (by rw [← hsame p q hp hq e e' he he' h.1 h.2.1 hs']; exact h.2.2)
      rw [← hsame p q hp hq e e' he he' h.1 h.2.1 hs', ← h1] at h2
      exact_mod_cast h2.symm
  · intro p hp e
    rw [S.elems p hp, S.procs p hp]
    intro he
    have hA := A.status p hp e he
    simp only [setOwners, hst p hp, how p hp]
    by_cases hc : e.ty = t ∧ (G p).status e ≠ .owned ∧ ownAt ((G2 p).data k) e ≠ skip ∧
        (t = 3 ∨ ((G p).owner e : Int) ≠ ownAt ((G2 p).data k) e)
    · rw [if_pos hc, if_pos hc]
      obtain ⟨q, hq, hqm⟩ := hin p hp e he hc.1 hc.2.1 hc.2.2.1
      rw [if_neg fun h => hc.2.1 ((A.owned hp he).2 h), hq]
      simp only [Int.toNat_natCast]
      by_cases hqp : q = p
      · subst hqp; simp
      · rw [if_neg (fun h => hqp (by exact_mod_cast h.symm)), if_neg hqp]
    · rw [if_neg hc, if_neg hc]
      exact hA

/-- The part for cells. -/
theorem cellStage_spec {n k : Nat} {near high : Nat → El → List El} {G G' : Nat → Local Int} (A : Agreed n G)
    (K : Links n G near high) (h : CellStage n k near G G') :
    SameLists n G G' ∧ Agreed n G' ∧
    (∀ p, p < n → ∀ e, e ∈ (G p).elems → (e.ty ≠ 3 ∨ (G p).status e = .owned) → (G' p).owner e = (G p).owner e) ∧
    ∀ p, p < n → ∀ c, c ∈ (G p).elems → c.ty = 3 → (G p).status c ≠ .owned →
      ((∀ q c', q < n → c' ∈ (G q).elems → SameElem G p c q c' → ∀ j : Nat, Walk (G q) (near q) c' j → intMax ≤ j) ∧
        (G' p).owner c = (G p).owner c) ∨
      ∃ (q : Nat) (c' : El) (j : Nat), q < n ∧ c' ∈ (G q).elems ∧ SameElem G p c q c' ∧ Walk (G q) (near q) c' j ∧
        (j : Int) < intMax ∧ (G' p).owner c = q ∧
        ∀ q' c'' j', q' < n → c'' ∈ (G q').elems → SameElem G p c q' c'' → Walk (G q') (near q') c'' j' →
          j < j' ∨ (j = j' ∧ q ≤ q') := by
  obtain ⟨d, hd, G1, G2, c1, c2, rfl⟩ := h
  have hds : ∀ p, p < n → (∀ c, (c ∉ cellsOf (G p) ∨ (G p).status c = .owned) → d p c = none) ∧
      ∀ c, c ∈ cellsOf (G p) → (G p).status c ≠ .owned →
        (d p c = some [-1, intMax] ∧ ∀ k : Nat, Walk (G p) (near p) c k → intMax ≤ k) ∨
        ∃ k : Nat, d p c = some [(p : Int), (k : Int)] ∧ Walk (G p) (near p) c k ∧ (k : Int) < intMax ∧
          ∀ k', Walk (G p) (near p) c k' → k ≤ k' := by
    intro p hp
    obtain ⟨d', h1, h2, h3⟩ := distances_spec (L := G p) (near := near p) (me := p) (A.nodup p hp)
      (fun c hc hs => by
        have hm := (mem_cellsOf.1 hc).1
        have := A.owner p hp c hm
        rw [(A.owned hp hm).1 hs, List.mem_singleton] at this
        exact this)
      (fun c hc x hx => by
        have hm := mem_cellsOf.1 hc
        exact mem_cellsOf.2 (K.cells p hp c hm.1 hm.2 x hx))
    rw [hd p hp] at h1
    cases h1
    exact ⟨h2, h3⟩
  have A0 : Agreed n (withTag k d G) := withTag_same.agreed A
  have hlen : ∀ p, p < n → ∀ e, e ∈ (G p).elems → ∀ x, d p e = some x → x.length = 2 := by
    intro p hp e he x hx
    by_cases hc : e ∈ cellsOf (G p) ∧ (G p).status e ≠ .owned
    · rcases (hds p hp).2 e hc.1 hc.2 with ⟨h, _⟩ | ⟨j, h, _⟩ <;> rw [h] at hx <;> cases hx <;> rfl
    · rw [(hds p hp).1 e (by
        by_cases h1 : e ∈ cellsOf (G p)
        · exact Or.inr (Decidable.by_contra fun h => hc ⟨h1, h⟩)
        · exact Or.inl h1)] at hx
      cases hx
  obtain ⟨x1, x2⟩ := combine minDistance_chooses (by decide) A0 (fun _ _ => rfl) (t := 3) rfl rfl
    (withTag_sized (fun i h => h) rfl hlen) minDistance_safe (by
      intro p hp e he ht hs
      rw [withTag_data]
      rcases (hds p hp).2 e (mem_cellsOf.2 ⟨he, ht⟩) hs with ⟨h, _⟩ | ⟨j, h, _⟩
      · exact ⟨_, h, rfl⟩
      · exact ⟨_, h, rfl⟩) c1 c2
  have hG : ∀ p, p < n → G2 p = { G p with sel := (G2 p).sel, data := (G2 p).data } := fun p hp => by
    rw [x1 p hp]; rfl
  -- the value of a cell
  have hv : ∀ p, p < n → ∀ c, c ∈ (G p).elems → c.ty = 3 → (G p).status c ≠ .owned →
      ∃ v, (G2 p).data k c = some v ∧ v.length = 2 ∧
        (∃ q c', q < n ∧ c' ∈ (G q).elems ∧ SameElem G p c q c' ∧ d q c' = some v) ∧
        ∀ q c', q < n → c' ∈ (G q).elems → SameElem G p c q c' → ∀ w, d q c' = some w → leD v w := by
    intro p hp c hc ht hs
    obtain ⟨v, v1, v2, ⟨q, c', a1, a2, a3, a4⟩, v4⟩ := x2 p hp c hc ht hs
    rw [withTag_data] at a4
    refine ⟨v, v1, v2, ⟨q, c', a1, a2, a3, a4⟩, fun q c' hq hc' hs' w hw => v4 q c' hq hc' hs' w ?_⟩
    rw [withTag_data]
    exact hw
  have hres : ∀ p, p < n → ∀ c, c ∈ (G p).elems → c.ty = 3 → (G p).status c ≠ .owned →
      ((∀ q c', q < n → c' ∈ (G q).elems → SameElem G p c q c' → ∀ j : Nat, Walk (G q) (near q) c' j → intMax ≤ j) ∧
        ownAt ((G2 p).data k) c = -1) ∨
      ∃ (q : Nat) (c' : El) (j : Nat), q < n ∧ c' ∈ (G q).elems ∧ SameElem G p c q c' ∧ Walk (G q) (near q) c' j ∧
        (j : Int) < intMax ∧ ownAt ((G2 p).data k) c = q ∧
        ∀ q' c'' j', q' < n → c'' ∈ (G q').elems → SameElem G p c q' c'' → Walk (G q') (near q') c'' j' →
          j < j' ∨ (j = j' ∧ q ≤ q') := by
    intro p hp c hc ht hs
    obtain ⟨v, v1, v2, ⟨q, c', a1, a2, a3, a4⟩, v4⟩ := hv p hp c hc ht hs
    have hcell : ∀ r x, r < n → x ∈ (G r).elems → SameElem G p c r x → x ∈ cellsOf (G r) ∧ (G r).status x ≠ .owned :=
      fun r x hr hx hsx => ⟨mem_cellsOf.2 ⟨hx, by rw [← hsx.1]; exact ht⟩, A.notOwned hp hr hc hx hsx hs⟩
    obtain ⟨b1, b2⟩ := hcell q c' a1 a2 a3
    rcases (hds q a1).2 c' b1 b2 with ⟨h, _⟩ | ⟨j, h, hw, hj, hmin⟩
    · rw [h] at a4
      cases a4
      refine Or.inl ⟨fun r x hr hx hsx j w => ?_, ownAt_some v1⟩
      obtain ⟨e1, e2⟩ := hcell r x hr hx hsx
      rcases (hds r hr).2 x e1 e2 with ⟨_, h'⟩ | ⟨j', h', _, hj', _⟩
      · exact h' j w
      · have := v4 r x hr hx hsx _ h'
        simp only [leD, List.getD_cons_succ, List.getD_cons_zero] at this
        omega
    · rw [h] at a4
      cases a4
      refine Or.inr ⟨q, c', j, a1, a2, a3, hw, hj, ownAt_some v1, fun r x j' hr hx hsx w => ?_⟩
      obtain ⟨e1, e2⟩ := hcell r x hr hx hsx
      rcases (hds r hr).2 x e1 e2 with ⟨_, h'⟩ | ⟨j2, h', _, hj2, hm2⟩
      · have := h' j' w
        omega
      · have h5 := v4 r x hr hx hsx _ h'
        simp only [leD, List.getD_cons_succ, List.getD_cons_zero] at h5
        have := hm2 j' w
        omega
  obtain ⟨S, A', o1, o2⟩ := setOwners_agreed (t := 3) (skip := -1) A hG
    (fun p hp e he ht hs hne => by
      rcases hres p hp e he ht hs with ⟨_, h⟩ | ⟨q, c', j, a1, a2, a3, _, _, h, _⟩
      · exact absurd h hne
      · exact ⟨q, h, (A.procs p hp e he q).2 ⟨a1, c', a2, a3⟩⟩)
    (fun p q hp hq e e' he he' ht hs hse => by
      obtain ⟨v, v1, v2, ⟨r, x, a1, a2, a3, a4⟩, v4⟩ := hv p hp e he ht hs
      obtain ⟨v', v1', v2', ⟨r', x', a1', a2', a3', a4'⟩, v4'⟩ := hv q hq e' he' (hse.1 ▸ ht)
        (A.notOwned hp hq he he' hse hs)
      have : v = v' := leD_antisymm v2 v2' (v4 r' x' a1' a2' (hse.trans a3') _ a4')
        (v4' r x a1 a2 (hse.symm.trans a3) _ a4)
      unfold ownAt
      rw [v1, v1', this])
  refine ⟨S, A', fun p hp e he h => o1 p hp e he (by
    rcases h with h | h
    · exact Or.inl h
    · exact Or.inr (Or.inl h)), fun p hp c hc ht hs => ?_⟩
  rcases hres p hp c hc ht hs with ⟨h1, h⟩ | ⟨q, c', j, a1, a2, a3, a4, a5, h, a6⟩
  · exact Or.inl ⟨h1, o1 p hp c hc (Or.inr (Or.inr h))⟩
  · have := o2 p hp c hc ht hs (by rw [h]; omega)
    rw [h] at this
    exact Or.inr ⟨q, c', j, a1, a2, a3, a4, a5, by exact_mod_cast this, a6⟩

theorem leastOwner_spec {L : Local Int} : ∀ (l : List El), (leastOwner L l = intMax ∨ ∃ x, x ∈ l ∧ leastOwner L l = L.owner x) ∧
    leastOwner L l ≤ intMax ∧ ∀ x, x ∈ l → leastOwner L l ≤ L.owner x
  | [] => ⟨Or.inl rfl, Int.le_refl _, fun _ h => (by cases h)⟩
  | y :: l => by
    obtain ⟨h1, h2, h3⟩ := leastOwner_spec (L := L) l
    unfold leastOwner
    refine ⟨?_, by omega, ?_⟩
    · by_cases h : (L.owner y : Int) ≤ leastOwner L l
      · exact Or.inr ⟨y, List.mem_cons_self, by omega⟩
      · rw [Int.min_eq_right (by omega)]
        rcases h1 with h1 | ⟨x, hx, h1⟩
        · exact Or.inl h1
        · exact Or.inr ⟨x, List.mem_cons_of_mem _ hx, h1⟩
    · intro x hx
      rcases List.mem_cons.1 hx with rfl | hx
      · omega
      · have := h3 x hx
        omega

/-- One pass for faces, edges or nodes. -/
theorem lowStage_spec {n k t : Nat} (ht3 : t < 3) (hn : (n : Int) ≤ intMax) {near high : Nat → El → List El}
    {G G' : Nat → Local Int} (A : Agreed n G) (K : Links n G near high) (h : LowStage n k t high G G') :
    SameLists n G G' ∧ Agreed n G' ∧
    (∀ p, p < n → ∀ e, e ∈ (G p).elems → (e.ty ≠ t ∨ (G p).status e = .owned) → (G' p).owner e = (G p).owner e) ∧
    ∀ p, p < n → ∀ e, e ∈ (G p).elems → e.ty = t → (G p).status e ≠ .owned →
      ((∀ q e', q < n → e' ∈ (G q).elems → SameElem G p e q e' → high q e' = []) ∧
        (G' p).owner e = (G p).owner e) ∨
      ((∃ q e' x, q < n ∧ e' ∈ (G q).elems ∧ SameElem G p e q e' ∧ x ∈ high q e' ∧ (G' p).owner e = (G q).owner x) ∧
        ∀ q e' x, q < n → e' ∈ (G q).elems → SameElem G p e q e' → x ∈ high q e' → (G' p).owner e ≤ (G q).owner x) := by
  obtain ⟨G1, G2, c1, c2, rfl⟩ := h
  generalize hdd : (fun p => ownersOf t (high p) (G p)) = d at c1
  have hd1 : ∀ p e, e.ty = t → (G p).status e ≠ .owned → d p e = some [leastOwner (G p) (high p e)] := by
    intro p e h1 h2
    rw [← hdd]
    show (if e.ty = t ∧ (G p).status e ≠ .owned then _ else _) = _
    rw [if_pos ⟨h1, h2⟩]
  have A0 : Agreed n (withTag k d G) := withTag_same.agreed A
  have hlen : ∀ p, p < n → ∀ e, e ∈ (G p).elems → ∀ x, d p e = some x → x.length = 1 := by
    intro p hp e he x hx
    rw [← hdd] at hx
    replace hx : (if e.ty = t ∧ (G p).status e ≠ .owned then some [leastOwner (G p) (high p e)] else none) = some x := hx
    split at hx
    · cases hx; rfl
    · cases hx
  obtain ⟨x1, x2⟩ := combine minOwner_chooses (by decide) A0 (fun _ _ => rfl) (t := t) (by simp [ownTag, ht3]) rfl
    (withTag_sized (fun i h => h) rfl hlen) minOwner_safe (by
      intro p hp e he ht hs
      rw [withTag_data, hd1 p e ht hs]
      exact ⟨_, rfl, rfl⟩) c1 c2
  have hG : ∀ p, p < n → G2 p = { G p with sel := (G2 p).sel, data := (G2 p).data } := fun p hp => by
    rw [x1 p hp]; rfl
  have hv : ∀ p, p < n → ∀ c, c ∈ (G p).elems → c.ty = t → (G p).status c ≠ .owned →
      ∃ v, (G2 p).data k c = some v ∧ v.length = 1 ∧
        (∃ q c', q < n ∧ c' ∈ (G q).elems ∧ SameElem G p c q c' ∧ d q c' = some v) ∧
        ∀ q c', q < n → c' ∈ (G q).elems → SameElem G p c q c' → ∀ w, d q c' = some w → leO v w := by
    intro p hp c hc ht hs
    obtain ⟨v, v1, v2, ⟨q, c', a1, a2, a3, a4⟩, v4⟩ := x2 p hp c hc ht hs
    rw [withTag_data] at a4
    refine ⟨v, v1, v2, ⟨q, c', a1, a2, a3, a4⟩, fun q c' hq hc' hs' w hw => v4 q c' hq hc' hs' w ?_⟩
    rw [withTag_data]
    exact hw
  have hlt : ∀ q, q < n → ∀ x, x ∈ (G q).elems → ((G q).owner x : Int) < intMax := by
    intro q hq x hx
    have := ((A.procs q hq x hx _).1 (A.owner q hq x hx)).1
    omega
  have hres : ∀ p, p < n → ∀ e, e ∈ (G p).elems → e.ty = t → (G p).status e ≠ .owned →
      ((∀ q e', q < n → e' ∈ (G q).elems → SameElem G p e q e' → high q e' = []) ∧
        ownAt ((G2 p).data k) e = intMax) ∨
      (ownAt ((G2 p).data k) e ≠ intMax ∧
        (∃ q e' x, q < n ∧ e' ∈ (G q).elems ∧ SameElem G p e q e' ∧ x ∈ high q e' ∧
          ownAt ((G2 p).data k) e = (G q).owner x) ∧
        ∀ q e' x, q < n → e' ∈ (G q).elems → SameElem G p e q e' → x ∈ high q e' →
          ownAt ((G2 p).data k) e ≤ (G q).owner x) := by
    intro p hp e he ht hs
    obtain ⟨v, v1, v2, ⟨q, e', a1, a2, a3, a4⟩, v4⟩ := hv p hp e he ht hs
    rw [hd1 q e' (by rw [← a3.1]; exact ht) (A.notOwned hp a1 he a2 a3 hs)] at a4
    cases a4
    have hown : ownAt ((G2 p).data k) e = leastOwner (G q) (high q e') := by unfold ownAt; rw [v1]; rfl
    have hall : ∀ r f x, r < n → f ∈ (G r).elems → SameElem G p e r f → x ∈ high r f →
        ownAt ((G2 p).data k) e ≤ (G r).owner x := by
      intro r f x hr hf hsf hx
      have h1 := v4 r f hr hf hsf _ (hd1 r f (by rw [← hsf.1]; exact ht) (A.notOwned hp hr he hf hsf hs))
      simp only [leO, List.getD_cons_zero] at h1
      have h2 := (leastOwner_spec (L := G r) (high r f)).2.2 x hx
      omega
    rcases (leastOwner_spec (L := G q) (high q e')).1 with h | ⟨x, hx, h⟩
    · refine Or.inl ⟨fun r f hr hf hsf => ?_, hown.trans h⟩
      cases hh : high r f with
      | nil => rfl
      | cons y l =>
        have hy : y ∈ high r f := by rw [hh]; exact List.mem_cons_self
        have h1 := hall r f y hr hf hsf hy
        have h2 := hlt r hr y (K.up r hr f hf (by have := hsf.1; omega) y hy).1
        omega
    · have h2 := hlt q a1 x (K.up q a1 e' a2 (by have := a3.1; omega) x hx).1
      exact Or.inr ⟨by omega, ⟨q, e', x, a1, a2, a3, hx, hown.trans h⟩, hall⟩
  obtain ⟨S, A', o1, o2⟩ := setOwners_agreed (t := t) (skip := intMax) A hG
    (fun p hp e he ht hs hne => by
      rcases hres p hp e he ht hs with ⟨_, h⟩ | ⟨_, ⟨q, e', x, a1, a2, a3, a4, h⟩, _⟩
      · exact absurd h hne
      · refine ⟨(G q).owner x, h, ?_⟩
        have hx := (K.up q a1 e' a2 (by have := a3.1; omega) x a4).1
        obtain ⟨hr, x', hx', hsx⟩ := (A.procs q a1 x hx _).1 (A.owner q a1 x hx)
        obtain ⟨e2, he2, hs2⟩ := K.whole q _ a1 hr e' a2 (by have := a3.1; omega) x a4 x' hx' hsx
        exact (A.procs p hp e he _).2 ⟨hr, e2, he2, a3.trans hs2⟩)
    (fun p q hp hq e e' he he' ht hs hse => by
      obtain ⟨v, v1, v2, ⟨r, x, a1, a2, a3, a4⟩, v4⟩ := hv p hp e he ht hs
      obtain ⟨v', v1', v2', ⟨r', x', a1', a2', a3', a4'⟩, v4'⟩ := hv q hq e' he' (hse.1 ▸ ht)
        (A.notOwned hp hq he he' hse hs)
      have : v = v' := leO_antisymm v2 v2' (v4 r' x' a1' a2' (hse.trans a3') _ a4')
        (v4' r x a1 a2 (hse.symm.trans a3) _ a4)
      unfold ownAt
      rw [v1, v1', this])
  refine ⟨S, A', fun p hp e he h => o1 p hp e he (by
    rcases h with h | h
    · exact Or.inl h
    · exact Or.inr (Or.inl h)), fun p hp e he ht hs => ?_⟩
  rcases hres p hp e he ht hs with ⟨h1, h⟩ | ⟨hne, ⟨q, e', x, a1, a2, a3, a4, h⟩, hall⟩
  · exact Or.inl ⟨h1, o1 p hp e he (Or.inr (Or.inr h))⟩
  · have h2 := o2 p hp e he ht hs hne
    refine Or.inr ⟨⟨q, e', x, a1, a2, a3, a4, ?_⟩, fun r f y hr hf hsf hy => ?_⟩
    · rw [h] at h2; exact_mod_cast h2
    · have := hall r f y hr hf hsf hy
      rw [← h2] at this
      exact_mod_cast this

end Verif.Parallel
