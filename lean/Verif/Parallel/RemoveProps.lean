import Verif.Parallel.RemoveStage

/-!
# Properties of RemoveGhost and RemoveGhostElements (C95, C96)
-/

namespace Verif.Parallel

section

variable {n k : Nat} {low : Nat → El → List El} {mk : Nat → El → Bool} {req : Nat → List El} {W W' : Nat → Part}

/-- The marked ghost cells. -/
def cellWant (mk : Nat → El → Bool) (W : Nat → Part) (p : Nat) (e : El) : Bool :=
  (W p).L.elems.contains e && (e.ty == 3 && mk p e && (W p).L.status e == .ghost)

theorem cellWant_iff {p : Nat} {e : El} : cellWant mk W p e = true ↔
    e ∈ (W p).L.elems ∧ e.ty = 3 ∧ mk p e = true ∧ (W p).L.status e = .ghost := by
  simp only [cellWant, Bool.and_eq_true, List.contains_iff_mem, beq_iff_eq]
  constructor
  · rintro ⟨a, ⟨b, c⟩, d⟩; exact ⟨a, b, c, d⟩
  · rintro ⟨a, b, c, d⟩; exact ⟨a, ⟨b, c⟩, d⟩

theorem cellWant_up (K : Whole n low (meshOf W)) (p : Nat) (hp : p < n) (e : El) (h : cellWant mk W p e = true) (x : El)
    (hx : x ∈ (W p).L.elems) : e ∉ low p x := by
  intro hm
  have h1 := K p hp x hx e hm
  have h2 := (cellWant_iff.1 h).2.1
  omega

theorem cellWant_false {p : Nat} {e : El} (he : e ∈ (W p).L.elems) (h : cellWant mk W p e = false) (h3 : e.ty = 3)
    (hm : mk p e = true) : (W p).L.status e ≠ .ghost := by
  intro hg
  rw [cellWant_iff.2 ⟨he, h3, hm, hg⟩] at h
  cases h

theorem cells_taken (A : Agreed n (meshOf W)) (S : Stored n W) (K : Whole n low (meshOf W))
    (hmk : ∀ p q, p < n → q < n → ∀ e e', e ∈ (meshOf W p).elems → e' ∈ (meshOf W q).elems → e.ty = 3 →
      SameElem (meshOf W) p e q e' → mk p e = mk q e') :
    Taken n (cellWant mk W) W (fun p => cellsOut p (low p) (mk p) (W p)) := by
  have hdead : ∀ p e, e ∈ ((W p).L.elems.filter fun e => e.ty == 3 && mk p e && (W p).L.status e == .ghost) ↔
      cellWant mk W p e = true := by
    intro p e
    simp only [List.mem_filter, cellWant, Bool.and_eq_true, List.contains_iff_mem]
  have helems : ∀ p, p < n → (cellsOut p (low p) (mk p) (W p)).L.elems =
      (W p).L.elems.filter fun e => !cellWant mk W p e := by
    intro p hp
    refine (removeEls_elems (fun e he x hx => (K p hp e he x hx).1) ?_).trans ?_
    · exact fun d hd x hx => cellWant_up K p hp d ((hdead p d).1 hd) x hx
    · show (W p).L.elems.filter _ = _
      refine List.filter_congr fun x _ => ?_
      congr 1
      rw [Bool.eq_iff_iff, List.contains_iff_mem]
      exact hdead p x
  have hmem : ∀ p, p < n → ∀ e, e ∈ (cellsOut p (low p) (mk p) (W p)).L.elems ↔
      e ∈ (W p).L.elems ∧ cellWant mk W p e = false := by
    intro p hp e
    rw [helems p hp, List.mem_filter]
    simp
  -- shared marked cells lose all ghosts, other elements lose none
  have hupd : ∀ p, p < n → ∀ e, e ∈ (W p).L.elems → (e.ty == 3 && mk p e && (W p).L.status e == .shared) = true →
      ∀ v, v ∈ (W p).L.procs e → (WantAt n (cellWant mk W) (meshOf W) p e v ↔ v ≠ p) := by
    intro p hp e he hu v hv
    simp only [Bool.and_eq_true, beq_iff_eq] at hu
    obtain ⟨⟨h3, hm⟩, hs⟩ := hu
    have ho := ((A.shared hp he).1 hs).1
    constructor
    · rintro ⟨_, e', he', hse, hw⟩ rfl
      have := A.unique v hp e e' he he' hse
      subst this
      have := (cellWant_iff.1 hw).2.2.2
      rw [hs] at this
      cases this
    · intro hne
      obtain ⟨hvn, e', he', hse⟩ := (A.procs p hp e he v).1 hv
      refine ⟨hvn, e', he', hse, cellWant_iff.2 ⟨he', by rw [← hse.1]; exact h3, ?_, ?_⟩⟩
      · rw [← hmk p v hp hvn e e' he he' h3 hse]; exact hm
      · refine (A.ghost hvn he').2 ?_
        rw [← A.same p v hp hvn e e' he he' hse, ho]
        exact Ne.symm hne
  have hno : ∀ p, p < n → ∀ e, e ∈ (W p).L.elems → cellWant mk W p e = false →
      (e.ty == 3 && mk p e && (W p).L.status e == .shared) = false → ∀ v, ¬ WantAt n (cellWant mk W) (meshOf W) p e v := by
    rintro p hp e he hwf hu v ⟨hv, e', he', hs, hw⟩
    obtain ⟨_, h3', hm', hg'⟩ := cellWant_iff.1 hw
    have h3 : e.ty = 3 := hs.1.trans h3'
    have hm : mk p e = true := by rw [hmk p v hp hv e e' he he' h3 hs]; exact hm'
    have hng := cellWant_false he hwf h3 hm
    have hns : (W p).L.status e ≠ .shared := by
      intro h
      rw [h3, hm, h] at hu
      simp at hu
    have hnw := A.notOwned hv hp he' he hs.symm (by rw [show (meshOf W v).status e' = _ from hg']; simp)
    have := A.status p hp e he
    rw [show (meshOf W p).status e = (W p).L.status e from rfl] at this hnw
    split at this
    · exact hnw this
    · split at this
      · exact hns this
      · exact hng this
  have hproc : ∀ p e, (cellsOut p (low p) (mk p) (W p)).L.procs e =
      if (e.ty == 3 && mk p e && (W p).L.status e == .shared) = true then [p] else (W p).L.procs e := fun _ _ => rfl
  have hstat : ∀ p e, (cellsOut p (low p) (mk p) (W p)).L.status e =
      if (e.ty == 3 && mk p e && (W p).L.status e == .shared) = true then .owned else (W p).L.status e := fun _ _ => rfl
  refine ⟨helems, fun _ _ => rfl, fun _ _ => rfl, ?_, ?_, ?_, ?_, ?_⟩
  · intro p hp e he
    rw [hproc]
    split
    · exact List.pairwise_singleton _ _
    · exact A.sorted p hp e ((hmem p hp e).1 he).1
  · intro p hp e he v
    obtain ⟨he0, hwf⟩ := (hmem p hp e).1 he
    rw [hproc]
    cases hu : (e.ty == 3 && mk p e && (W p).L.status e == .shared) with
    | true =>
      rw [if_pos rfl, List.mem_singleton]
      constructor
      · rintro rfl
        have hs := A.self hp he0
        exact ⟨hs, fun h => (hupd v hp e he0 hu v hs).1 h rfl⟩
      · rintro ⟨hv, hn⟩
        exact Classical.not_not.1 fun hne => hn ((hupd p hp e he0 hu v hv).2 hne)
    | false =>
      rw [if_neg (by simp)]
      exact ⟨fun h => ⟨h, hno p hp e he0 hwf hu v⟩, fun h => h.1⟩
  · intro p hp e he
    obtain ⟨he0, _⟩ := (hmem p hp e).1 he
    rw [hproc, hstat]
    cases hu : (e.ty == 3 && mk p e && (W p).L.status e == .shared) with
    | true => simp
    | false =>
      simp only [Bool.false_eq_true, if_false]
      split
      · rename_i h; exact (A.owned hp he0).2 h
      · rfl
  · intro p hp q i
    have hkey := sharedList_keys A hp q i
    show (((if i = 3 then takeOut (W p).L ((W p).sh q i) _ else (W p).sh q i)).map (W p).L.key).Pairwise (· < ·) ∧ ∀ e,
      e ∈ (if i = 3 then takeOut (W p).L ((W p).sh q i) _ else (W p).sh q i) ↔ _
    rw [(S p hp q i).1]
    by_cases hi : i = 3
    · rw [if_pos hi]
      have hsub : ∀ b, b ∈ ((W p).L.elems.flatMap fun e => if (e.ty == 3 && mk p e && (W p).L.status e == .shared) then
          (((W p).L.procs e).filter fun v => v == q && v != p).map fun _ => e else []) ↔
          b ∈ (W p).L.elems ∧ (b.ty == 3 && mk p b && (W p).L.status b == .shared) = true ∧ q ∈ (W p).L.procs b ∧ q ≠ p := by
        intro b
        rw [List.mem_flatMap]
        constructor
        · rintro ⟨a, ha, hb⟩
          split at hb
          · rename_i hc
            simp only [List.mem_map, List.mem_filter, Bool.and_eq_true, beq_iff_eq, bne_iff_ne] at hb
            obtain ⟨v, ⟨hv, rfl, h2⟩, rfl⟩ := hb
            exact ⟨ha, hc, hv, h2⟩
          · cases hb
        · rintro ⟨h1, h2, h3, h4⟩
          refine ⟨b, h1, ?_⟩
          rw [if_pos h2]
          simp only [List.mem_map, List.mem_filter, Bool.and_eq_true, beq_iff_eq, bne_iff_ne]
          exact ⟨q, ⟨h3, rfl, h4⟩, trivial⟩
      obtain ⟨x1, x2⟩ := takeOut_spec (L := (W p).L) (l := sharedList (fun _ => true) p (W p).L q i) hkey
        (del := (W p).L.elems.flatMap fun e => if (e.ty == 3 && mk p e && (W p).L.status e == .shared) then
          (((W p).L.procs e).filter fun v => v == q && v != p).map fun _ => e else []) (by
          intro a b ha hb hk
          have ha' := mem_sharedList.1 ha
          have hb' := (hsub b).1 hb
          have h3 : b.ty = 3 := by
            have := hb'.2.1
            simp only [Bool.and_eq_true, beq_iff_eq] at this
            exact this.1.1
          exact A.unique p hp b a hb'.1 ha'.1 ⟨by rw [h3, ha'.2.2.1, hi], hk⟩)
      refine ⟨x1, fun e => ?_⟩
      rw [x2 e, hsub]
      refine and_congr_right fun hm => not_congr ?_
      obtain ⟨he, _, hty, hst, hq, hne⟩ := mem_sharedList.1 hm
      constructor
      · rintro ⟨_, hu, _, _⟩
        exact (hupd p hp e he hu q hq).2 hne
      · intro hwa
        refine ⟨he, ?_, hq, hne⟩
        cases hu : (e.ty == 3 && mk p e && (W p).L.status e == .shared) with
        | true => rfl
        | false =>
          refine absurd hwa (hno p hp e he ?_ hu q)
          cases h : cellWant mk W p e with
          | false => rfl
          | true => have := (cellWant_iff.1 h).2.2.2; rw [hst] at this; cases this
    · rw [if_neg hi]
      refine ⟨hkey, fun e => ⟨fun hm => ⟨hm, ?_⟩, fun h => h.1⟩⟩
      obtain ⟨he, _, hty, _⟩ := mem_sharedList.1 hm
      rintro ⟨hv, e', he', hs, hw⟩
      have := (cellWant_iff.1 hw).2.1
      exact hi (hty.symm.trans (hs.1.trans this))
  · intro p hp q i
    have hkey := ghostList_keys A hp q i
    show (((if i = 3 then takeOut (W p).L ((W p).gh q i) _ else (W p).gh q i)).map (W p).L.key).Pairwise (· < ·) ∧ ∀ e,
      e ∈ (if i = 3 then takeOut (W p).L ((W p).gh q i) _ else (W p).gh q i) ↔ _
    rw [(S p hp q i).2]
    by_cases hi : i = 3
    · rw [if_pos hi]
      have hsub : ∀ b, b ∈ (((W p).L.elems.filter fun e => e.ty == 3 && mk p e && (W p).L.status e == .ghost).filter
          fun e => (W p).L.owner e == q) ↔ cellWant mk W p b = true ∧ (W p).L.owner b = q := by
        intro b
        rw [List.mem_filter, hdead p]
        simp
      obtain ⟨x1, x2⟩ := takeOut_spec (L := (W p).L) (l := ghostList (fun _ => true) (W p).L q i) hkey
        (del := ((W p).L.elems.filter fun e => e.ty == 3 && mk p e && (W p).L.status e == .ghost).filter
          fun e => (W p).L.owner e == q) (by
          intro a b ha hb hk
          have ha' := mem_ghostList.1 ha
          have hb' := cellWant_iff.1 ((hsub b).1 hb).1
          exact A.unique p hp b a hb'.1 ha'.1 ⟨by rw [hb'.2.1, ha'.2.2.1, hi], hk⟩)
      refine ⟨x1, fun e => ?_⟩
      rw [x2 e, hsub]
      refine and_congr_right fun hm => ?_
      have := (mem_ghostList.1 hm).2.2.2.2
      simp [this]
    · rw [if_neg hi]
      refine ⟨hkey, fun e => ⟨fun hm => ⟨hm, ?_⟩, fun h => h.1⟩⟩
      obtain ⟨he, _, hty, _⟩ := mem_ghostList.1 hm
      cases h : cellWant mk W p e with
      | false => rfl
      | true => exact absurd (hty.symm.trans (cellWant_iff.1 h).2.1) hi

theorem bare_iff {t p : Nat} {e : El} (A : Agreed n (meshOf W)) (hp : p < n) : bare t low W p e = true ↔
    e ∈ (W p).L.elems ∧ e.ty = t ∧ (W p).L.status e = .ghost ∧ ∀ x, x ∈ (W p).L.elems → e ∉ low p x := by
  simp only [bare, Bool.and_eq_true, List.contains_iff_mem, beq_iff_eq, bne_iff_ne, upper_zero]
  constructor
  · rintro ⟨⟨⟨⟨a, b⟩, c⟩, d⟩, f⟩
    refine ⟨a, b, ?_, f⟩
    have := A.status p hp e a
    rw [show (meshOf W p).status e = (W p).L.status e from rfl] at this
    split at this
    · exact absurd this c
    · split at this
      · exact absurd this d
      · exact this
  · rintro ⟨a, b, c, d⟩
    exact ⟨⟨⟨⟨a, b⟩, by rw [c]; simp⟩, by rw [c]; simp⟩, d⟩

theorem low_taken {t : Nat} (A : Agreed n (meshOf W)) (S : Stored n W) (K : Whole n low (meshOf W)) (ht : t < 5)
    (h : LowOut n k t low W W') : Taken n (bare t low W) W W' := by
  refine pass_taken A S K ht (fun p hp e h => ?_) (fun p hp e h => ?_) ?_ h
  · obtain ⟨a, b, c, _⟩ := (bare_iff A hp).1 h
    exact ⟨a, b, c⟩
  · exact ((bare_iff A hp).1 h).2.2.2
  · intro p hp L hLe hLs e he hty hst l _ _
    rw [Bool.eq_iff_iff, bare_iff A hp, hLs, Bool.and_eq_true, beq_iff_eq, beq_iff_eq, upper_zero, hLe]
    exact ⟨fun h => ⟨he, hty, h.1, h.2⟩, fun h => h.2.2⟩

/-- After the pass for type `t`: what is left of the types from `t` on is what is to be kept. -/
structure Prog (n t : Nat) (low : Nat → El → List El) (out : Nat → El → Prop) (W V : Nat → Part) : Prop where
  agreed : Agreed n (meshOf V)
  stored : Stored n V
  whole : Whole n low (meshOf V)
  elems : ∀ p, p < n → ∀ e, e ∈ (V p).L.elems ↔ e ∈ (W p).L.elems ∧ (t ≤ e.ty → Kept (W p).L (low p) (out p) e)
  ghost : ∀ p, p < n → ∀ e, e ∈ (V p).L.elems → ((V p).L.status e = .ghost ↔ (W p).L.status e = .ghost)
  owner : ∀ p, p < n → (V p).L.owner = (W p).L.owner
  key : ∀ p, p < n → (V p).L.key = (W p).L.key

theorem Kept.mem {p : Nat} (K : Whole n low (meshOf W)) (hp : p < n) {out : El → Prop} {e : El}
    (h : Kept (W p).L (low p) out e) : e ∈ (W p).L.elems := by
  induction h with
  | top h _ _ => exact h
  | own h _ => exact h
  | under _ hx ih => exact (K p hp _ ih _ hx).1

theorem Kept.top_iff {p : Nat} (K : Whole n low (meshOf W)) (hp : p < n) {out : El → Prop}
    (ho : ∀ e, out e → (W p).L.status e = .ghost) {e : El} (h3 : 3 ≤ e.ty) :
    Kept (W p).L (low p) out e ↔ e ∈ (W p).L.elems ∧ ¬ out e := by
  constructor
  · intro h
    cases h with
    | top a _ c => exact ⟨a, c⟩
    | own a b => exact ⟨a, fun h => b (ho e h)⟩
    | under hx hl =>
      exfalso
      have := K p hp _ (hx.mem K hp) e hl
      omega
  · rintro ⟨a, b⟩
    exact .top a h3 b

/-- The step from one type to the next lower one. -/
theorem Prog.next {t : Nat} {out : Nat → El → Prop} {V V' : Nat → Part} {want : Nat → El → Bool} (ht : t < 3)
    (K : Whole n low (meshOf W)) (P : Prog n (t + 1) low out W V) (T : Taken n want V V')
    (hw : ∀ p, p < n → ∀ e, want p e = bare t low V p e) : Prog n t low out W V' := by
  have hb : ∀ p, p < n → ∀ e, want p e = true ↔ e ∈ (V p).L.elems ∧ e.ty = t ∧ (V p).L.status e = .ghost ∧
      ∀ x, x ∈ (V p).L.elems → e ∉ low p x := fun p hp e => by rw [hw p hp e]; exact bare_iff P.agreed hp
  have hg : ∀ p, p < n → ∀ e, want p e = true → (meshOf V p).status e = .ghost := fun p hp e h =>
    ((hb p hp e).1 h).2.2.1
  have A' := T.agreed P.agreed hg
  refine ⟨A', T.stored P.agreed A' hg P.stored, T.whole P.whole (fun p hp e h => ((hb p hp e).1 h).2.2.2), ?_, ?_, ?_, ?_⟩
  · intro p hp e
    rw [T.mem hp, P.elems p hp]
    constructor
    · rintro ⟨⟨he, hk⟩, hwf⟩
      refine ⟨he, fun hte => ?_⟩
      by_cases hty : e.ty = t
      · have heV : e ∈ (V p).L.elems := (P.elems p hp e).2 ⟨he, hk⟩
        by_cases hgh : (W p).L.status e = .ghost
        · have : ¬ ∀ x, x ∈ (V p).L.elems → e ∉ low p x := by
            intro h
            rw [(hb p hp e).2 ⟨heV, hty, (P.ghost p hp e heV).2 hgh, h⟩] at hwf
            cases hwf
          obtain ⟨x, hx⟩ := Classical.not_forall.1 this
          obtain ⟨hxV, hxl⟩ := Classical.not_imp.1 hx
          have hxl' : e ∈ low p x := Classical.not_not.1 hxl
          have hxt := (P.whole p hp x hxV e hxl').2.1
          exact .under (((P.elems p hp x).1 hxV).2 (by omega)) hxl'
        · exact .own he hgh
      · exact hk (by omega)
    · rintro ⟨he, hk⟩
      refine ⟨⟨he, fun h => hk (by omega)⟩, ?_⟩
      cases h : want p e with
      | false => rfl
      | true =>
        exfalso
        obtain ⟨a, b, c, d⟩ := (hb p hp e).1 h
        have c' := (P.ghost p hp e a).1 c
        cases hk (by omega) with
        | top _ h3 _ => omega
        | own _ hn => exact hn c'
        | under hx hl =>
          have hxW := hx.mem K hp
          exact d _ ((P.elems p hp _).2 ⟨hxW, fun _ => hx⟩) hl
  · intro p hp e he
    have he0 := ((T.mem hp).1 he).1
    rw [T.ghost P.agreed A' hp he, P.ghost p hp e he0]
  · exact fun p hp => (T.owner p hp).trans (P.owner p hp)
  · exact fun p hp => (T.key p hp).trans (P.key p hp)

/-- The marker is the same on all copies of a cell. -/
def MarkAgreed (n : Nat) (mk : Nat → El → Bool) (W : Nat → Part) : Prop :=
  ∀ p q, p < n → q < n → ∀ e e', e ∈ (W p).L.elems → e' ∈ (W q).L.elems → e.ty = 3 →
    SameElem (meshOf W) p e q e' → mk p e = mk q e'

/-- What RemoveGhost takes away of cells. -/
def MarkedGhost (mk : Nat → El → Bool) (W : Nat → Part) (p : Nat) (e : El) : Prop :=
  e.ty = 3 ∧ mk p e = true ∧ (W p).L.status e = .ghost

theorem cells_prog (A : Agreed n (meshOf W)) (S : Stored n W) (K : Whole n low (meshOf W)) (hmk : MarkAgreed n mk W) :
    Prog n 3 low (MarkedGhost mk W) W (fun p => cellsOut p (low p) (mk p) (W p)) := by
  have T := cells_taken A S K hmk
  have hg : ∀ p, p < n → ∀ e, cellWant mk W p e = true → (meshOf W p).status e = .ghost := fun p _ e h =>
    (cellWant_iff.1 h).2.2.2
  have A' := T.agreed A hg
  refine ⟨A', T.stored A A' hg S, T.whole K (cellWant_up K), ?_, fun p hp e he => T.ghost A A' hp he, T.owner, T.key⟩
  intro p hp e
  rw [T.mem hp]
  refine and_congr_right fun he => ?_
  have hout : ∀ e, MarkedGhost mk W p e → (W p).L.status e = .ghost := fun e h => h.2.2
  constructor
  · intro hwf h3
    rw [Kept.top_iff K hp hout h3]
    refine ⟨he, fun h => ?_⟩
    rw [cellWant_iff.2 ⟨he, h.1, h.2.1, h.2.2⟩] at hwf
    cases hwf
  · intro hk
    cases h : cellWant mk W p e with
    | false => rfl
    | true =>
      obtain ⟨_, b, c, d⟩ := cellWant_iff.1 h
      exact absurd ⟨b, c, d⟩ ((Kept.top_iff K hp hout (by omega)).1 (hk (by omega))).2

theorem remove_prog (A : Agreed n (meshOf W)) (S : Stored n W) (K : Whole n low (meshOf W)) (hmk : MarkAgreed n mk W)
    (h : RemoveGhost n k low mk W W') : Prog n 0 low (MarkedGhost mk W) W W' := by
  obtain ⟨B, C, h2, h1, h0⟩ := h
  have P3 := cells_prog (low := low) A S K hmk
  have P2 := P3.next (t := 2) (by decide) K (low_taken P3.agreed P3.stored P3.whole (by decide) h2) fun _ _ _ => rfl
  have P1 := P2.next (t := 1) (by decide) K (low_taken P2.agreed P2.stored P2.whole (by decide) h1) fun _ _ _ => rfl
  exact P1.next (t := 0) (by decide) K (low_taken P1.agreed P1.stored P1.whole (by decide) h0) fun _ _ _ => rfl

end

/-- C95: RemoveGhost, called with a marker that is the same on all copies of a cell (or without), takes away the marked
ghost cells and the ghosts of lower types that nothing kept stands on, and nothing else; owners and numbers stay. -/
theorem C95_elements_partial (n k : Nat) (low : Nat → El → List El) (mk : Nat → El → Bool) (W W' : Nat → Part)
    (A : Agreed n (meshOf W)) (S : Stored n W) (K : Whole n low (meshOf W)) (hmk : MarkAgreed n mk W)
    (h : RemoveGhost n k low mk W W') (p : Nat) (hp : p < n) :
    (∀ e, e ∈ (W' p).L.elems ↔ Kept (W p).L (low p) (MarkedGhost mk W p) e) ∧
    (W' p).L.owner = (W p).L.owner ∧ (W' p).L.key = (W p).L.key := by
  have P := remove_prog A S K hmk h
  refine ⟨fun e => ?_, P.owner p hp, P.key p hp⟩
  rw [P.elems p hp]
  exact ⟨fun h => h.2 (Nat.zero_le _), fun h => ⟨h.mem K hp, fun _ => h⟩⟩

/-- C95: afterwards the mesh is consistent again: every list of processors names exactly the processors that still have the
element, the status fits, what an element stands on is there, and the stored lists of shared and ghost elements
are the right ones. -/
theorem C95_partition_partial (n k : Nat) (low : Nat → El → List El) (mk : Nat → El → Bool) (W W' : Nat → Part)
    (A : Agreed n (meshOf W)) (S : Stored n W) (K : Whole n low (meshOf W)) (hmk : MarkAgreed n mk W)
    (h : RemoveGhost n k low mk W W') :
    Agreed n (meshOf W') ∧ Stored n W' ∧ Whole n low (meshOf W') := by
  have P := remove_prog A S K hmk h
  exact ⟨P.agreed, P.stored, P.whole⟩

/-- C95: without a marker the cells that are left are those that were owned or shared, and all are owned. -/
theorem C95_cells (n k : Nat) (low : Nat → El → List El) (W W' : Nat → Part)
    (A : Agreed n (meshOf W)) (S : Stored n W) (K : Whole n low (meshOf W))
    (h : RemoveGhost n k low (fun _ _ => true) W W') (p : Nat) (hp : p < n) (c : El) (hc : c.ty = 3) :
    (c ∈ (W' p).L.elems ↔ c ∈ (W p).L.elems ∧ (W p).L.status c ≠ .ghost) ∧
    (c ∈ (W' p).L.elems → (W' p).L.status c = .owned ∧ (W' p).L.procs c = [p]) := by
  have hmk : MarkAgreed n (fun _ _ => true) W := fun _ _ _ _ _ _ _ _ _ _ => rfl
  have P := remove_prog A S K hmk h
  have E : ∀ q, q < n → ∀ c : El, c.ty = 3 → (c ∈ (W' q).L.elems ↔ c ∈ (W q).L.elems ∧ (W q).L.status c ≠ .ghost) := by
    intro q hq c hc
    rw [(C95_elements_partial n k low _ W W' A S K hmk h q hq).1,
      Kept.top_iff (out := MarkedGhost (fun _ _ => true) W q) K hq (fun e h => h.2.2) (by omega)]
    refine and_congr_right fun _ => not_congr ⟨fun h => h.2.2, fun h => ⟨hc, rfl, h⟩⟩
  refine ⟨E p hp c hc, fun hm => ?_⟩
  have hpr : (W' p).L.procs c = [p] := by
    refine single_of (P.agreed.sorted p hp c hm) fun q => ?_
    rw [show q ∈ (W' p).L.procs c ↔ _ from P.agreed.procs p hp c hm q]
    constructor
    · rintro ⟨hq, c', hc', hs⟩
      have h3 : c'.ty = 3 := hs.1.symm.trans hc
      have hg := ((E p hp c hc).1 hm).2
      have hg' := ((E q hq c' h3).1 hc').2
      have o1 : (W' p).L.owner c = p := by
        have := (P.agreed.ghost hp hm).not.1 (by rw [show (meshOf W' p).status c = .ghost ↔ _ from P.ghost p hp c hm]; exact hg)
        exact Classical.not_not.1 this
      have o2 : (W' q).L.owner c' = q := by
        have := (P.agreed.ghost hq hc').not.1
          (by rw [show (meshOf W' q).status c' = .ghost ↔ _ from P.ghost q hq c' hc']; exact hg')
        exact Classical.not_not.1 this
      rw [← o1, ← o2]
      exact (P.agreed.same p q hp hq c c' hm hc' hs).symm
    · rintro rfl
      exact ⟨hp, c, hm, rfl, rfl⟩
  exact ⟨(P.agreed.owned hp hm).2 hpr, hpr⟩

/-! ## RemoveGhostElements -/

section

variable {n k : Nat} {low : Nat → El → List El} {mk : Nat → El → Bool} {req : Nat → List El} {W W' : Nat → Part}

/-- The ghosts among the handles passed. -/
def AskedGhost (req : Nat → List El) (W : Nat → Part) (p : Nat) (e : El) : Prop :=
  e ∈ req p ∧ (W p).L.status e = .ghost

theorem mem_asked {t p : Nat} {e : El} : e ∈ asked t req W p ↔ e ∈ req p ∧ e.ty = t ∧ (W p).L.status e = .ghost := by
  simp only [asked, List.mem_filter, Bool.and_eq_true, beq_iff_eq]

theorem sum_zero {l : List Nat} {f : Nat → Nat} (h : (l.map f).sum = 0) : ∀ x, x ∈ l → f x = 0 := by
  induction l with
  | nil => intro x hx; cases hx
  | cons a l ih =>
    rw [List.map_cons, List.sum_cons] at h
    intro x hx
    rcases List.mem_cons.1 hx with rfl | hx
    · omega
    · exact ih (by omega) x hx

theorem elements_taken {t : Nat} (A : Agreed n (meshOf W)) (S : Stored n W) (K : Whole n low (meshOf W)) (ht : t < 5)
    (hreq : ∀ p, p < n → ∀ e, e ∈ req p → 3 ≤ e.ty) (hin : ∀ p, p < n → ∀ e, e ∈ req p → e.ty = t → e ∈ (W p).L.elems)
    (h : Pass n k t low (fun p e => (asked t req W p).contains e || (decide (t < 3) && bare t low W p e))
      (fun p L e => L.status e == .ghost && (sortRanks ((L.data k e).getD [])).contains p) true W W') :
    Taken n (fun p e => (asked t req W p).contains e || (decide (t < 3) && bare t low W p e)) W W' := by
  have hw : ∀ p, p < n → ∀ e, ((asked t req W p).contains e || (decide (t < 3) && bare t low W p e)) = true →
      (e ∈ (W p).L.elems ∧ e.ty = t ∧ (W p).L.status e = .ghost) ∧ ∀ x, x ∈ (W p).L.elems → e ∉ low p x := by
    intro p hp e h
    simp only [Bool.or_eq_true, List.contains_iff_mem, mem_asked, Bool.and_eq_true] at h
    rcases h with ⟨a, b, c⟩ | ⟨_, h⟩
    · refine ⟨⟨hin p hp e a b, b, c⟩, fun x hx hm => ?_⟩
      have h1 := K p hp x hx e hm
      have h2 := hreq p hp e a
      omega
    · obtain ⟨a, b, c, d⟩ := (bare_iff A hp).1 h
      exact ⟨⟨a, b, c⟩, d⟩
  refine pass_taken A S K ht (fun p hp e h => (hw p hp e h).1) (fun p hp e h => (hw p hp e h).2) ?_ h
  intro p hp L hLe hLs e he hty hst l hl hlm
  rw [Bool.eq_iff_iff, Bool.and_eq_true, beq_iff_eq, hLs, List.contains_iff_mem, (sortRanks_perm _).mem_iff, hl]
  have : p ∈ (if l = [] then none else some l : Option (List Nat)).getD [] ↔ p ∈ l := by
    split
    · rename_i h; rw [h]; rfl
    · rfl
  rw [this, hlm]
  constructor
  · rintro ⟨_, _, e', he', hs, hwe⟩
    rw [A.unique p hp e e' he he' hs]
    exact hwe
  · intro h
    exact ⟨(hw p hp e h).1.2.2, hp, e, he, ⟨rfl, rfl⟩, h⟩

theorem Prog.start (A : Agreed n (meshOf W)) (S : Stored n W) (K : Whole n low (meshOf W)) (out : Nat → El → Prop) :
    Prog n 5 low out W W :=
  ⟨A, S, K, fun p hp e => ⟨fun h => ⟨h, fun h5 => by have := A.types p hp e h; omega⟩, fun h => h.1⟩,
    fun _ _ _ _ => Iff.rfl, fun _ _ => rfl, fun _ _ => rfl⟩

/-- A turn of the loop of RemoveGhostElements. -/
theorem elements_next {t : Nat} {V V' : Nat → Part} (ht : t < 5) (K : Whole n low (meshOf W))
    (hreq : ∀ p, p < n → ∀ e, e ∈ req p → e ∈ (W p).L.elems ∧ 3 ≤ e.ty)
    (P : Prog n (t + 1) low (AskedGhost req W) W V) (h : ElementsOut n k t low req V V') :
    Prog n t low (AskedGhost req W) W V' := by
  have hin : ∀ p, p < n → ∀ e, e ∈ req p → e.ty = t → e ∈ (V p).L.elems := fun p hp e he hty =>
    (P.elems p hp e).2 ⟨(hreq p hp e he).1, fun h => by omega⟩
  have hout : ∀ p, ∀ e, AskedGhost req W p e → (W p).L.status e = .ghost := fun p e h => h.2
  unfold ElementsOut at h
  split at h
  · rename_i hc
    subst h
    have hno := sum_zero hc.2
    refine ⟨P.agreed, P.stored, P.whole, fun p hp e => ?_, P.ghost, P.owner, P.key⟩
    rw [P.elems p hp]
    refine and_congr_right fun he => ⟨fun h hte => ?_, fun h hte => h (by omega)⟩
    by_cases hty : e.ty = t
    · refine (Kept.top_iff K hp (hout p) (by omega)).2 ⟨he, fun ho => ?_⟩
      have heV := hin p hp e ho.1 hty
      have : e ∈ asked t req V' p := mem_asked.2 ⟨ho.1, hty, (P.ghost p hp e heV).2 ho.2⟩
      have h0 := hno p (List.mem_range.2 hp)
      rw [List.length_eq_zero_iff] at h0
      rw [h0] at this
      cases this
    · exact h (by omega)
  · have T := elements_taken P.agreed P.stored P.whole ht (fun p hp e he => (hreq p hp e he).2) hin h
    by_cases h3 : t < 3
    · refine P.next h3 K T fun p hp e => ?_
      have : asked t req V p = [] := by
        rw [List.eq_nil_iff_forall_not_mem]
        intro x hx
        have h1 := mem_asked.1 hx
        have h2 := (hreq p hp x h1.1).2
        omega
      simp [this, h3]
    · have hw : ∀ p, p < n → ∀ e, ((asked t req V p).contains e || (decide (t < 3) && bare t low V p e)) = true ↔
          e ∈ req p ∧ e.ty = t ∧ (V p).L.status e = .ghost := by
        intro p hp e
        simp only [Bool.or_eq_true, List.contains_iff_mem, mem_asked, Bool.and_eq_true, decide_eq_true_eq, h3,
          false_and, or_false]
      have hg : ∀ p, p < n → ∀ e, ((asked t req V p).contains e || (decide (t < 3) && bare t low V p e)) = true →
          (meshOf V p).status e = .ghost := fun p hp e h => ((hw p hp e).1 h).2.2
      have A' := T.agreed P.agreed hg
      refine ⟨A', T.stored P.agreed A' hg P.stored, T.whole P.whole ?_, ?_, ?_, ?_, ?_⟩
      · intro p hp e h x hx hm
        have h1 := P.whole p hp x hx e hm
        have h2 := ((hw p hp e).1 h).2.1
        omega
      · intro p hp e
        rw [T.mem hp, P.elems p hp, and_assoc]
        refine and_congr_right fun he => ?_
        constructor
        · rintro ⟨hk, hwf⟩ hte
          by_cases hty : e.ty = t
          · refine (Kept.top_iff K hp (hout p) (by omega)).2 ⟨he, fun ho => ?_⟩
            have heV := hin p hp e ho.1 hty
            rw [(hw p hp e).2 ⟨ho.1, hty, (P.ghost p hp e heV).2 ho.2⟩] at hwf
            cases hwf
          · exact hk (by omega)
        · intro hk
          refine ⟨fun h => hk (by omega), ?_⟩
          cases h : ((asked t req V p).contains e || (decide (t < 3) && bare t low V p e)) with
          | false => rfl
          | true =>
            obtain ⟨a, b, c⟩ := (hw p hp e).1 h
            have c' := (P.ghost p hp e (hin p hp e a b)).1 c
            exact absurd ⟨a, c'⟩ ((Kept.top_iff K hp (hout p) (by omega)).1 (hk (by omega))).2
      · intro p hp e he
        rw [T.ghost P.agreed A' hp he, P.ghost p hp e ((T.mem hp).1 he).1]
      · exact fun p hp => (T.owner p hp).trans (P.owner p hp)
      · exact fun p hp => (T.key p hp).trans (P.key p hp)

theorem elements_prog (A : Agreed n (meshOf W)) (S : Stored n W) (K : Whole n low (meshOf W))
    (hreq : ∀ p, p < n → ∀ e, e ∈ req p → e ∈ (W p).L.elems ∧ 3 ≤ e.ty)
    (h : RemoveGhostElements n k low req W W') : Prog n 0 low (AskedGhost req W) W W' := by
  obtain ⟨B, C, D, E, h4, h3, h2, h1, h0⟩ := h
  have P4 := elements_next (by decide) K hreq (Prog.start A S K _) h4
  have P3 := elements_next (by decide) K hreq P4 h3
  have P2 := elements_next (by decide) K hreq P3 h2
  have P1 := elements_next (by decide) K hreq P2 h1
  exact elements_next (by decide) K hreq P1 h0

end

/-- C96: RemoveGhostElements takes away the cells and sets passed that are ghosts, and the ghosts of lower types that
nothing kept stands on, and nothing else.  Every processor passes what it likes. -/
theorem C96_elements_partial (n k : Nat) (low : Nat → El → List El) (req : Nat → List El) (W W' : Nat → Part)
    (A : Agreed n (meshOf W)) (S : Stored n W) (K : Whole n low (meshOf W))
    (hreq : ∀ p, p < n → ∀ e, e ∈ req p → e ∈ (W p).L.elems ∧ 3 ≤ e.ty)
    (h : RemoveGhostElements n k low req W W') (p : Nat) (hp : p < n) :
    (∀ e, e ∈ (W' p).L.elems ↔ Kept (W p).L (low p) (AskedGhost req W p) e) ∧
    (W' p).L.owner = (W p).L.owner ∧ (W' p).L.key = (W p).L.key := by
  have P := elements_prog A S K hreq h
  refine ⟨fun e => ?_, P.owner p hp, P.key p hp⟩
  rw [P.elems p hp]
  exact ⟨fun h => h.2 (Nat.zero_le _), fun h => ⟨h.mem K hp, fun _ => h⟩⟩

/-- C96: afterwards the lists of processors name exactly the processors that still have the element, the status fits, and
the stored lists are the right ones. -/
theorem C96_partition_partial (n k : Nat) (low : Nat → El → List El) (req : Nat → List El) (W W' : Nat → Part)
    (A : Agreed n (meshOf W)) (S : Stored n W) (K : Whole n low (meshOf W))
    (hreq : ∀ p, p < n → ∀ e, e ∈ req p → e ∈ (W p).L.elems ∧ 3 ≤ e.ty)
    (h : RemoveGhostElements n k low req W W') :
    Agreed n (meshOf W') ∧ Stored n W' ∧ Whole n low (meshOf W') := by
  have P := elements_prog A S K hreq h
  exact ⟨P.agreed, P.stored, P.whole⟩

/-! ## The calls end -/

section

variable {n k : Nat} {low : Nat → El → List El} {mk : Nat → El → Bool} {req : Nat → List El} {W W' : Nat → Part}

/-- The mesh after the pass for the elements of type `t`. -/
inductive AfterOut (n k : Nat) (low : Nat → El → List El) (mk : Nat → El → Bool) (W : Nat → Part) : Nat → (Nat → Part) → Prop
  | cells : AfterOut n k low mk W 3 (fun p => cellsOut p (low p) (mk p) (W p))
  | low {t : Nat} {V V' : Nat → Part} : AfterOut n k low mk W (t + 1) V → LowOut n k t low V V' → AfterOut n k low mk W t V'

/-- The collective calls RemoveGhost makes, with the mesh at that time. -/
inductive RemoveCall (n k : Nat) (low : Nat → El → List El) (mk : Nat → El → Bool) (W : Nat → Part) :
    Call Nat → (Nat → Local Nat) → Prop
  | reduce {t : Nat} {V : Nat → Part} : AfterOut n k low mk W (t + 1) V →
      RemoveCall n k low mk W (reduceCall n [(k, delTag)] (fun i => i == t) deleteUnpack) (withDel k (bare t low V) V)
  | exchange {t : Nat} {V : Nat → Part} {G1 : Nat → Local Nat} : AfterOut n k low mk W (t + 1) V →
      Collective (reduceCall n [(k, delTag)] (fun i => i == t) deleteUnpack) (withDel k (bare t low V) V) G1 →
      RemoveCall n k low mk W (exchangeCall n [(k, delTag)] fun i => i == t) G1

theorem AfterOut.prog (A : Agreed n (meshOf W)) (S : Stored n W) (K : Whole n low (meshOf W)) (hmk : MarkAgreed n mk W)
    {t : Nat} {V : Nat → Part} (h : AfterOut n k low mk W t V) : t ≤ 3 ∧ Prog n t low (MarkedGhost mk W) W V := by
  induction h with
  | cells => exact ⟨by decide, cells_prog A S K hmk⟩
  | low _ hl ih =>
    obtain ⟨ht, P⟩ := ih
    exact ⟨by omega, P.next (by omega) K (low_taken P.agreed P.stored P.whole (by omega) hl) fun _ _ _ => rfl⟩

theorem bare_ghost (A : Agreed n (meshOf W)) {t : Nat} (p : Nat) (hp : p < n) (e : El) (h : bare t low W p e = true) :
    (meshOf W p).status e = .ghost := ((bare_iff A hp).1 h).2.2.1

end

/-- C95: RemoveGhost has an execution that ends; in none of its exchanges an assertion fails or the processors wait for
each other for ever. -/
theorem C95_terminates_partial (n k : Nat) (low : Nat → El → List El) (mk : Nat → El → Bool) (W : Nat → Part)
    (A : Agreed n (meshOf W)) (S : Stored n W) (K : Whole n low (meshOf W)) (hmk : MarkAgreed n mk W) :
    (∃ W', RemoveGhost n k low mk W W') ∧
    ∀ C G0, RemoveCall n k low mk W C G0 → ∀ tr Y, Run C G0 tr Y →
      (∀ ev, step C Y ev ≠ .failed) ∧ (¬ Done C Y → ∃ ev Y', step C Y ev = .ok Y') ∧ tr.length ≤ n + n * n := by
  constructor
  · have a3 : AfterOut n k low mk W 3 _ := .cells
    have P3 := (a3.prog A S K hmk).2
    obtain ⟨_, _, B, hB⟩ := pass_exists (k := k) (t := 2) (low := low) (os := false)
      (gone := fun p L e => L.status e == .ghost && upper (low p) L e == 0) P3.agreed (by decide) (bare_ghost P3.agreed)
    have P2 := ((AfterOut.low (t := 2) a3 hB).prog A S K hmk).2
    obtain ⟨_, _, C, hC⟩ := pass_exists (k := k) (t := 1) (low := low) (os := false)
      (gone := fun p L e => L.status e == .ghost && upper (low p) L e == 0) P2.agreed (by decide) (bare_ghost P2.agreed)
    have P1 := ((AfterOut.low (t := 1) (AfterOut.low (t := 2) a3 hB) hC).prog A S K hmk).2
    obtain ⟨_, _, D, hD⟩ := pass_exists (k := k) (t := 0) (low := low) (os := false)
      (gone := fun p L e => L.status e == .ghost && upper (low p) L e == 0) P1.agreed (by decide) (bare_ghost P1.agreed)
    exact ⟨D, B, C, hB, hC, hD⟩
  · intro C G0 hC tr Y hr
    have : CallOk C G0 ∧ C.n = n := by
      cases hC with
      | reduce h =>
        obtain ⟨ht, P⟩ := h.prog A S K hmk
        exact ⟨(pass_exists (low := low) (os := false) (gone := fun _ _ _ => false) P.agreed (by omega) (bare_ghost P.agreed)).1, rfl⟩
      | exchange h h1 =>
        obtain ⟨ht, P⟩ := h.prog A S K hmk
        exact ⟨(pass_exists (low := low) (os := false) (gone := fun _ _ _ => false) P.agreed (by omega) (bare_ghost P.agreed)).2.1
          _ h1, rfl⟩
    obtain ⟨H, hn'⟩ := this
    have I := run_inv H hr
    refine ⟨fun ev => (step_inv H I ev).1, progress H I, ?_⟩
    rw [← hn']
    exact run_length I

section

variable {n k : Nat} {low : Nat → El → List El} {req : Nat → List El} {W W' : Nat → Part}

theorem elements_exists {t : Nat} (A : Agreed n (meshOf W)) (ht : t < 5) : ∃ W', ElementsOut n k t low req W W' := by
  unfold ElementsOut
  split
  · exact ⟨W, rfl⟩
  · refine (pass_exists A ht fun p hp e h => ?_).2.2
    simp only [Bool.or_eq_true, List.contains_iff_mem, mem_asked, Bool.and_eq_true] at h
    rcases h with ⟨_, _, c⟩ | ⟨_, h⟩
    · exact c
    · exact ((bare_iff A hp).1 h).2.2.1

/-- The elements whose copies are deleted in the pass for type `t`. -/
def elWant (t : Nat) (low : Nat → El → List El) (req : Nat → List El) (V : Nat → Part) (p : Nat) (e : El) : Bool :=
  (asked t req V p).contains e || (decide (t < 3) && bare t low V p e)

theorem elWant_ghost {t : Nat} (A : Agreed n (meshOf W)) (p : Nat) (hp : p < n) (e : El)
    (h : elWant t low req W p e = true) : (meshOf W p).status e = .ghost := by
  simp only [elWant, Bool.or_eq_true, List.contains_iff_mem, mem_asked, Bool.and_eq_true] at h
  rcases h with ⟨_, _, c⟩ | ⟨_, h⟩
  · exact c
  · exact ((bare_iff A hp).1 h).2.2.1

/-- The mesh after the turn for the elements of type `t`. -/
inductive AfterEl (n k : Nat) (low : Nat → El → List El) (req : Nat → List El) (W : Nat → Part) : Nat → (Nat → Part) → Prop
  | start : AfterEl n k low req W 5 W
  | next {t : Nat} {V V' : Nat → Part} : AfterEl n k low req W (t + 1) V → ElementsOut n k t low req V V' →
      AfterEl n k low req W t V'

/-- The collective calls RemoveGhostElements can make, with the mesh at that time. -/
inductive ElementsCall (n k : Nat) (low : Nat → El → List El) (req : Nat → List El) (W : Nat → Part) :
    Call Nat → (Nat → Local Nat) → Prop
  | reduce {t : Nat} {V : Nat → Part} : AfterEl n k low req W (t + 1) V →
      ElementsCall n k low req W (reduceCall n [(k, delTag)] (fun i => i == t) deleteUnpack) (withDel k (elWant t low req V) V)
  | exchange {t : Nat} {V : Nat → Part} {G1 : Nat → Local Nat} : AfterEl n k low req W (t + 1) V →
      Collective (reduceCall n [(k, delTag)] (fun i => i == t) deleteUnpack) (withDel k (elWant t low req V) V) G1 →
      ElementsCall n k low req W (exchangeCall n [(k, delTag)] fun i => i == t) G1

theorem AfterEl.prog (A : Agreed n (meshOf W)) (S : Stored n W) (K : Whole n low (meshOf W))
    (hreq : ∀ p, p < n → ∀ e, e ∈ req p → e ∈ (W p).L.elems ∧ 3 ≤ e.ty)
    {t : Nat} {V : Nat → Part} (h : AfterEl n k low req W t V) : t ≤ 5 ∧ Prog n t low (AskedGhost req W) W V := by
  induction h with
  | start => exact ⟨by decide, Prog.start A S K _⟩
  | next _ hl ih =>
    obtain ⟨ht, P⟩ := ih
    exact ⟨by omega, elements_next (by omega) K hreq P hl⟩

end

/-- C96: RemoveGhostElements has an execution that ends; in none of its exchanges an assertion fails or the processors
wait for each other for ever. -/
theorem C96_terminates_partial (n k : Nat) (low : Nat → El → List El) (req : Nat → List El) (W : Nat → Part)
    (A : Agreed n (meshOf W)) (S : Stored n W) (K : Whole n low (meshOf W))
    (hreq : ∀ p, p < n → ∀ e, e ∈ req p → e ∈ (W p).L.elems ∧ 3 ≤ e.ty) :
    (∃ W', RemoveGhostElements n k low req W W') ∧
    ∀ C G0, ElementsCall n k low req W C G0 → ∀ tr Y, Run C G0 tr Y →
      (∀ ev, step C Y ev ≠ .failed) ∧ (¬ Done C Y → ∃ ev Y', step C Y ev = .ok Y') ∧ tr.length ≤ n + n * n := by
  constructor
  · obtain ⟨V4, h4⟩ := elements_exists (k := k) (low := low) (req := req) (t := 4) A (by decide)
    have P4 := elements_next (by decide) K hreq (Prog.start A S K _) h4
    obtain ⟨V3, h3⟩ := elements_exists (k := k) (low := low) (req := req) (t := 3) P4.agreed (by decide)
    have P3 := elements_next (by decide) K hreq P4 h3
    obtain ⟨V2, h2⟩ := elements_exists (k := k) (low := low) (req := req) (t := 2) P3.agreed (by decide)
    have P2 := elements_next (by decide) K hreq P3 h2
    obtain ⟨V1, h1⟩ := elements_exists (k := k) (low := low) (req := req) (t := 1) P2.agreed (by decide)
    have P1 := elements_next (by decide) K hreq P2 h1
    obtain ⟨V0, h0⟩ := elements_exists (k := k) (low := low) (req := req) (t := 0) P1.agreed (by decide)
    exact ⟨V0, V4, V3, V2, V1, h4, h3, h2, h1, h0⟩
  · intro C G0 hC tr Y hr
    have : CallOk C G0 ∧ C.n = n := by
      cases hC with
      | reduce h =>
        obtain ⟨ht, P⟩ := h.prog A S K hreq
        exact ⟨(pass_exists (low := low) (os := false) (gone := fun _ _ _ => false) P.agreed (by omega)
          (elWant_ghost P.agreed)).1, rfl⟩
      | exchange h h1 =>
        obtain ⟨ht, P⟩ := h.prog A S K hreq
        exact ⟨(pass_exists (low := low) (os := false) (gone := fun _ _ _ => false) P.agreed (by omega)
          (elWant_ghost P.agreed)).2.1 _ h1, rfl⟩
    obtain ⟨H, hn'⟩ := this
    have I := run_inv H hr
    refine ⟨fun ev => (step_inv H I ev).1, progress H I, ?_⟩
    rw [← hn']
    exact run_length I

/-! ## Two cells in a row -/

/-- Cells 0 and 1, faces 0, 1, 2; both processors have everything.  Processor 0 owns cell 0 and faces 0, 1. -/
def pairMesh : Nat → Part := fun p =>
  let L : Local Nat := {
    elems := if p < 2 then [⟨3, 0⟩, ⟨3, 1⟩, ⟨2, 0⟩, ⟨2, 1⟩, ⟨2, 2⟩] else []
    status := fun e => if (if e = ⟨3, 1⟩ ∨ e = ⟨2, 2⟩ then 1 else 0) = p then .shared else .ghost
    owner := fun e => if e = ⟨3, 1⟩ ∨ e = ⟨2, 2⟩ then 1 else 0
    procs := fun _ => [0, 1]
    key := fun e => e.id
    sel := fun _ => true
    data := fun _ _ => none }
  { L := L, sh := sharedList (fun _ => true) p L, gh := ghostList (fun _ => true) L }

def pairLow (_ : Nat) (e : El) : List El :=
  if e = ⟨3, 0⟩ then [⟨2, 0⟩, ⟨2, 1⟩] else if e = ⟨3, 1⟩ then [⟨2, 1⟩, ⟨2, 2⟩] else []

instance {G : Nat → Local Nat} {p q : Nat} {e e' : El} : Decidable (SameElem G p e q e') :=
  inferInstanceAs (Decidable (_ ∧ _))

/-- A check with bounds. -/
theorem agreedNat_of {n : Nat} {G : Nat → Local Nat}
    (h1 : ∀ p, p < n → (G p).elems.Nodup ∧ ∀ e, e ∈ (G p).elems → e.ty < 5 ∧ ((G p).procs e).Pairwise (· < ·) ∧
      (G p).owner e ∈ (G p).procs e ∧ (∀ e', e' ∈ (G p).elems → SameElem G p e p e' → e = e') ∧
      (G p).status e = if (G p).procs e = [p] then .owned else if (G p).owner e = p then .shared else .ghost)
    (h2 : ∀ p, p < n → ∀ e, e ∈ (G p).elems → (∀ q, q ∈ (G p).procs e → q < n ∧ ∃ e', e' ∈ (G q).elems ∧ SameElem G p e q e') ∧
      ∀ q, q < n → ∀ e', e' ∈ (G q).elems → SameElem G p e q e' → q ∈ (G p).procs e ∧ (G p).owner e = (G q).owner e') :
    Agreed n G where
  nodup p hp := (h1 p hp).1
  types p hp e he := ((h1 p hp).2 e he).1
  unique p hp e e' he he' := ((h1 p hp).2 e he).2.2.2.1 e' he'
  sorted p hp e he := ((h1 p hp).2 e he).2.1
  procs p hp e he q := ⟨(h2 p hp e he).1 q, fun ⟨hq, e', he', hs⟩ => ((h2 p hp e he).2 q hq e' he' hs).1⟩
  owner p hp e he := ((h1 p hp).2 e he).2.2.1
  same p q hp hq e e' he he' hs := ((h2 p hp e he).2 q hq e' he' hs).2
  status p hp e he := ((h1 p hp).2 e he).2.2.2.2

set_option synthInstance.maxSize 1000 in
set_option synthInstance.maxHeartbeats 400000 in
theorem pair_agreed : Agreed 2 (meshOf pairMesh) := agreedNat_of (by decide +kernel) (by decide +kernel)

theorem pair_stored : Stored 2 pairMesh := fun _ _ _ _ => ⟨rfl, rfl⟩

theorem pair_whole : Whole 2 pairLow (meshOf pairMesh) := by unfold Whole; decide +kernel

/-- The hypotheses are met: RemoveGhost leaves processor 0 its cell and the two faces of it, the face in the middle
is still shared, and is a ghost on processor 1. -/
example : ∃ W', RemoveGhost 2 0 pairLow (fun _ _ => true) pairMesh W' ∧
    ⟨3, 0⟩ ∈ (W' 0).L.elems ∧ ⟨3, 1⟩ ∉ (W' 0).L.elems ∧ ⟨2, 2⟩ ∉ (W' 0).L.elems ∧ ⟨2, 1⟩ ∈ (W' 0).L.elems ∧
    ⟨2, 1⟩ ∈ (W' 1).L.elems ∧ (W' 1).L.status ⟨2, 1⟩ = .ghost := by
  have hmk : MarkAgreed 2 (fun _ _ => true) pairMesh := fun _ _ _ _ _ _ _ _ _ _ => rfl
  obtain ⟨W', h⟩ := (C95_terminates_partial 2 0 pairLow _ pairMesh pair_agreed pair_stored pair_whole hmk).1
  have E := C95_elements_partial 2 0 pairLow _ pairMesh W' pair_agreed pair_stored pair_whole hmk h
  have P := remove_prog pair_agreed pair_stored pair_whole hmk h
  have c0 : Kept (pairMesh 0).L (pairLow 0) (MarkedGhost (fun _ _ => true) pairMesh 0) ⟨3, 0⟩ :=
    .own (by decide +kernel) (by decide +kernel)
  have n1 : ¬ Kept (pairMesh 0).L (pairLow 0) (MarkedGhost (fun _ _ => true) pairMesh 0) ⟨3, 1⟩ := by
    rw [Kept.top_iff (n := 2) (W := pairMesh) (out := MarkedGhost (fun _ _ => true) pairMesh 0) pair_whole (by decide)
      (fun e h => h.2.2) (by decide)]
    exact fun h => h.2 ⟨rfl, rfl, by decide +kernel⟩
  have c1 : Kept (pairMesh 1).L (pairLow 1) (MarkedGhost (fun _ _ => true) pairMesh 1) ⟨3, 1⟩ :=
    .own (by decide +kernel) (by decide +kernel)
  refine ⟨W', h, ((E 0 (by decide)).1 _).2 c0, fun h => n1 (((E 0 (by decide)).1 _).1 h), ?_,
    ((E 0 (by decide)).1 _).2 (.under c0 (by decide)), ((E 1 (by decide)).1 _).2 (.under c1 (by decide)), ?_⟩
  · intro h
    have hk := ((E 0 (by decide)).1 _).1 h
    cases hk with
    | top _ h3 _ => revert h3; decide
    | own _ h2 => exact h2 (by decide +kernel)
    | under hx hl =>
      rename_i x
      have : x = ⟨3, 1⟩ := by
        by_cases e1 : x = ⟨3, 0⟩
        · subst e1; revert hl; decide
        · by_cases e2 : x = ⟨3, 1⟩
          · exact e2
          · simp [pairLow, e1, e2] at hl
      subst this
      exact n1 hx
  · rw [P.ghost 1 (by decide) _ (((E 1 (by decide)).1 _).2 (.under c1 (by decide)))]
    decide +kernel

/-- Processor 1 gives cell 0 back, processor 0 keeps its ghost. -/
example : ∃ W', RemoveGhostElements 2 0 pairLow (fun p => if p = 1 then [⟨3, 0⟩] else []) pairMesh W' ∧
    ⟨3, 0⟩ ∉ (W' 1).L.elems ∧ ⟨3, 1⟩ ∈ (W' 0).L.elems ∧ (W' 0).L.status ⟨3, 0⟩ = .owned := by
  have hreq : ∀ p, p < 2 → ∀ e, e ∈ (if p = 1 then [⟨3, 0⟩] else [] : List El) → e ∈ (pairMesh p).L.elems ∧ 3 ≤ e.ty := by
    decide +kernel
  obtain ⟨W', h⟩ := (C96_terminates_partial 2 0 pairLow _ pairMesh pair_agreed pair_stored pair_whole hreq).1
  have E := C96_elements_partial 2 0 pairLow _ pairMesh W' pair_agreed pair_stored pair_whole hreq h
  obtain ⟨A', _, _⟩ := C96_partition_partial 2 0 pairLow _ pairMesh W' pair_agreed pair_stored pair_whole hreq h
  have n1 : ⟨3, 0⟩ ∉ (W' 1).L.elems := by
    rw [(E 1 (by decide)).1, Kept.top_iff (n := 2) (W := pairMesh)
      (out := AskedGhost (fun p => if p = 1 then [⟨3, 0⟩] else []) pairMesh 1) pair_whole (by decide)
      (fun e h => h.2) (by decide)]
    exact fun h => h.2 ⟨by decide, by decide +kernel⟩
  have c0 : ⟨3, 0⟩ ∈ (W' 0).L.elems := ((E 0 (by decide)).1 _).2 (.own (by decide +kernel) (by decide +kernel))
  refine ⟨W', h, n1, ((E 0 (by decide)).1 _).2 (.top (by decide +kernel) (by decide) ?_), ?_⟩
  · rintro ⟨h, _⟩
    revert h
    decide
  · refine (A'.owned (by decide) c0).2 (single_of (A'.sorted 0 (by decide) _ c0) fun q => ?_)
    rw [A'.procs 0 (by decide) _ c0]
    constructor
    · rintro ⟨hq, e', he', hs⟩
      have : q = 0 ∨ q = 1 := by omega
      rcases this with rfl | rfl
      · rfl
      · exfalso
        refine n1 ?_
        have hk : (W' 1).L.key e' = e'.id := by rw [(E 1 (by decide)).2.2]; rfl
        have hk0 : (W' 0).L.key ⟨3, 0⟩ = 0 := by rw [(E 0 (by decide)).2.2]; rfl
        have h1 : (3 : Nat) = e'.ty := hs.1
        have h2 : (W' 0).L.key ⟨3, 0⟩ = (W' 1).L.key e' := hs.2
        rw [hk, hk0] at h2
        have : e' = ⟨3, 0⟩ := by
          cases e'
          simp only at h1 h2
          rw [El.mk.injEq]
          omega
        rw [← this]
        exact he'
    · rintro rfl
      exact ⟨by decide, _, c0, rfl, rfl⟩

/-! ## What goes wrong -/

/-- If no processor has elements of the type, nothing is sent. -/
theorem idle {C : Call Nat} {t : Nat} {G : Nat → Local Nat} (hm : C.mask = fun i => i == t)
    (h : ∀ p, p < C.n → ∀ e, e ∈ (G p).elems → e.ty ≠ t) : Collective C G G := by
  have hs : ∀ me, ∀ (L : Local Nat), (∀ e, e ∈ L.elems → e.ty ≠ t) → ∀ q i, C.mask i = true →
      sharedList C.mask me L q i = [] ∧ ghostList C.mask L q i = [] := by
    intro me L hL q i hi
    rw [hm] at hi
    have hi' : i = t := by simpa using hi
    constructor
    · rw [List.eq_nil_iff_forall_not_mem]
      intro x hx
      have := mem_sharedList.1 hx
      exact hL x this.1 (this.2.2.1.trans hi')
    · rw [List.eq_nil_iff_forall_not_mem]
      intro x hx
      have := mem_ghostList.1 hx
      exact hL x this.1 (this.2.2.1.trans hi')
  have hz : ∀ (L : Local Nat) (els : Nat → List El), (∀ i, C.mask i = true → els i = []) → listSize C L els = 0 := by
    intro L els hels
    unfold listSize
    have : ((List.range 5).map fun i => if C.mask i then ((els i).filter L.sel).length else 0) =
        (List.range 5).map fun _ => 0 := by
      refine List.map_congr_left fun i _ => ?_
      split
      · rename_i hi; rw [hels i hi]; rfl
      · rfl
    rw [this]
    rfl
  have h0 : ∀ p, p < C.n → ∀ q, listSize C (G p) (fromList C p (G p) q) = 0 ∧ listSize C (G p) (toList C p (G p) q) = 0 := by
    intro p hp q
    constructor
    · refine hz _ _ fun i hi => ?_
      unfold fromList
      split
      · exact (hs p (G p) (h p hp) q i hi).2
      · exact (hs p (G p) (h p hp) q i hi).1
    · refine hz _ _ fun i hi => ?_
      unfold toList
      split
      · exact (hs p (G p) (h p hp) q i hi).1
      · exact (hs p (G p) (h p hp) q i hi).2
  have hr : ∀ p, p < C.n → recvFrom C p (G p) = [] := by
    intro p hp
    unfold recvFrom
    rw [List.filter_eq_nil_iff]
    intro q _
    rw [(h0 p hp q).2]
    simp
  have key : ∀ m, m ≤ C.n → ∃ tr S, Run C G tr S ∧ S.loc = G ∧ (∀ p, S.begun p = decide (p < m)) ∧ ∀ p, S.wait p = [] := by
    intro m
    induction m with
    | zero => exact fun _ => ⟨[], _, .nil, rfl, fun p => by simp [initSys], fun _ => rfl⟩
    | succ m ih =>
      intro hmn
      obtain ⟨tr, S, h1, h2, h3, h4⟩ := ih (by omega)
      have hst : step C S (.start m) = Res.ok { S with
          begun := fun x => if x = m then true else S.begun x
          net := fun x q => if x = m then if q ∈ sendTo C m (S.loc m) then some (message C m (S.loc m) q) else none
            else S.net x q
          wait := fun x => if x = m then recvFrom C m (S.loc m) else S.wait x } := by
        show (if m < C.n ∧ S.begun m = false then _ else Res.blocked) = _
        rw [if_pos ⟨by omega, by rw [h3]; simp⟩]
      refine ⟨_, _, .snoc (ev := .start m) h1 hst, h2, fun p => ?_, fun p => ?_⟩
      · show (if p = m then true else S.begun p) = _
        split
        · rename_i e; subst e; simp
        · rw [h3]; exact decide_eq_decide.2 (by omega)
      · show (if p = m then recvFrom C m (S.loc m) else S.wait p) = []
        split
        · rw [h2]; exact hr m (by omega)
        · exact h4 p
  obtain ⟨tr, S, h1, h2, h3, h4⟩ := key C.n (Nat.le_refl _)
  exact ⟨tr, S, h1, fun p hp => ⟨by rw [h3]; simpa using hp, h4 p⟩, h2.symm⟩

/-- A pass without elements of the type. -/
theorem pass_idle {n k t : Nat} {low : Nat → El → List El} {want : Nat → El → Bool} {gone : Nat → Local Nat → El → Bool}
    {os : Bool} {W : Nat → Part} (h : ∀ p, p < n → ∀ e, e ∈ (W p).L.elems → e.ty ≠ t) :
    ∃ W', Pass n k t low want gone os W W' ∧ ∀ p, p < n → (W' p).L.elems = (W p).L.elems ∧
      ∀ e, e ∈ (W p).L.elems → (W' p).L.status e = (W p).L.status e ∧ (W' p).L.procs e = (W p).L.procs e := by
  refine ⟨_, ⟨withDel k want W, withDel k want W, idle rfl h, idle rfl h, rfl⟩, fun p hp => ?_⟩
  have hd : ((withDel k want W p).elems.filter fun e => e.ty == t && (withDel k want W p).status e != .owned &&
      gone p (withDel k want W p) e) = [] := by
    rw [List.filter_eq_nil_iff]
    intro e he
    have := h p hp e he
    simp [this]
  have hf : ∀ j x, doomed (low p) [] j x = false := by
    intro j
    induction j with
    | zero => exact fun _ => rfl
    | succ j ih =>
      intro x
      rw [doomed]
      have : (low p x).any (doomed (low p) [] j) = false := by
        rw [List.any_eq_false]
        intro y _
        rw [ih y]
        simp
      rw [this]
      rfl
  refine ⟨?_, fun e he => ?_⟩
  · show List.filter (fun x => !doomed (low p) ((withDel k want W p).elems.filter fun e => e.ty == t &&
      (withDel k want W p).status e != .owned && gone p (withDel k want W p) e) 3 x) (W p).L.elems = _
    rw [hd]
    exact List.filter_eq_self.2 fun x _ => by rw [hf]; rfl
  · have := h p hp e he
    have hu : (e.ty == t && (withDel k want W p).status e != .owned && !gone p (withDel k want W p) e &&
      ((withDel k want W p).data k e).isSome) = false := by simp [this]
    constructor
    · show (if ((e.ty == t && (withDel k want W p).status e != .owned && !gone p (withDel k want W p) e &&
        ((withDel k want W p).data k e).isSome) && _) = true then Status.owned else (W p).L.status e) = _
      rw [hu]
      rfl
    · show (if (e.ty == t && (withDel k want W p).status e != .owned && !gone p (withDel k want W p) e &&
        ((withDel k want W p).data k e).isSome) = true then _ else (W p).L.procs e) = _
      rw [hu]
      rfl

/-- One cell, owned by processor 0, with a ghost on processor 1. -/
def oneMesh : Nat → Part := fun p =>
  let L : Local Nat := {
    elems := if p < 2 then [⟨3, 0⟩] else []
    status := fun _ => if p = 0 then .shared else .ghost
    owner := fun _ => 0
    procs := fun _ => [0, 1]
    key := fun e => e.id
    sel := fun _ => true
    data := fun _ _ => none }
  { L := L, sh := sharedList (fun _ => true) p L, gh := ghostList (fun _ => true) L }

set_option synthInstance.maxSize 1000 in
set_option synthInstance.maxHeartbeats 400000 in
theorem one_agreed : Agreed 2 (meshOf oneMesh) := agreedNat_of (by decide +kernel) (by decide +kernel)

/-- C95 needs a marker that is the same on all copies: if it is set on a ghost only, the ghost is deleted, and
the owner still lists the processor, as if there were a ghost. -/
theorem C95_marker_fails : ∃ (low : Nat → El → List El) (mk : Nat → El → Bool) (W W' : Nat → Part) (c : El),
    Agreed 2 (meshOf W) ∧ Stored 2 W ∧ Whole 2 low (meshOf W) ∧ RemoveGhost 2 0 low mk W W' ∧
    c ∈ (W 1).L.elems ∧ c ∉ (W' 1).L.elems ∧ (W' 0).L.status c = .shared ∧ (W' 0).L.procs c = [0, 1] := by
  have hty : ∀ p, ∀ e, e ∈ (cellsOut p (fun _ => []) (fun _ => p == 1) (oneMesh p)).L.elems → e = ⟨3, 0⟩ ∧ p = 0 := by
    intro p e he
    have h1 : e ∈ (oneMesh p).L.elems ∧ _ := List.mem_filter.1 he
    have h2 : e ∈ (if p < 2 then [⟨3, 0⟩] else [] : List El) := h1.1
    split at h2
    · have h3 := List.mem_singleton.1 h2
      subst h3
      refine ⟨rfl, ?_⟩
      have : p = 0 ∨ p = 1 := by omega
      rcases this with rfl | rfl
      · rfl
      · exfalso
        revert he
        decide +kernel
    · cases h2
  obtain ⟨B, hB, eB⟩ := pass_idle (n := 2) (k := 0) (t := 2) (low := fun _ _ => []) (os := false)
    (want := bare 2 (fun _ _ => []) fun p => cellsOut p (fun _ => []) (fun _ => p == 1) (oneMesh p))
    (gone := fun p L e => L.status e == .ghost && upper (fun _ => []) L e == 0)
    (W := fun p => cellsOut p (fun _ => []) (fun _ => p == 1) (oneMesh p)) (fun p _ e he => by rw [(hty p e he).1]; decide)
  obtain ⟨C, hC, eC⟩ := pass_idle (n := 2) (k := 0) (t := 1) (low := fun _ _ => []) (os := false)
    (want := bare 1 (fun _ _ => []) B)
    (gone := fun p L e => L.status e == .ghost && upper (fun _ => []) L e == 0)
    (W := B) (fun p hp e he => by rw [(eB p hp).1] at he; rw [(hty p e he).1]; decide)
  obtain ⟨D, hD, eD⟩ := pass_idle (n := 2) (k := 0) (t := 0) (low := fun _ _ => []) (os := false)
    (want := bare 0 (fun _ _ => []) C)
    (gone := fun p L e => L.status e == .ghost && upper (fun _ => []) L e == 0)
    (W := C) (fun p hp e he => by rw [(eC p hp).1, (eB p hp).1] at he; rw [(hty p e he).1]; decide)
  have m0 : ⟨3, 0⟩ ∈ (cellsOut 0 (fun _ => []) (fun _ => (0 : Nat) == 1) (oneMesh 0)).L.elems := by decide +kernel
  have m1 : ⟨3, 0⟩ ∈ (B 0).L.elems := by rw [(eB 0 (by decide)).1]; exact m0
  have m2 : ⟨3, 0⟩ ∈ (C 0).L.elems := by rw [(eC 0 (by decide)).1]; exact m1
  refine ⟨fun _ _ => [], fun p _ => p == 1, oneMesh, D, ⟨3, 0⟩,
    one_agreed, fun _ _ _ _ => ⟨rfl, rfl⟩, by unfold Whole; decide +kernel,
    ⟨B, C, hB, hC, hD⟩, by decide +kernel, ?_, ?_, ?_⟩
  · rw [(eD 1 (by decide)).1, (eC 1 (by decide)).1, (eB 1 (by decide)).1]
    decide +kernel
  · rw [((eD 0 (by decide)).2 _ m2).1, ((eC 0 (by decide)).2 _ m1).1, ((eB 0 (by decide)).2 _ m0).1]
    decide +kernel
  · rw [((eD 0 (by decide)).2 _ m2).2, ((eC 0 (by decide)).2 _ m1).2, ((eB 0 (by decide)).2 _ m0).2]
    decide +kernel

/-- C96: "Non-ghost elements will also be deleted" says the documentation (inmost_mesh.h L2549); they are not. -/
theorem C96_nonghost_fails : ∃ (low : Nat → El → List El) (req : Nat → List El) (W W' : Nat → Part) (c : El),
    Agreed 2 (meshOf W) ∧ Stored 2 W ∧ Whole 2 low (meshOf W) ∧ RemoveGhostElements 2 0 low req W W' ∧
    c ∈ req 0 ∧ c.ty = 3 ∧ c ∈ (W' 0).L.elems := by
  have hreq : ∀ p, p < 2 → ∀ e, e ∈ (if p = 0 then [⟨3, 0⟩] else [] : List El) → e ∈ (pairMesh p).L.elems ∧ 3 ≤ e.ty := by
    decide +kernel
  obtain ⟨W', h⟩ := (C96_terminates_partial 2 0 pairLow (fun p => if p = 0 then [⟨3, 0⟩] else []) pairMesh pair_agreed
    pair_stored pair_whole hreq).1
  have E := C96_elements_partial 2 0 pairLow _ pairMesh W' pair_agreed pair_stored pair_whole hreq h
  exact ⟨pairLow, _, pairMesh, W', ⟨3, 0⟩, pair_agreed, pair_stored, pair_whole, h, by decide, rfl,
    ((E 0 (by decide)).1 _).2 (.own (by decide +kernel) (by decide +kernel))⟩

/-- Each processor has a cell of its own; the face between them is shared, its owner is processor 0. -/
def wallMesh : Nat → Part := fun p =>
  let L : Local Nat := {
    elems := if p < 2 then [⟨3, p⟩, ⟨2, 0⟩] else []
    status := fun e => if e.ty = 3 then .owned else if p = 0 then .shared else .ghost
    owner := fun e => if e.ty = 3 then e.id else 0
    procs := fun e => if e.ty = 3 then [p] else [0, 1]
    key := fun e => e.id
    sel := fun _ => true
    data := fun _ _ => none }
  { L := L, sh := sharedList (fun _ => true) p L, gh := ghostList (fun _ => true) L }

def wallLow (_ : Nat) (e : El) : List El := if e.ty = 3 then [⟨2, 0⟩] else []

set_option synthInstance.maxSize 1000 in
set_option synthInstance.maxHeartbeats 400000 in
/-- C96: "request for deletion of elements of lower level then cell will be simply ignored" says the documentation
(inmost_mesh.h L2562-2564).  A ghost face that is passed is deleted, with the cell that stands on it, which the
processor owns and did not pass. -/
theorem C96_lower_fails : ∃ (low : Nat → El → List El) (req : Nat → List El) (W W' : Nat → Part) (f c : El),
    Agreed 2 (meshOf W) ∧ Stored 2 W ∧ Whole 2 low (meshOf W) ∧ RemoveGhostElements 2 0 low req W W' ∧
    req 1 = [f] ∧ f.ty = 2 ∧ f ∈ (W 1).L.elems ∧ c ∈ (W 1).L.elems ∧ (W 1).L.status c = .owned ∧ c ∉ (W' 1).L.elems := by
  have A : Agreed 2 (meshOf wallMesh) := agreedNat_of (by decide +kernel) (by decide +kernel)
  have hw : ∀ p, p < 2 → ∀ e, elWant 2 wallLow (fun p => if p = 1 then [⟨2, 0⟩] else []) wallMesh p e = true →
      (meshOf wallMesh p).status e = .ghost := fun p hp e h => elWant_ghost A p hp e h
  obtain ⟨_, _, C, hC⟩ := pass_exists (n := 2) (k := 0) (t := 2) (low := wallLow) (os := true) (W := wallMesh)
    (want := elWant 2 wallLow (fun p => if p = 1 then [⟨2, 0⟩] else []) wallMesh)
    (gone := fun p L e => L.status e == .ghost && (sortRanks ((L.data 0 e).getD [])).contains p) A (by decide) hw
  have hC' := hC
  obtain ⟨G1, G2, g1, g2, gC⟩ := hC'
  obtain ⟨s2, hd⟩ := del_data A (by decide) hw g1 g2
  obtain ⟨l, l1, l2, l3⟩ := hd 1 (by decide) ⟨2, 0⟩ (by decide +kernel) rfl (by decide +kernel)
  have hl : 1 ∈ l := (l3 1).2 ⟨by decide, ⟨2, 0⟩, by decide +kernel, ⟨rfl, rfl⟩, by decide +kernel⟩
  have e1 : (G2 1).elems = [⟨3, 1⟩, ⟨2, 0⟩] := s2.elems 1 (by decide)
  have st : (G2 1).status = (wallMesh 1).L.status := s2.status 1 (by decide)
  have hgone : ((G2 1).status ⟨2, 0⟩ == .ghost && (sortRanks (((G2 1).data 0 ⟨2, 0⟩).getD [])).contains 1) = true := by
    rw [Bool.and_eq_true, st, List.contains_iff_mem, (sortRanks_perm _).mem_iff, l1, if_neg (by intro h; rw [h] at hl; cases hl)]
    exact ⟨by decide +kernel, hl⟩
  have hdead : ⟨2, 0⟩ ∈ (G2 1).elems.filter fun e => e.ty == 2 && (G2 1).status e != .owned &&
      ((G2 1).status e == .ghost && (sortRanks (((G2 1).data 0 e).getD [])).contains 1) := by
    rw [List.mem_filter, Bool.and_eq_true]
    refine ⟨by rw [e1]; decide, ?_, hgone⟩
    rw [st]
    decide +kernel
  have hc1 : ⟨3, 1⟩ ∉ (C 1).L.elems := by
    rw [gC]
    show ⟨3, 1⟩ ∉ List.filter (fun x => !doomed (wallLow 1) ((G2 1).elems.filter fun e => e.ty == 2 &&
      (G2 1).status e != .owned && ((G2 1).status e == .ghost && (sortRanks (((G2 1).data 0 e).getD [])).contains 1)) 3 x) _
    rw [List.mem_filter]
    rintro ⟨_, h⟩
    rw [doomed] at h
    have : (wallLow 1 ⟨3, 1⟩).any (doomed (wallLow 1) ((G2 1).elems.filter fun e => e.ty == 2 &&
        (G2 1).status e != .owned && ((G2 1).status e == .ghost && (sortRanks (((G2 1).data 0 e).getD [])).contains 1)) 2) = true := by
      rw [List.any_eq_true]
      refine ⟨⟨2, 0⟩, by decide, ?_⟩
      rw [doomed, Bool.or_eq_true, List.contains_iff_mem]
      exact Or.inl hdead
    rw [this] at h
    simp at h
  have sub : ∀ p, p < 2 → ∀ e, e ∈ (C p).L.elems → 2 ≤ e.ty := by
    intro p hp e he
    rw [gC] at he
    have h1 : e ∈ (G2 p).elems := (List.mem_filter.1 he).1
    rw [s2.elems p hp] at h1
    clear he
    revert e
    revert p
    decide +kernel
  obtain ⟨D, hD, eD⟩ := pass_idle (n := 2) (k := 0) (t := 1) (low := wallLow) (os := true) (W := C)
    (want := elWant 1 wallLow (fun p => if p = 1 then [⟨2, 0⟩] else []) C)
    (gone := fun p L e => L.status e == .ghost && (sortRanks ((L.data 0 e).getD [])).contains p)
    (fun p hp e he => by have := sub p hp e he; omega)
  obtain ⟨E, hE, eE⟩ := pass_idle (n := 2) (k := 0) (t := 0) (low := wallLow) (os := true) (W := D)
    (want := elWant 0 wallLow (fun p => if p = 1 then [⟨2, 0⟩] else []) D)
    (gone := fun p L e => L.status e == .ghost && (sortRanks ((L.data 0 e).getD [])).contains p)
    (fun p hp e he => by rw [(eD p hp).1] at he; have := sub p hp e he; omega)
  refine ⟨wallLow, fun p => if p = 1 then [⟨2, 0⟩] else [], wallMesh, E, ⟨2, 0⟩, ⟨3, 1⟩, A, fun _ _ _ _ => ⟨rfl, rfl⟩,
    by unfold Whole; decide +kernel, ⟨wallMesh, wallMesh, C, D, ?_, ?_, ?_, ?_, ?_⟩, rfl, rfl, by decide +kernel,
    by decide +kernel, by decide +kernel, ?_⟩
  · unfold ElementsOut
    rw [if_pos (by decide +kernel)]
  · unfold ElementsOut
    rw [if_pos (by decide +kernel)]
  · unfold ElementsOut
    rw [if_neg (by omega)]
    exact hC
  · unfold ElementsOut
    rw [if_neg (by omega)]
    exact hD
  · unfold ElementsOut
    rw [if_neg (by omega)]
    exact hE
  · rw [(eE 1 (by decide)).1, (eD 1 (by decide)).1]
    exact hc1

end Verif.Parallel
