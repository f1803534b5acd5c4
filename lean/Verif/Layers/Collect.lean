import Verif.Parallel.Agreed

/-!
# ReduceData with an operation that collects, then ExchangeData

All copies of an element end with what any of them had.
-/

namespace Verif.Parallel

variable {A : Type}

/-- An operation that changes nothing on an empty value, and combines lists otherwise. -/
def listOp (f : List A → List A → List A) : Op A := fun _ _ d x =>
  match x with
  | [] => some d
  | a :: l => some (some (f (d.getD []) (a :: l)))

/-- A new tag `k` with the given values; no selection. -/
def tagged (k : Nat) (init : Nat → El → Option (List A)) (G : Nat → Local A) : Nat → Local A := fun p =>
  { G p with sel := fun _ => true, data := setTag (G p).data k (init p) }

/-- A sparse tag of variable size. -/
def sparseTag (mask : Nat → Bool) : TagInfo := ⟨none, mask, mask⟩

/-- ReduceData and ExchangeData with a tag, one after the other. -/
def CollectTag (n k : Nat) (T : TagInfo) (mask : Nat → Bool) (op : Op A) (init : Nat → El → Option (List A))
    (G G2 : Nat → Local A) : Prop :=
  ∃ G1, Collective (reduceCall n [(k, T)] mask op) (tagged k init G) G1 ∧ Collective (exchangeCall n [(k, T)] mask) G1 G2

/-- ReduceData and ExchangeData with a sparse tag. -/
def CollectRun (n k : Nat) (mask : Nat → Bool) (op : Op A) (init : Nat → El → Option (List A)) (G G2 : Nat → Local A) : Prop :=
  CollectTag n k (sparseTag mask) mask op init G G2

theorem listOp_safe (f : List A → List A → List A) {T : TagInfo} (hT : T.size = none) : OpSafe (listOp f) T := by
  intro e d x hd _ hx _
  cases x with
  | nil => exact absurd rfl hx
  | cons a l => exact ⟨_, rfl, fun _ _ _ hm => (by rw [hT] at hm; cases hm), fun h => (by simp)⟩

/-- A tag of variable size that has values where it is dense. -/
theorem sized_any {n k : Nat} {T : TagInfo} {G : Nat → Local A} (hT : T.size = none)
    (h : ∀ p, p < n → ∀ e, e ∈ (G p).elems → T.defd e.ty = true → T.sparse e.ty = false → (G p).data k e ≠ none) :
    Sized n [(k, T)] G := by
  intro t ht p hp e he hdef
  rw [List.mem_singleton] at ht
  subst ht
  exact ⟨fun _ _ _ hm => (by rw [hT] at hm; cases hm), h p hp e he hdef⟩

variable {P : List A → Prop} {Q : List A → Prop} {f : List A → List A → List A}

theorem foldOp_list (hf : ∀ arr x, P arr → Q x → P (f arr x) ∧ ∀ i, i ∈ f arr x ↔ i ∈ arr ∨ i ∈ x) (T : TagInfo) (e : El)
    (val : Nat → Option (List A)) (hv : ∀ p x, val p = some x → x ≠ [] ∧ Q x) : ∀ (l : List Nat) (d : Option (List A)),
    P (d.getD []) → ∃ r, foldOp (listOp f) T e val l d = some r ∧ P (r.getD []) ∧
      (∀ i, i ∈ r.getD [] ↔ i ∈ d.getD [] ∨ ∃ p ∈ l, ∃ x, val p = some x ∧ i ∈ x) ∧ (d ≠ none → r ≠ none)
  | [], d, h => ⟨d, rfl, h, by simp, fun h => h⟩
  | q :: l, d, h => by
    unfold foldOp
    cases hq : val q with
    | none =>
      obtain ⟨r, h1, h2, h3, h4⟩ := foldOp_list hf T e val hv l d h
      refine ⟨r, h1, h2, fun i => ?_, h4⟩
      rw [h3]
      constructor
      · rintro (h | ⟨p, hp, h⟩)
        · exact Or.inl h
        · exact Or.inr ⟨p, by simp [hp], h⟩
      · rintro (h | ⟨p, hp, x, hx, h⟩)
        · exact Or.inl h
        · rcases List.mem_cons.1 hp with rfl | hp
          · rw [hq] at hx; cases hx
          · exact Or.inr ⟨p, hp, x, hx, h⟩
    | some y =>
      obtain ⟨hy, hQ⟩ := hv q y hq
      obtain ⟨a1, a2⟩ := hf (d.getD []) y h hQ
      have e1 : listOp f T e d y = some (some (f (d.getD []) y)) := by
        cases y with
        | nil => exact absurd rfl hy
        | cons a l => rfl
      simp only [e1]
      obtain ⟨r, h1, h2, h3, h4⟩ := foldOp_list hf T e val hv l (some (f (d.getD []) y)) a1
      refine ⟨r, h1, h2, fun i => ?_, fun _ => h4 (by simp)⟩
      rw [h3, Option.getD_some, a2]
      constructor
      · rintro ((h | h) | ⟨p, hp, h⟩)
        · exact Or.inl h
        · exact Or.inr ⟨q, by simp, y, hq, h⟩
        · exact Or.inr ⟨p, by simp [hp], h⟩
      · rintro (h | ⟨p, hp, x, hx, h⟩)
        · exact Or.inl (Or.inl h)
        · rcases List.mem_cons.1 hp with rfl | hp
          · rw [hq] at hx
            cases hx
            exact Or.inl (Or.inr h)
          · exact Or.inr ⟨p, hp, x, hx, h⟩

variable {n k : Nat} {mask : Nat → Bool} {init : Nat → El → Option (List A)} {G : Nat → Local A}

theorem tagged_same : SameMesh n G (tagged k init G) :=
  ⟨fun _ _ => rfl, fun _ _ => rfl, fun _ _ => rfl, fun _ _ => rfl, fun _ _ => rfl⟩

theorem tagged_data (p : Nat) (e : El) : (tagged k init G p).data k e = init p e := by
  simp only [tagged, setTag, if_true]

theorem tagged_agreed (Ag : Agreed n G) : Agreed n (tagged k init G) :=
  ⟨Ag.nodup, Ag.types, Ag.unique, Ag.sorted, Ag.procs, Ag.owner, Ag.same, Ag.status⟩

theorem present_some {d : Option (List A)} {x : List A} (h : present d = some x) : d = some x ∧ x ≠ [] := by
  unfold present at h
  split at h
  · cases h; exact ⟨rfl, by simp⟩
  · cases h

theorem present_mem {d : Option (List A)} {i : A} (h : i ∈ d.getD []) : ∃ x, present d = some x ∧ d = some x ∧ i ∈ x := by
  match d, h with
  | some (a :: l), h => exact ⟨_, rfl, rfl, h⟩

variable {T : TagInfo}

/-- After the first of the two calls. -/
theorem tag_mid (hT : T.size = none) (hd : ∀ t, mask t = true → T.defd t = true)
    (hde : ∀ p, p < n → ∀ e, e ∈ (G p).elems → T.defd e.ty = true → T.sparse e.ty = false → init p e ≠ none)
    (Ag : Agreed n G) (hf : ∀ arr x, P arr → Q x → P (f arr x) ∧ ∀ i, i ∈ f arr x ↔ i ∈ arr ∨ i ∈ x)
    (hP : ∀ p, p < n → ∀ e, e ∈ (G p).elems → P ((init p e).getD []))
    (hQ : ∀ p, p < n → ∀ e x, e ∈ (G p).elems → (G p).status e = .ghost → init p e = some x → x ≠ [] → Q x) {G1 : Nat → Local A}
    (h1 : Collective (reduceCall n [(k, T)] mask (listOp f)) (tagged k init G) G1) :
    Distributed n G1 ∧ SameMesh n G G1 ∧ (∀ p, p < n → (G1 p).sel = fun _ => true) ∧
    (∀ q, q < n → ∀ e, (G q).status e ≠ .shared ∨ mask e.ty = false → (G1 q).data k e = init q e) ∧
    (∀ q, q < n → ∀ e, e ∈ (G q).elems → init q e ≠ none → (G1 q).data k e ≠ none) ∧
    ∀ q, q < n → ∀ e, e ∈ (G q).elems → mask e.ty = true → (G q).owner e = q →
      P (((G1 q).data k e).getD []) ∧
        ∀ i, i ∈ ((G1 q).data k e).getD [] ↔ ∃ p e', p < n ∧ e' ∈ (G p).elems ∧ SameElem G q e p e' ∧ i ∈ (init p e').getD [] := by
  have s0 : SameMesh n G (tagged k init G) := tagged_same
  have A0 : Agreed n (tagged k init G) := tagged_agreed Ag
  have D0 : Distributed n (tagged k init G) := A0.distributed fun _ _ _ _ _ _ _ => rfl
  obtain ⟨x1, x2⟩ := reduce_collective D0 (sized_any hT fun p hp e he h1 h2 => by rw [tagged_data]; exact hde p hp e he h1 h2) (by simp) (fun t ht => by
    rw [show t = (k, T) from List.mem_singleton.1 ht]; exact listOp_safe f hT) h1
  have s1 : SameMesh n (tagged k init G) G1 := sameMesh_data x1
  have hsel : ∀ p, p < n → (G1 p).sel = fun _ => true := fun p hp => by rw [x1 p hp]; rfl
  have hot : ∀ q, q < n → ∀ e, (G q).status e ≠ .shared ∨ mask e.ty = false → (G1 q).data k e = init q e := by
    intro q hq e hst
    have := (x2 q hq (k, T) (by simp) e).2 (hst.imp (fun h => h) Or.inl)
    simp only at this
    rw [this, tagged_data]
  refine ⟨s1.distributed D0 fun p q hp hq _ _ _ => by rw [hsel p hp, hsel q hq], s0.trans s1, hsel, hot, ?_⟩
  suffices hall : ∀ q, q < n → ∀ e, e ∈ (G q).elems → mask e.ty = true → (G q).owner e = q →
      P (((G1 q).data k e).getD []) ∧ (∀ i, i ∈ ((G1 q).data k e).getD [] ↔
        ∃ p e', p < n ∧ e' ∈ (G p).elems ∧ SameElem G q e p e' ∧ i ∈ (init p e').getD []) ∧
      (init q e ≠ none → (G1 q).data k e ≠ none) by
    refine ⟨fun q hq e he hn => ?_, fun q hq e he hm ho => ⟨(hall q hq e he hm ho).1, (hall q hq e he hm ho).2.1⟩⟩
    by_cases hst : (G q).status e = .shared
    · cases hm : mask e.ty with
      | true => exact (hall q hq e he hm ((Ag.shared hq he).1 hst).1).2.2 hn
      | false => rw [hot q hq e (Or.inr hm)]; exact hn
    · rw [hot q hq e (Or.inl hst)]; exact hn
  intro q hq e he hm ho
  by_cases hst : (G q).status e = .shared
  · have hgh : ∀ p, ∃ x : Option (List A), ∀ e', GhostOf (tagged k init G) p e' q e → p < n → x = present (init p e') := by
      intro p
      by_cases h : ∃ e', GhostOf (tagged k init G) p e' q e ∧ p < n
      · obtain ⟨e', hg, hp⟩ := h
        refine ⟨present (init p e'), fun e2 hg2 _ => ?_⟩
        have : e' = e2 := D0.unique p hp e' e2 hg.mem hg2.mem (hg.same.1.trans hg2.same.1.symm)
          (hg.same.2.trans hg2.same.2.symm)
        rw [this]
      · exact ⟨none, fun e hg hp => absurd ⟨e, hg, hp⟩ h⟩
    choose val0 hval0 using hgh
    classical
    let val : Nat → Option (List A) := fun p => if (∃ e', GhostOf (tagged k init G) p e' q e) ∧ p < n then val0 p else none
    have hpn : ∀ p e', GhostOf (tagged k init G) p e' q e → p < n := fun p e' hg =>
      (D0.ghosts q hq e he hst p hg.procs hg.ne.symm).1
    have hval : ∀ p e', GhostOf (tagged k init G) p e' q e → val p = present (init p e') := by
      intro p e' hg
      have hp := hpn p e' hg
      show (if _ then _ else _) = _
      rw [if_pos ⟨⟨e', hg⟩, hp⟩, hval0 p e' hg hp]
    have hvq : ∀ p x, val p = some x → x ≠ [] ∧ Q x := by
      intro p x hx
      have hx' : (if (∃ e', GhostOf (tagged k init G) p e' q e) ∧ p < n then val0 p else none) = some x := hx
      split at hx'
      · next h =>
        obtain ⟨⟨e', hg⟩, hp⟩ := h
        rw [hval p e' hg] at hx
        obtain ⟨y1, y2⟩ := present_some hx
        exact ⟨y2, hQ p hp e' x hg.mem hg.ghost y1 y2⟩
      · cases hx'
    obtain ⟨order, hor, hfo⟩ := (x2 q hq (k, T) (by simp) e).1 he hst hm (hd _ hm) rfl val
      (fun p e' hg => by rw [hval p e' hg]; simp only [tagged_data])
    simp only [tagged_data] at hfo
    obtain ⟨r, r1, r2, r3, r4⟩ := foldOp_list hf (T) e val hvq order (init q e) (hP q hq e he)
    rw [r1] at hfo
    injection hfo with hfo
    rw [← hfo]
    refine ⟨r2, fun i => ?_, r4⟩
    rw [r3]
    constructor
    · rintro (h | ⟨p, hp, x, hx, hi⟩)
      · exact ⟨q, e, hq, he, ⟨rfl, rfl⟩, h⟩
      · have hp' := hor.mem_iff.1 hp
        rw [List.mem_filter] at hp'
        obtain ⟨hpl, e', hg⟩ := D0.ghosts q hq e he hst p hp'.1 (by simpa using hp'.2)
        rw [hval p e' hg] at hx
        obtain ⟨y1, y2⟩ := present_some hx
        exact ⟨p, e', hpl, hg.mem, hg.same.symm, by rw [y1]; exact hi⟩
    · rintro ⟨p, e', hp, he', hs, hi⟩
      by_cases hpq : p = q
      · subst hpq
        rw [Ag.unique p hp e e' he he' hs]
        exact Or.inl hi
      · have hg : GhostOf (tagged k init G) p e' q e := A0.ghostOf hp hq he' he hs.symm (fun h => hpq h.symm) (by
          rw [A0.same p q hp hq e' e he' he hs.symm]; exact ho)
        obtain ⟨x, z1, z2, z3⟩ := present_mem hi
        refine Or.inr ⟨p, hor.mem_iff.2 ?_, x, by rw [hval p e' hg]; exact z1, z3⟩
        rw [List.mem_filter]
        exact ⟨hg.procs, by simpa using hpq⟩
  · rw [hot q hq e (Or.inl hst)]
    refine ⟨hP q hq e he, fun i => ⟨fun h => ⟨q, e, hq, he, ⟨rfl, rfl⟩, h⟩, ?_⟩, fun h => h⟩
    rintro ⟨p, e', hp, he', hs, hi⟩
    have hl : (G q).procs e = [q] := by
      have := Ag.status q hq e he
      split at this
      · next h => exact h
      · exact absurd this hst
    have : p ∈ (G q).procs e := (Ag.procs q hq e he p).2 ⟨hp, e', he', hs⟩
    rw [hl, List.mem_singleton] at this
    subst this
    rw [Ag.unique p hp e e' he he' hs]
    exact hi

/-- After both calls every copy has what any copy had. -/
theorem tag_final (hT : T.size = none) (hd : ∀ t, mask t = true → T.defd t = true)
    (hde : ∀ p, p < n → ∀ e, e ∈ (G p).elems → T.defd e.ty = true → T.sparse e.ty = false → init p e ≠ none)
    (Ag : Agreed n G) (hf : ∀ arr x, P arr → Q x → P (f arr x) ∧ ∀ i, i ∈ f arr x ↔ i ∈ arr ∨ i ∈ x)
    (hP : ∀ p, p < n → ∀ e, e ∈ (G p).elems → P ((init p e).getD []))
    (hQ : ∀ p, p < n → ∀ e x, e ∈ (G p).elems → (G p).status e = .ghost → init p e = some x → x ≠ [] → Q x) {G2 : Nat → Local A}
    (h : CollectTag n k T mask (listOp f) init G G2) {p : Nat} (hp : p < n) {e : El} (he : e ∈ (G p).elems) (hm : mask e.ty = true) :
    P (((G2 p).data k e).getD []) ∧
      ∀ i, i ∈ ((G2 p).data k e).getD [] ↔ ∃ q e', q < n ∧ e' ∈ (G q).elems ∧ SameElem G p e q e' ∧ i ∈ (init q e').getD [] := by
  obtain ⟨G1, h1, h2⟩ := h
  obtain ⟨D1, s1, hsel, hot, hnn, hown⟩ := tag_mid hT hd hde Ag hf hP hQ h1
  obtain ⟨x1, x2⟩ := exchange_collective D1 (sized_any hT fun p hp e he h1 h2 => hnn p hp e (by rw [← s1.elems p hp]; exact he) (hde p hp e (by rw [← s1.elems p hp]; exact he) h1 h2)) (by simp) h2
  by_cases ho : (G p).owner e = p
  · have hng : (G p).status e ≠ .ghost := fun h => (Ag.ghost hp he).1 h ho
    have y := (x2 p hp (k, T) (by simp) e).2 (by
      intro q2 e2 hg2
      have := hg2.ghost
      rw [s1.status p hp] at this
      exact absurd this hng)
    simp only at y
    rw [y]
    exact hown p hp e he hm ho
  · obtain ⟨hq, e', he', hs⟩ := (Ag.procs p hp e he _).1 (Ag.owner p hp e he)
    have hg : GhostOf G p e ((G p).owner e) e' := Ag.ghostOf hp hq he he' hs ho rfl
    have hg1 : GhostOf G1 p e ((G p).owner e) e' := s1.ghostOf hp hq hg
    obtain ⟨o1, o2⟩ := hown _ hq e' he' (by rw [← hs.1]; exact hm) (by rw [← Ag.same p _ hp hq e e' he he' hs])
    have o3 : ∀ i, i ∈ ((G1 ((G p).owner e)).data k e').getD [] ↔
        ∃ q e', q < n ∧ e' ∈ (G q).elems ∧ SameElem G p e q e' ∧ i ∈ (init q e').getD [] := by
      intro i
      rw [o2]
      constructor
      · rintro ⟨q, x, a, b, c, d⟩; exact ⟨q, x, a, b, hs.trans c, d⟩
      · rintro ⟨q, x, a, b, c, d⟩; exact ⟨q, x, a, b, hs.symm.trans c, d⟩
    have y := x2 p hp (k, T) (by simp) e
    match hda : (G1 ((G p).owner e)).data k e' with
    | some (a :: l) =>
      have := y.1 _ e' a l hg1 hm (hd _ hm) (by rw [hsel p hp]) hda
      simp only at this
      rw [this, ← hda]
      exact ⟨o1, o3⟩
    | some [] | none =>
      have := y.2 (by
        intro q2 e2 hg2 _ _ _ a l
        have e1 : q2 = (G p).owner e := by rw [← hg2.owner, s1.owner p hp]
        subst e1
        have e3 : e2 = e' := D1.unique _ hq e2 e' hg2.mem' hg1.mem' (hg2.same.1.symm.trans hg1.same.1)
          (hg2.same.2.symm.trans hg1.same.2)
        subst e3
        simp only
        rw [hda]; simp)
      simp only at this
      rw [this, hot p hp e (Or.inl (by rw [(Ag.ghost hp he).2 ho]; simp))]
      refine ⟨hP p hp e he, fun i => ⟨fun hi => ⟨p, e, hp, he, ⟨rfl, rfl⟩, hi⟩, fun hi => ?_⟩⟩
      have := (o3 i).2 hi
      rw [hda] at this
      simp at this

theorem tag_exists (hT : T.size = none) (hd : ∀ t, mask t = true → T.defd t = true)
    (hde : ∀ p, p < n → ∀ e, e ∈ (G p).elems → T.defd e.ty = true → T.sparse e.ty = false → init p e ≠ none)
    (Ag : Agreed n G) (hf : ∀ arr x, P arr → Q x → P (f arr x) ∧ ∀ i, i ∈ f arr x ↔ i ∈ arr ∨ i ∈ x)
    (hP : ∀ p, p < n → ∀ e, e ∈ (G p).elems → P ((init p e).getD []))
    (hQ : ∀ p, p < n → ∀ e x, e ∈ (G p).elems → (G p).status e = .ghost → init p e = some x → x ≠ [] → Q x) :
    ∃ G2, CollectTag n k T mask (listOp f) init G G2 := by
  have D0 : Distributed n (tagged k init G) := (tagged_agreed Ag).distributed fun _ _ _ _ _ _ _ => rfl
  have ok1 : CallOk (reduceCall n [(k, T)] mask (listOp f)) (tagged k init G) :=
    ⟨D0, (sized_any hT fun p hp e he h1 h2 => by rw [tagged_data]; exact hde p hp e he h1 h2), by simp [reduceCall], fun t ht => by
      rw [show t = (k, T) from List.mem_singleton.1 ht]; exact listOp_safe f hT⟩
  obtain ⟨G1, h1⟩ := collective_exists ok1
  obtain ⟨D1, s1, -, -, hnn, -⟩ := tag_mid hT hd hde Ag hf hP hQ h1
  obtain ⟨G2, h2⟩ := collective_exists (exchange_ok (mask := mask) (tags := [(k, T)]) D1
    (sized_any hT fun p hp e he h1 h2 => hnn p hp e (by rw [← s1.elems p hp]; exact he) (hde p hp e (by rw [← s1.elems p hp]; exact he) h1 h2)) (by simp))
  exact ⟨G2, G1, h1, h2⟩

/-- Nothing changes on elements of other types. -/
theorem tag_other (hT : T.size = none) (hd : ∀ t, mask t = true → T.defd t = true)
    (hde : ∀ p, p < n → ∀ e, e ∈ (G p).elems → T.defd e.ty = true → T.sparse e.ty = false → init p e ≠ none)
    (Ag : Agreed n G) (hf : ∀ arr x, P arr → Q x → P (f arr x) ∧ ∀ i, i ∈ f arr x ↔ i ∈ arr ∨ i ∈ x)
    (hP : ∀ p, p < n → ∀ e, e ∈ (G p).elems → P ((init p e).getD []))
    (hQ : ∀ p, p < n → ∀ e x, e ∈ (G p).elems → (G p).status e = .ghost → init p e = some x → x ≠ [] → Q x) {G2 : Nat → Local A}
    (h : CollectTag n k T mask (listOp f) init G G2) {p : Nat} (hp : p < n) {e : El} (hm : mask e.ty = false) :
    (G2 p).data k e = init p e := by
  obtain ⟨G1, h1, h2⟩ := h
  obtain ⟨D1, s1, hsel, hot, hnn, -⟩ := tag_mid hT hd hde Ag hf hP hQ h1
  obtain ⟨x1, x2⟩ := exchange_collective D1 (sized_any hT fun p hp e he h1 h2 => hnn p hp e (by rw [← s1.elems p hp]; exact he) (hde p hp e (by rw [← s1.elems p hp]; exact he) h1 h2)) (by simp) h2
  rw [← hot p hp e (Or.inr hm)]
  exact (x2 p hp (k, T) (by simp) e).2 fun _ _ _ h' => by rw [hm] at h'; cases h'

/-- After both calls with a sparse tag every copy has what any copy had. -/
theorem collect_final (Ag : Agreed n G) (hf : ∀ arr x, P arr → Q x → P (f arr x) ∧ ∀ i, i ∈ f arr x ↔ i ∈ arr ∨ i ∈ x)
    (hP : ∀ p, p < n → ∀ e, e ∈ (G p).elems → P ((init p e).getD []))
    (hQ : ∀ p, p < n → ∀ e x, e ∈ (G p).elems → (G p).status e = .ghost → init p e = some x → x ≠ [] → Q x) {G2 : Nat → Local A}
    (h : CollectRun n k mask (listOp f) init G G2) {p : Nat} (hp : p < n) {e : El} (he : e ∈ (G p).elems) (hm : mask e.ty = true) :
    P (((G2 p).data k e).getD []) ∧
      ∀ i, i ∈ ((G2 p).data k e).getD [] ↔ ∃ q e', q < n ∧ e' ∈ (G q).elems ∧ SameElem G p e q e' ∧ i ∈ (init q e').getD [] :=
  tag_final rfl (fun _ h => h) (fun _ _ e _ h1 h2 => absurd (show mask e.ty = true from h1) (by
    rw [show mask e.ty = false from h2]; simp)) Ag hf hP hQ h hp he hm

theorem collect_exists (Ag : Agreed n G) (hf : ∀ arr x, P arr → Q x → P (f arr x) ∧ ∀ i, i ∈ f arr x ↔ i ∈ arr ∨ i ∈ x)
    (hP : ∀ p, p < n → ∀ e, e ∈ (G p).elems → P ((init p e).getD []))
    (hQ : ∀ p, p < n → ∀ e x, e ∈ (G p).elems → (G p).status e = .ghost → init p e = some x → x ≠ [] → Q x) :
    ∃ G2, CollectRun n k mask (listOp f) init G G2 :=
  tag_exists rfl (fun _ h => h) (fun _ _ e _ h1 h2 => absurd (show mask e.ty = true from h1) (by
    rw [show mask e.ty = false from h2]; simp)) Ag hf hP hQ

end Verif.Parallel
