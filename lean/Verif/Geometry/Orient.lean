import Verif.Geometry.Model
import Verif.Geometry.Spec
import Verif.EdgeLoop.Nodes
import Verif.Topology.ReachInv

/-!
# The orientation of the faces of a cell

The walk around a face gives its edges with the corners they are run through from and to; the search over
common edges computes the only orientation that agrees with the one of the first face.
-/

namespace Verif.Geometry
open Verif.Topology Verif.EdgeLoop Verif.Search

variable {T : Topo}

theorem begEnd_of {e a b : El} (h : Joins T e a b) :
    begEnd T e = some (some a, some b) ∨ begEnd T e = some (some b, some a) := by
  have key : ∀ x y, vis T (T.low e) = [x, y] → begEnd T e = some (some x, some y) := by
    intro x y h
    unfold begEnd
    split
    next h0 => rw [h0] at h; simp [vis] at h
    next h1 => rw [h] at h1; cases h1
    next h1 => rw [h] at h1; cases h1
    next h1 =>
      rw [h] at h1; cases h1
      simp
  rcases h with h | h
  · exact Or.inl (key _ _ h)
  · exact Or.inr (key _ _ h)

theorem nextEnd_of {e a b : El} {be : Option El × Option El} (h : Joins T e a b) (hb : begEnd T e = some be) :
    nextEnd (some a) be = some b := by
  rcases begEnd_of h with h1 | h1 <;> rw [h1] at hb <;> cases hb <;> unfold nextEnd
  · simp
  · by_cases hab : a = b
    · subst hab; simp
    · simp [hab]

/-- The edges of a path with their ends. -/
def pathRuns : List El → List El → El → List (El × El × El)
  | e :: es, n :: ns, z => (e, n, ns.headD z) :: pathRuns es ns z
  | _, _, _ => []

def lift (r : El × El × El) : El × Option El × Option El := (r.1, some r.2.1, some r.2.2)

theorem path_start {a b : El} {es ns : List El} (h : Path T a es ns b) : ns.headD b = a := by
  cases h <;> rfl

theorem walk_path {e0 : El} {be : Option El × Option El} (h0 : begEnd T e0 = some be) {z : El} :
    ∀ (es ns : List El) (e a m : El), Path T m es ns z →
    walk T e0 (e :: es) (some a) (some m) =
      some ((e, some a, some m) :: (pathRuns es ns z).map lift) := by
  intro es
  induction es with
  | nil =>
    intro ns e a m h
    cases h
    simp [walk, h0, pathRuns]
  | cons e' es ih =>
    intro ns e a m h
    cases h with
    | @cons _ _ m' _ _ ns hj hp =>
      rw [walk]
      obtain ⟨be', hb⟩ : ∃ be', begEnd T e' = some be' := by
        rcases begEnd_of hj with h | h <;> exact ⟨_, h⟩
      simp only [List.headD_cons, hb]
      rw [nextEnd_of hj hb, ih ns e' m m' hp]
      have hst := path_start hp
      simp only [pathRuns, List.map_cons, lift, hst]

theorem pathRuns_zip : ∀ (es ns : List El) (z : El), ns.length = es.length →
    pathRuns es ns z = es.zip (ns.zip (ns.tail ++ [z])) := by
  intro es
  induction es with
  | nil => intro ns z h; simp [pathRuns]
  | cons e es ih =>
    intro ns z h
    match ns, h with
    | n :: ns, h =>
      rw [pathRuns, ih ns z (by simpa using h)]
      match ns with
      | [] => simp
      | n' :: ns' => simp

/-- The walk around a face. -/
theorem walkFace_spec {f : El} {ns : List El} (h : Loop T (T.low f) ns) (hn : ns.Nodup) :
    walkFace T f = some ((runs T f ns).map lift) := by
  obtain ⟨x, hp⟩ := h.path
  have h3 := h.three
  have hlen := h.corners
  unfold walkFace runs cyc
  generalize T.low f = lc at *
  have hp0 := hp
  cases hp with
  | nil => simp at h3
  | @cons q _ m _ es ns' hj hp =>
    have hp1 := hp
    cases hp with
    | nil => simp at h3
    | @cons r _ w _ V ns2 hjr hp2 =>
      have hV : V ≠ [] := by rintro rfl; simp at h3
      obtain ⟨⟨a, b⟩, hab⟩ : ∃ p, ends T q = some p := by
        rcases hj.ends with h | h <;> exact ⟨_, h⟩
      obtain ⟨⟨c, d⟩, hcd⟩ : ∃ p, ends T r = some p := by
        rcases hjr.ends with h | h <;> exact ⟨_, h⟩
      have he : ∀ {e a b}, ends T e = some (a, b) → begEnd T e = some (some a, some b) := by
        intro e a b h
        have hv : vis T (T.low e) = [a, b] := by
          unfold ends at h
          split at h
          next h1 => rw [h1]; cases h; rfl
          · cases h
        unfold begEnd
        split
        next h0 => rw [h0] at hv; simp [vis] at hv
        next h1 => rw [hv] at h1; cases h1
        next h1 => rw [hv] at h1; cases h1
        next h1 => rw [hv] at h1; cases h1; simp
      have hs : startNodes T (q :: r :: V) = some (some x, some m) := by
        unfold startNodes
        simp only [he hab, he hcd]
        have := start_eq hj hp1 hV hn hab hcd
        have ht : touches a (c, d) = true ↔ (some a = some c ∨ some a = some d) := by simp [touches]
        by_cases hc : some a = some c ∨ some a = some d
        · rw [if_pos (ht.2 hc)] at this
          rw [if_pos hc, this.1, this.2]
        · rw [if_neg (fun h => hc (ht.1 h))] at this
          rw [if_neg hc, this.1, this.2]
      simp only [hs]
      rw [walk_path (he hab) _ _ _ _ _ hp1]
      have hl := hp0.length
      rw [pathRuns_zip _ _ _ (by simpa using hl)]
      simp [lift]

/-! ## The search -/

section
variable {fs : List El} {corner : El → List El} {out : El → Bool}

theorem run_ne {f e a b : El} {ns : List El} (h : 3 ≤ ns.length) (hn : ns.Nodup)
    (hr : (e, a, b) ∈ runs T f ns) : a ≠ b := by
  have h1 : (a, b) ∈ cyc ns := (List.of_mem_zip hr).2
  unfold cyc at h1
  obtain ⟨i, hi, he⟩ := List.getElem_of_mem h1
  have hi' : i < ns.length := by
    simp at hi; omega
  rw [List.getElem_zip] at he
  have h2 := congrArg Prod.fst he
  have h4 := congrArg Prod.snd he
  simp only at h2 h4
  intro hab
  subst hab
  rw [List.getElem_append] at h4
  split at h4
  next hlt =>
    rw [List.getElem_tail] at h4
    have := (List.getElem_inj hn).1 (h2.trans h4.symm)
    omega
  next hge =>
    match ns, h with
    | n :: ns, h =>
      simp at h4 hge
      have h0 : (n :: ns)[0] = a := h4
      have := (List.getElem_inj hn).1 (h2.trans h0.symm)
      simp at h
      omega

theorem runs_edge {f : El} {ns : List El} (h : ns.length = (T.low f).length) {e : El} (he : e ∈ T.low f) :
    ∃ a b, (e, a, b) ∈ runs T f ns := by
  obtain ⟨i, hi, rfl⟩ := List.getElem_of_mem he
  have hc : (cyc ns).length = ns.length := by
    unfold cyc
    cases ns <;> simp
  refine ⟨((cyc ns)[i]'(by omega)).1, ((cyc ns)[i]'(by omega)).2, ?_⟩
  unfold runs
  rw [List.mem_iff_getElem]
  exact ⟨i, by simp; omega, by simp⟩

theorem runs_mem {f e a b : El} {ns : List El} (h : (e, a, b) ∈ runs T f ns) : e ∈ T.low f :=
  (List.of_mem_zip h).1

/-- The first pass over the common edge. -/
theorem sameWay_spec (r : Entry) : ∀ (w : List (El × El × El)), (∃ x ∈ w, x.1 = r.bridge) →
    ∃ a b, (r.bridge, a, b) ∈ w ∧ sameWay r (w.map lift) = decide (r.first = some a) := by
  intro w
  induction w with
  | nil => rintro ⟨x, hx, -⟩; cases hx
  | cons x w ih =>
    rintro ⟨y, hy, he⟩
    obtain ⟨e, a, b⟩ := x
    by_cases hb : e = r.bridge
    · subst hb
      exact ⟨a, b, List.mem_cons_self, by simp [lift, sameWay]⟩
    · have hw : ∃ x ∈ w, x.1 = r.bridge := by
        rcases List.mem_cons.1 hy with rfl | h
        · exact absurd he hb
        · exact ⟨y, h, he⟩
      obtain ⟨a', b', h1, h2⟩ := ih hw
      refine ⟨a', b', List.mem_cons_of_mem _ h1, ?_⟩
      rw [← h2]
      simp [lift, sameWay, hb]

/-- An entry: the face is to be visited over `bridge`, which a face visited before, in its final direction,
runs through from `first`. -/
def EntryOk (T : Topo) (fs : List El) (corner : El → List El) (out : El → Bool) (o0 : Bool) (r : Entry) : Prop :=
  r.face ∈ fs ∧ r.bridge ∈ T.low r.face ∧ ∃ g ∈ fs, g ≠ r.face ∧ ∃ x y,
    (r.bridge, x, y) ∈ runs T g (corner g) ∧ r.first = some (if out g = o0 then x else y)

/-- What holds of the schedule. -/
structure SchedOk (T : Topo) (fs : List El) (corner : El → List El) (out : El → Bool) (o0 : Bool)
    (s : Sched) : Prop where
  sub : ∀ g ∈ s.mrk, g ∈ fs
  entry : ∀ r ∈ s.queue, EntryOk T fs corner out o0 r
  off : ∀ r ∈ s.queue, r.face ∉ s.mrk
  once : (s.queue.map Entry.face).Nodup

/-- What scheduling does: nothing is forgotten. -/
structure SchedStep (s s' : Sched) : Prop where
  size : s'.mrk.length + s'.queue.length ≤ s.mrk.length + s.queue.length
  mrk : ∀ g ∈ s'.mrk, g ∈ s.mrk
  queue : ∀ g, g ∈ s'.queue.map Entry.face ↔ g ∈ s.queue.map Entry.face ∨ (g ∈ s.mrk ∧ g ∉ s'.mrk)

theorem SchedStep.rfl' (s : Sched) : SchedStep s s := ⟨Nat.le_refl _, fun _ h => h, fun g => by tauto⟩

theorem SchedStep.trans {s s' s'' : Sched} (h : SchedStep s s') (h' : SchedStep s' s'') : SchedStep s s'' :=
  ⟨Nat.le_trans h'.size h.size, fun g hg => h.mrk g (h'.mrk g hg), fun g => by
    rw [h'.queue, h.queue]
    have := h.mrk g
    have := h'.mrk g
    tauto⟩

theorem filter_lt {g : El} : ∀ {l : List El}, g ∈ l → (l.filter (· ≠ g)).length + 1 ≤ l.length := by
  intro l
  induction l with
  | nil => intro h; cases h
  | cons x l ih =>
    intro h
    by_cases hx : x = g
    · subst hx
      have := List.length_filter_le (fun y => decide (y ≠ x)) l
      simp at this ⊢
      omega
    · have hg : g ∈ l := by
        rcases List.mem_cons.1 h with h | h
        · exact absurd h.symm hx
        · exact h
      have := ih hg
      simp [hx] at this ⊢
      omega

theorem pushAdj_spec {o0 : Bool} {e : El} {first : Option El}
    : ∀ (gs : List El) (s : Sched), SchedOk T fs corner out o0 s →
    (∀ g ∈ gs, g ∈ fs → g ∈ s.mrk → EntryOk T fs corner out o0 ⟨e, first, g⟩) →
    SchedOk T fs corner out o0 (pushAdj e first gs s) ∧ SchedStep s (pushAdj e first gs s) ∧
      ∀ g ∈ gs, g ∉ (pushAdj e first gs s).mrk := by
  intro gs
  induction gs with
  | nil => intro s h _; exact ⟨h, .rfl' s, by simp⟩
  | cons g gs ih =>
    intro s h he
    unfold pushAdj
    by_cases hg : g ∈ s.mrk
    · rw [if_pos hg]
      have hq : g ∉ s.queue.map Entry.face := by
        intro hq
        obtain ⟨r, hr, rfl⟩ := List.mem_map.1 hq
        exact h.off r hr hg
      have ok : SchedOk T fs corner out o0 ⟨s.mrk.filter (· ≠ g), s.queue ++ [⟨e, first, g⟩]⟩ := by
        constructor
        · intro g' hg'; exact h.sub g' ((List.mem_filter.1 hg').1)
        · intro r hr
          rcases List.mem_append.1 hr with hr | hr
          · exact h.entry r hr
          · rw [List.mem_singleton] at hr; subst hr
            exact he g List.mem_cons_self (h.sub g hg) hg
        · intro r hr hm
          rcases List.mem_append.1 hr with hr | hr
          · exact h.off r hr ((List.mem_filter.1 hm).1)
          · rw [List.mem_singleton] at hr; subst hr
            simp at hm
        · rw [List.map_append, List.nodup_append]
          refine ⟨h.once, by simp, ?_⟩
          rintro a ha b hb rfl
          simp at hb; subst hb
          exact hq ha
      have st : SchedStep s ⟨s.mrk.filter (· ≠ g), s.queue ++ [⟨e, first, g⟩]⟩ := by
        constructor
        · have := filter_lt hg
          simp only [List.length_append, List.length_singleton]; omega
        · intro g' hg'; exact (List.mem_filter.1 hg').1
        · intro g'
          simp only [List.map_append, List.mem_append, List.map_cons, List.map_nil, List.mem_singleton,
            List.mem_filter, decide_eq_true_eq]
          by_cases hx : g' = g
          · subst hx; simp [hg]
          · simp [hx]
      obtain ⟨h1, h2, h3⟩ := ih _ ok (fun g' hg' hf hm =>
        he g' (List.mem_cons_of_mem _ hg') hf ((List.mem_filter.1 hm).1))
      refine ⟨h1, st.trans h2, ?_⟩
      intro g' hg'
      rcases List.mem_cons.1 hg' with rfl | hg'
      · intro hm
        have := h2.mrk _ hm
        simp at this
      · exact h3 g' hg'
    · rw [if_neg hg]
      obtain ⟨h1, h2, h3⟩ := ih s h (fun g' hg' => he g' (List.mem_cons_of_mem _ hg'))
      refine ⟨h1, h2, ?_⟩
      intro g' hg'
      rcases List.mem_cons.1 hg' with rfl | hg'
      · exact fun hm => hg (h2.mrk _ hm)
      · exact h3 g' hg'

theorem schedule_spec {o0 : Bool} {cur : El} (hcur : cur ∈ fs)
    (hup : ∀ e g, g ∈ T.high e → g ∈ fs → e ∈ T.low g)
    : ∀ (w : List (El × El × El)) (s : Sched), (∀ x ∈ w, x ∈ runs T cur (corner cur)) →
    SchedOk T fs corner out o0 s → cur ∉ s.mrk →
    SchedOk T fs corner out o0 (schedule T (!decide (out cur = o0)) (w.map lift) s) ∧
      SchedStep s (schedule T (!decide (out cur = o0)) (w.map lift) s) ∧
      ∀ x ∈ w, ∀ g ∈ T.high x.1, g ∉ (schedule T (!decide (out cur = o0)) (w.map lift) s).mrk := by
  intro w
  induction w with
  | nil => intro s _ h _; exact ⟨h, .rfl' s, by simp⟩
  | cons x w ih =>
    intro s hw h hc
    obtain ⟨e, a, b⟩ := x
    have hx := hw _ List.mem_cons_self
    obtain ⟨h1, h2, h3⟩ := pushAdj_spec (e := e)
      (first := if (!decide (out cur = o0)) = true then some b else some a) (T.high e) s h (by
        intro g hg hgf hgm
        refine ⟨hgf, hup e g hg hgf, cur, hcur, fun he => hc (he ▸ hgm), a, b, hx, ?_⟩
        by_cases hd : out cur = o0 <;> simp [hd])
    obtain ⟨h4, h5, h6⟩ := ih _ (fun y hy => hw y (List.mem_cons_of_mem _ hy)) h1 (fun hm => hc (h2.mrk _ hm))
    refine ⟨h4, h2.trans h5, ?_⟩
    intro y hy g hg
    rcases List.mem_cons.1 hy with rfl | hy
    · exact fun hm => h3 g hg (h5.mrk g hm)
    · exact h6 y hy g hg

theorem pushAdj_taken {e : El} {first : Option El} {g : El} : ∀ (gs : List El) (s : Sched), g ∈ s.mrk →
    g ∉ (pushAdj e first gs s).mrk → g ∈ gs := by
  intro gs
  induction gs with
  | nil => intro s h h'; exact absurd h h'
  | cons g' gs ih =>
    intro s h h'
    by_cases hg : g = g'
    · subst hg; exact List.mem_cons_self
    · unfold pushAdj at h'
      split at h'
      · exact List.mem_cons_of_mem _ (ih _ (by simp [h, hg]) h')
      · exact List.mem_cons_of_mem _ (ih _ h h')

theorem schedule_taken {r : Bool} {g : El} : ∀ (w : List (El × Option El × Option El)) (s : Sched), g ∈ s.mrk →
    g ∉ (schedule T r w s).mrk → ∃ x ∈ w, g ∈ T.high x.1 := by
  intro w
  induction w with
  | nil => intro s h h'; exact absurd h h'
  | cons x w ih =>
    intro s h h'
    obtain ⟨e, n1, n2⟩ := x
    unfold schedule at h'
    by_cases hp : g ∈ (pushAdj e (if r then n2 else n1) (T.high e) s).mrk
    · obtain ⟨y, hy, hg⟩ := ih _ hp h'
      exact ⟨y, List.mem_cons_of_mem _ hy, hg⟩
    · exact ⟨_, List.mem_cons_self, pushAdj_taken _ _ h hp⟩

/-- The direction of a visited face is the right one. -/
theorem sameWay_right (S : Surface T fs corner out) {o0 : Bool} {r : Entry}
    (h : EntryOk T fs corner out o0 r) :
    sameWay r ((runs T r.face (corner r.face)).map lift) = !decide (out r.face = o0) := by
  obtain ⟨hf, hb, g, hg, hne, x, y, hxy, hfirst⟩ := h
  have hl := S.loop _ hf
  have hcor := hl.corners
  obtain ⟨a0, b0, h0⟩ := runs_edge hcor hb
  obtain ⟨a, b, hab, hs⟩ := sameWay_spec r (runs T r.face (corner r.face)) ⟨_, h0, rfl⟩
  rw [hs, hfirst]
  have hxny : x ≠ y := run_ne (by have := (S.loop g hg).three; have := (S.loop g hg).corners; omega) (S.nodup g hg) hxy
  have := S.opposite g hg r.face hf hne r.bridge x y a b hxy hab
  by_cases h1 : out g = out r.face
  · rw [if_pos h1] at this
    cases this
    by_cases h2 : out g = o0
    · rw [if_pos h2, ← h1]; simp [h2, hxny]
    · rw [if_neg h2, ← h1]; simp [h2]
  · rw [if_neg h1] at this
    cases this
    by_cases h2 : out g = o0
    · rw [if_pos h2]
      have : out r.face ≠ o0 := fun h => h1 (h2.trans h.symm)
      simp [this]
    · rw [if_neg h2]
      have : out r.face = o0 := by
        cases h3 : out g <;> cases h4 : out r.face <;> cases h5 : o0 <;> simp_all
      simp [this, Ne.symm hxny]

/-- The state of the search before a pass. -/
structure SearchOk (T : Topo) (fs : List El) (corner : El → List El) (out : El → Bool) (o0 : Bool)
    (f0 cur : El) (s : Sched) (rev : List El) : Prop where
  start : f0 ∈ fs ∧ f0 ∉ s.mrk
  reach : ∀ g ∈ fs, g ∉ s.mrk → Relation.ReflTransGen (Adjacent T fs) f0 g
  sched : SchedOk T fs corner out o0 s
  here : cur ∈ fs ∧ cur ∉ s.mrk ∧ cur ∉ s.queue.map Entry.face
  back : ∀ g, g ∈ rev ↔ g ∈ fs ∧ g ∉ s.mrk ∧ g ∉ s.queue.map Entry.face ∧ out g ≠ o0
  closed : ∀ g ∈ fs, g ∉ s.mrk → g ∉ s.queue.map Entry.face → g ≠ cur →
    ∀ h ∈ fs, ∀ e, e ∈ T.low g → e ∈ T.low h → h ∉ s.mrk

theorem orientLoop_spec (S : Surface T fs corner out) (hup : ∀ e g, g ∈ fs → (g ∈ T.high e ↔ e ∈ T.low g))
    {o0 : Bool} {f0 : El} : ∀ (n : Nat) (cur : El) (s : Sched) (rev : List El),
    SearchOk T fs corner out o0 f0 cur s rev → s.mrk.length + s.queue.length < n →
    ∃ rev', orientLoop T n cur (!decide (out cur = o0)) s rev = some rev' ∧
      ∀ g, g ∈ rev' ↔ g ∈ fs ∧ Relation.ReflTransGen (Adjacent T fs) f0 g ∧ out g ≠ o0 := by
  intro n
  induction n with
  | zero => intro cur s rev _ hn; omega
  | succ n ih =>
    intro cur s rev H hn
    have hcl := S.loop _ H.here.1
    unfold orientLoop
    rw [walkFace_spec hcl (S.nodup _ H.here.1)]
    simp only
    obtain ⟨h1, h2, h3⟩ := schedule_spec (o0 := o0) (out := out) H.here.1 (fun e g hg hf => (hup e g hf).1 hg)
      (runs T cur (corner cur)) s (fun x hx => hx) H.sched H.here.2.1
    have hreach : ∀ g ∈ fs, g ∉ (schedule T (!decide (out cur = o0)) ((runs T cur (corner cur)).map lift) s).mrk →
        Relation.ReflTransGen (Adjacent T fs) f0 g := by
      intro g hg hm
      by_cases hgm : g ∈ s.mrk
      · obtain ⟨x, hx, hgx⟩ := schedule_taken _ s hgm hm
        obtain ⟨y, hy, rfl⟩ := List.mem_map.1 hx
        exact (H.reach cur H.here.1 H.here.2.1).tail ⟨H.here.1, hg, y.1, runs_mem (a := y.2.1) (b := y.2.2) hy,
          (hup y.1 g hg).1 hgx⟩
      · exact H.reach g hg hgm
    have hstart : f0 ∉ (schedule T (!decide (out cur = o0)) ((runs T cur (corner cur)).map lift) s).mrk :=
      fun hm => H.start.2 (h2.mrk _ hm)
    generalize hs' : schedule T (!decide (out cur = o0)) ((runs T cur (corner cur)).map lift) s = s' at *
    -- faces with a common edge with a visited face are not marked
    have hcl' : ∀ g ∈ fs, g ∉ s'.mrk → g ∉ s'.queue.map Entry.face →
        ∀ h ∈ fs, ∀ e, e ∈ T.low g → e ∈ T.low h → h ∉ s'.mrk := by
      intro g hg hm hq h hh e heg heh
      by_cases hgc : g = cur
      · subst hgc
        obtain ⟨a, b, hab⟩ := runs_edge hcl.corners heg
        exact h3 _ hab h ((hup e h hh).2 heh)
      · rw [h2.queue] at hq
        exact fun hx => H.closed g hg (by tauto) (by tauto) hgc h hh e heg heh (h2.mrk h hx)
    have hrev : ∀ g, g ∈ rev ↔ g ∈ fs ∧ g ∉ s'.mrk ∧ g ∉ s'.queue.map Entry.face ∧ out g ≠ o0 := by
      intro g
      rw [H.back, h2.queue]
      have := h2.mrk g
      tauto
    have hcq : cur ∉ s'.queue.map Entry.face := by
      rw [h2.queue]; have := H.here.2; tauto
    match s', h1, h2, hcl', hrev, hcq, hreach, hstart with
    | ⟨mrk, []⟩, h1, h2, hcl', hrev, _, hreach, hstart =>
      refine ⟨rev, rfl, ?_⟩
      have hall : ∀ g ∈ fs, Relation.ReflTransGen (Adjacent T fs) f0 g → g ∉ mrk := by
        intro g hg hc
        induction hc with
        | refl => exact hstart
        | tail _ hadj ih' =>
          obtain ⟨hy, hz, e, he1, he2⟩ := hadj
          exact hcl' _ hy (ih' hy) (by simp) _ hz e he1 he2
      intro g
      rw [hrev]
      have h4 := hall g
      have h5 := hreach g
      simp only at h5
      simp; tauto
    | ⟨mrk, r :: queue⟩, h1, h2, hcl', hrev, hcq, hreach, hstart =>
      have hr := h1.entry r List.mem_cons_self
      have hrf := hr.1
      simp only
      rw [walkFace_spec (S.loop _ hrf) (S.nodup _ hrf)]
      simp only
      rw [sameWay_right S hr]
      have hsz := h2.size
      simp only [List.length_cons] at hsz
      have honce := h1.once
      simp only [List.map_cons, List.nodup_cons] at honce
      have hoff := h1.off r List.mem_cons_self
      have ok : SchedOk T fs corner out o0 ⟨mrk, queue⟩ :=
        ⟨h1.sub, fun x hx => h1.entry x (List.mem_cons_of_mem _ hx),
          fun x hx => h1.off x (List.mem_cons_of_mem _ hx), honce.2⟩
      have hcl2 : ∀ g ∈ fs, g ∉ mrk → g ∉ queue.map Entry.face → g ≠ r.face →
          ∀ h ∈ fs, ∀ e, e ∈ T.low g → e ∈ T.low h → h ∉ mrk := by
        intro g hg hm hq hne
        exact hcl' g hg hm (by simp only [List.map_cons, List.mem_cons, not_or]; exact ⟨hne, hq⟩)
      have hback : ∀ g, g ∈ rev ↔ g ∈ fs ∧ g ∉ mrk ∧ (g ∉ queue.map Entry.face ∧ g ≠ r.face) ∧ out g ≠ o0 := by
        intro g
        rw [hrev g]
        simp only [List.map_cons, List.mem_cons, not_or]
        tauto
      by_cases ho : out r.face = o0
      · rw [if_neg (by simp [ho])]
        have := ih r.face ⟨mrk, queue⟩ rev ⟨⟨H.start.1, hstart⟩, hreach, ok, ⟨hrf, hoff, honce.1⟩, ?_, hcl2⟩ (by simp only; omega)
        · simpa [ho] using this
        · intro g
          rw [hback]
          by_cases hg : g = r.face
          · subst hg; simp [ho]
          · simp [hg]
      · rw [if_pos (by simp [ho])]
        have := ih r.face ⟨mrk, queue⟩ (r.face :: rev) ⟨⟨H.start.1, hstart⟩, hreach, ok, ⟨hrf, hoff, honce.1⟩, ?_, hcl2⟩ (by simp only; omega)
        · simpa [ho] using this
        · intro g
          rw [List.mem_cons, hback]
          by_cases hg : g = r.face
          · subst hg; simp [ho, hrf, hoff, honce.1]
          · simp [hg]

/-- The search gives each face that is connected with the first one the direction that agrees with that of the
first face. -/
theorem orientFrom_component (S : Surface T fs corner out) (hup : ∀ e g, g ∈ fs → (g ∈ T.high e ↔ e ∈ T.low g))
    {f0 : El} (h0 : f0 ∈ fs) : ∃ rev, orientFrom T f0 fs = some rev ∧
      ∀ g, g ∈ rev ↔ g ∈ fs ∧ Relation.ReflTransGen (Adjacent T fs) f0 g ∧ out g ≠ out f0 := by
  unfold orientFrom
  have hm : ∀ g, g ∈ fs.filter (· ≠ f0) ↔ g ∈ fs ∧ g ≠ f0 := by intro g; simp
  have hone : ∀ g, g ∈ fs → g ∉ fs.filter (· ≠ f0) → g = f0 := by
    intro g hg h
    by_contra hne
    exact h ((hm g).2 ⟨hg, hne⟩)
  have := orientLoop_spec S hup (o0 := out f0) (f0 := f0) (fs.length + 1) f0 ⟨fs.filter (· ≠ f0), []⟩ []
    ⟨⟨h0, by simp⟩, fun g hg h => hone g hg h ▸ .refl,
      ⟨fun g hg => ((hm g).1 hg).1, by simp, by simp, by simp⟩, ⟨h0, by simp, by simp⟩, ?_, ?_⟩
    (by have := filter_lt h0; simp only [List.length_nil]; omega)
  · simpa using this
  · intro g
    simp only [List.not_mem_nil, List.map_nil, not_false_eq_true, true_and, false_iff]
    rintro ⟨h1, h2, h3⟩
    exact h3 (by rw [hone g h1 h2])
  · intro g hg h1 _ hne
    exact absurd (hone g hg h1) hne

/-- The search gives each face the direction that agrees with the one of the first face. -/
theorem orientFrom_spec (S : Surface T fs corner out) (hup : ∀ e g, g ∈ fs → (g ∈ T.high e ↔ e ∈ T.low g))
    (hconn : Connected T fs) {f0 : El} (h0 : f0 ∈ fs) :
    ∃ rev, orientFrom T f0 fs = some rev ∧ ∀ g, g ∈ rev ↔ g ∈ fs ∧ out g ≠ out f0 := by
  obtain ⟨rev, h1, h2⟩ := orientFrom_component S hup h0
  refine ⟨rev, h1, fun g => ?_⟩
  rw [h2]
  have := hconn f0 h0 g
  tauto

end

end Verif.Geometry
