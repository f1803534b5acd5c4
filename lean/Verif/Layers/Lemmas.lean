import Verif.Layers.Sweep
import Verif.Transfer.Call
import Mathlib.Tactic.Choose

/-! # Lemmas: the loop over the layers -/

namespace Verif.Layers

open Verif.Topology Verif.Transfer

variable {V : Type} {n t : Nat} {cn : Bool} {G : Whole} {W W0 : Nat → Side V} {byNum : Nat → Bool} {dup : Bool}
  {pick : Topo → Nat → Nat}

/-! ## The distance does not change -/

theorem cellAt_congr {W W' : Nat → Side V} (h : ∀ g, InMesh n W g ↔ InMesh n W' g) {c b : El} :
    CellAt n G W c b ↔ CellAt n G W' c b :=
  ⟨fun ⟨a, b, c⟩ => ⟨a, (h _).1 b, c⟩, fun ⟨a, b, c⟩ => ⟨a, (h _).2 b, c⟩⟩

/-! ## Where a new cell comes from -/

/-- A walk of `i` steps that starts next to a cell of `q`, from a cell of `p`, and goes away from `q`. -/
inductive Trail (n : Nat) (G : Whole) (W : Nat → Side V) (t p q : Nat) : Nat → El → Prop
  | first {c b d} : CellAt n G W c b → b.ty = t → CellAt n G W d b → G.owner c = p → G.owner d = q → Trail n G W t p q 1 c
  | next {i c b d} : Trail n G W t p q i c → CellAt n G W c b → b.ty = t → CellAt n G W d b → ¬ Within n G W t q i d →
    Trail n G W t p q (i + 1) d

theorem Within.cell {p k : Nat} {c : El} (h : Within n G W t p k c) : c.ty = 3 ∧ InMesh n W c := by
  induction h with
  | own a b _ => exact ⟨a, b⟩
  | stay _ ih => exact ih
  | step _ _ _ h _ => exact ⟨h.cell, h.mem⟩

theorem Within.mono {p k k' : Nat} {c : El} (h : Within n G W t p k c) (hk : k ≤ k') : Within n G W t p k' c := by
  induction k' with
  | zero => rw [show k = 0 by omega] at h; exact h
  | succ k' ih =>
    by_cases he : k = k' + 1
    · rw [← he]; exact h
    · exact .stay (ih (by omega))

theorem trail_within {p q i : Nat} {c : El} (h : Trail n G W t p q i c) : Within n G W t q i c := by
  induction h with
  | first a b d e f => exact .step (.own d.cell d.mem f) d b a
  | next _ a b d _ ih => exact .step ih a b d

theorem trail_near {p q i : Nat} {c : El} (h : Trail n G W t p q i c) : ∃ j, i = j + 1 ∧ Within n G W t p j c := by
  induction h with
  | first a b d e f => exact ⟨0, rfl, .own a.cell a.mem e⟩
  | next _ a b d _ ih =>
    obtain ⟨j, rfl, h⟩ := ih
    exact ⟨_, rfl, .step h a b d⟩

theorem within_zero {p : Nat} {c : El} (h : Within n G W t p 0 c) : G.owner c = p := by
  cases h with
  | own _ _ h => exact h

theorem within_succ {q k : Nat} {g : El} (h : Within n G W t q (k + 1) g) :
    Within n G W t q k g ∨ ∃ c b, Within n G W t q k c ∧ CellAt n G W c b ∧ b.ty = t ∧ CellAt n G W g b := by
  cases h with
  | stay h => exact Or.inl h
  | step a b c d => exact Or.inr ⟨_, _, a, b, c, d⟩

theorem trail_exists {q : Nat} : ∀ {i : Nat} {g : El}, Within n G W t q (i + 1) g → ¬ Within n G W t q i g →
    ∃ p, p ≠ q ∧ Trail n G W t p q (i + 1) g
  | 0, g, h, hn => by
    obtain ⟨c, b, h1, h2, h3, h4⟩ := (within_succ h).resolve_left hn
    have hc := within_zero h1
    exact ⟨G.owner g, fun ho => hn (.own h4.cell h4.mem ho), .first h4 h3 h2 rfl hc⟩
  | i + 1, g, h, hn => by
    obtain ⟨c, b, h1, h2, h3, h4⟩ := (within_succ h).resolve_left hn
    obtain ⟨p, hp, hT⟩ := trail_exists h1 fun hc => hn (.step hc h2 h3 h4)
    exact ⟨p, hp, .next hT h2 h3 h4 hn⟩

theorem trail_lt (H : Spread n cn G W) {p q i : Nat} {c : El} (h : Trail n G W t p q i c) : p < n := by
  induction h with
  | first a _ _ e _ => rw [← e]; exact (cell_home H a).1
  | next _ _ _ _ _ ih => exact ih

/-! ## State between the exchanges -/

/-- The processors have all cells within `m` steps (if `full`) and nothing else, `cur p q` is what `p` sends to `q` next. -/
structure Level (n t : Nat) (cn : Bool) (G : Whole) (full : Prop) (W0 W : Nat → Side V) (cur : Nat → Nat → List El) (m : Nat) :
    Prop where
  spread : Spread n cn G W
  mesh : ∀ g, InMesh n W g ↔ InMesh n W0 g
  keep : ∀ p, p < n → ∀ g, Has (W0 p) g → Has (W p) g
  only : ∀ p, p < n → ∀ g, Has (W p) g → Has (W0 p) g ∨ ∃ c, Within n G W0 t p m c ∧ Part cn G c g
  has : full → ∀ p, p < n → ∀ c g, Within n G W0 t p m c → Part cn G c g → Has (W p) g
  sound : ∀ p, p < n → ∀ q, ∀ c ∈ cur p q, q < n ∧ q ≠ p ∧ (W p).T.alive c = true ∧ c.ty = 3 ∧
    Within n G W0 t q (m + 1) (name (W p).num c)
  all : full → ∀ p, p < n → ∀ q, q < n → q ≠ p → ∀ g, Trail n G W0 t p q (m + 1) g → ∃ c ∈ cur p q, name (W p).num c = g

theorem inMesh_part {cn : Bool} (H : Spread n cn G W) {c g : El} (h : InMesh n W c) (hp : Part cn G c g) : InMesh n W g := by
  obtain ⟨p, hp', hc⟩ := h
  exact ⟨p, hp', part_has (H.piece p hp') hc hp⟩

theorem mem_sendtoOf {S : Side V} {cur : Nat → List El} {e : El} (hs : (S.procs e).Pairwise (· < ·)) {q : Nat} :
    q ∈ sendtoOf n S cur e ↔ q < n ∧ e ∈ cur q ∧ q ∉ S.procs e := by
  unfold sendtoOf
  rw [List.mem_filter, List.mem_range, Bool.and_eq_true, Bool.not_eq_true', List.contains_iff_mem, ← Bool.not_eq_true,
    foundProc_iff hs]

theorem marked_sendto (S : Side V) (cur : Nat → List El) : Marked n S (sendtoOf n S cur) :=
  ⟨fun _ _ k hk => List.mem_range.1 (List.mem_filter.1 hk).1, fun _ => List.nodup_range.filter _⟩

/-- One exchange: all cells within one step more. -/
theorem level_exchange (ok : G.Ok) (fresh : Fresh cn pick) (H0 : Spread n cn G W0) {full : Prop} {cur : Nat → Nat → List El} {m : Nat}
    (L : Level n t cn G full W0 W cur m) {W1 : Nat → Side V} {X : Trace V}
    (h : Exchange n byNum dup pick (fun p => sendtoOf n (W p) (cur p)) W W1 X) :
    Spread n cn G W1 ∧ (∀ g, InMesh n W1 g ↔ InMesh n W0 g) ∧
    (∀ p, p < n → ∀ g, Has (W0 p) g → Has (W1 p) g) ∧
    (∀ p, p < n → ∀ g, Has (W1 p) g → Has (W0 p) g ∨ ∃ c, Within n G W0 t p (m + 1) c ∧ Part cn G c g) ∧
    (full → ∀ p, p < n → ∀ c g, Within n G W0 t p (m + 1) c → Part cn G c g → Has (W1 p) g) ∧
    (∀ p, p < n → Kept (W p) (W1 p)) ∧ ∀ f, SameValues n W f → SameValues n W1 f := by
  obtain ⟨r1, r2, r3, r4⟩ := exchange_result ok L.spread fresh (fun p _ => marked_sendto _ _) h
  have hmesh : ∀ g, InMesh n W1 g ↔ InMesh n W0 g := by
    intro g
    rw [← L.mesh]
    constructor
    · rintro ⟨q, hq, hg⟩
      rcases (r2 q hq g).1 hg with h | ⟨p, hp, -, e, he, -, hpt⟩
      · exact ⟨q, hq, h⟩
      · exact inMesh_part L.spread ⟨p, hp, e, he, rfl⟩ hpt
    · rintro ⟨q, hq, hg⟩
      exact ⟨q, hq, (r2 q hq g).2 (Or.inl hg)⟩
  refine ⟨r1, hmesh, fun p hp g h => (r3 p hp).has (L.keep p hp g h), ?_, ?_, r3, r4⟩
  · intro q hq g hg
    rcases (r2 q hq g).1 hg with h | ⟨p, hp, -, e, he, hqs, hpt⟩
    · rcases L.only q hq g h with h | ⟨c, h, hp⟩
      · exact Or.inl h
      · exact Or.inr ⟨c, .stay h, hp⟩
    · obtain ⟨-, hec, -⟩ := (mem_sendtoOf (L.spread.sorted p hp e he)).1 hqs
      exact Or.inr ⟨_, (L.sound p hp q e hec).2.2.2.2, hpt⟩
  · intro hf q hq c g h hpt
    rw [r2 q hq g]
    by_cases hm : Within n G W0 t q m c
    · exact Or.inl (L.has hf q hq c g hm hpt)
    · obtain ⟨p, hpq, hT⟩ := trail_exists h hm
      have hp : p < n := trail_lt H0 hT
      obtain ⟨e, hec, rfl⟩ := L.all hf p hp q hq (fun h => hpq h.symm) _ hT
      obtain ⟨-, -, he, -, -⟩ := L.sound p hp q e hec
      by_cases hpr : q ∈ (W p).procs e
      · have := ((L.spread.procs p hp e he q).1 hpr).2
        exact Or.inl (part_has (L.spread.piece q hq) this hpt)
      · exact Or.inr ⟨p, hp, hpq, e, he, (mem_sendtoOf (L.spread.sorted p hp e he)).2 ⟨hq, hec, hpr⟩, hpt⟩

/-- The first layer is what has to be sent first. -/
theorem level_first (H : Spread n cn G W) (R : Regular cn G) (two : TwoCells n G W) (ht : t < 3) {full : Prop}
    (meets : full → Meets n G W t) {bridge : Nat → Nat → List El} (h : SkinSet n t W bridge) :
    ∃ cur : Nat → Nat → List El × List El, (∀ p, p < n → ∀ q, firstLayer (W p) q ([], []) (bridge p q) = some (cur p q)) ∧
      Level n t cn G full W W (fun p q => (cur p q).2) 0 := by
  have key : ∀ p q, ∃ st, p < n → firstLayer (W p) q ([], []) (bridge p q) = some st ∧
      ∀ x, x ∈ st.2 ↔ (W p).owner x ≠ (q : Int) ∧ ∃ b ∈ bridge p q, ∃ l, adj (W p) 3 b = some l ∧ x ∈ l := by
    intro p q
    by_cases hp : p < n
    · obtain ⟨st, h1, h2⟩ := firstLayer_spec (S := W p) (q := q) (bs := bridge p q) (st := ([], [])) (by
        intro b hb
        obtain ⟨b1, b2, -⟩ := (skinSet_mem H R two ht h hp q b).1 hb
        obtain ⟨l, hl, -⟩ := adj_cells (H.piece p hp) R b1 (by omega)
        exact ⟨l, hl⟩) (by simp)
      refine ⟨st, fun _ => ⟨h1, fun x => ?_⟩⟩
      rw [h2]
      simp
    · exact ⟨([], []), fun h => absurd h hp⟩
  choose cur hcur using key
  refine ⟨cur, fun p hp q => (hcur p q hp).1, H, fun _ => Iff.rfl, fun _ _ _ h => h, fun _ _ _ h => Or.inl h, ?_, ?_, ?_⟩
  · intro _ p hp c g hc hpt
    obtain ⟨h3, q, hq, e, he, rfl⟩ := hc.cell
    have ho := within_zero hc
    have := (H.home q hq e he).2
    rw [ho] at this
    exact part_has (H.piece p hp) this hpt
  · intro p hp q c hc
    obtain ⟨ho, b, hb, l, hl, hcl⟩ := ((hcur p q hp).2 c).1 hc
    obtain ⟨b1, b2, hq, hqp, hs⟩ := (skinSet_mem H R two ht h hp q b).1 hb
    obtain ⟨l', hl', hlm⟩ := adj_cells (H.piece p hp) R b1 (by omega)
    rw [hl] at hl'
    injection hl' with hl'
    subst hl'
    obtain ⟨c1, c2, c3⟩ := (hlm c).1 hcl
    refine ⟨hq, hqp, c1, c2, ?_⟩
    have hd : ∃ d, CellAt n G W d (name (W p).num b) ∧ G.owner d = q := by
      unfold Shared at hs
      split at hs
      · obtain ⟨_, d, -, hd, -, od⟩ := hs
        exact ⟨d, hd, od⟩
      · obtain ⟨-, f, c, d, -, hc, -, oc, -, hfb⟩ := hs
        exact ⟨c, ⟨hc.cell, hc.mem, part_trans hc.part hfb⟩, oc⟩
    obtain ⟨d, hd, od⟩ := hd
    exact .step (.own hd.cell hd.mem od) hd b2 ⟨c2, ⟨p, hp, c, c1, rfl⟩, c3⟩
  · intro hfull p hp q hq hqp g hT
    have : ∃ b d, CellAt n G W g b ∧ b.ty = t ∧ CellAt n G W d b ∧ G.owner g = p ∧ G.owner d = q := by
      generalize hi : 0 + 1 = i at hT
      cases hT with
      | first a b c d e => exact ⟨_, _, a, b, c, d, e⟩
      | next h1 _ _ _ _ =>
        obtain ⟨j, hj, -⟩ := trail_near h1
        omega
    obtain ⟨b, d, hg, hbt, hd, og, od⟩ := this
    obtain ⟨-, hgp, -⟩ := cell_home H hg
    rw [og] at hgp
    obtain ⟨x, hx, rfl⟩ := hgp
    obtain ⟨y, hy, hyn, -⟩ := below_of_part (H.piece p hp) hx hg.part
    subst hyn
    have hyt : y.ty = t := hbt
    obtain ⟨l, hl, hlm⟩ := adj_cells (H.piece p hp) R hy (by omega)
    refine ⟨x, ((hcur p q hp).2 x).2 ⟨?_, y, (skinSet_mem H R two ht h hp q y).2 ⟨hy, hyt, hq, hqp, ?_⟩, l, hl,
      (hlm x).2 ⟨hx, hg.cell, hg.part⟩⟩, rfl⟩
    · rw [Ne, owner_iff H hp hx, og]; exact fun h => hqp h.symm
    · unfold Shared
      split
      · exact ⟨_, d, hg, hd, og, od⟩
      · have h1 := meets hfull _ d _ hbt hg hd (by rw [og, od]; exact fun h => hqp h.symm)
        have h2 := meets hfull d _ _ hbt hd hg (by rw [og, od]; exact hqp)
        rw [og] at h1
        rw [od] at h2
        exact ⟨h1, h2⟩

/-- The next layer is what has to be sent next. -/
theorem level_next (H0 : Spread n cn G W0) (R : Regular cn G) (ht : t < 3) {full : Prop}
    (homely : full → Homely n G W0 t) {cur : Nat → Nat → List El} {m : Nat}
    (L : Level n t cn G full W0 W cur m) {W1 : Nat → Side V} (h1 : Spread n cn G W1) (h2 : ∀ g, InMesh n W1 g ↔ InMesh n W0 g)
    (h3 : ∀ p, p < n → ∀ g, Has (W0 p) g → Has (W1 p) g)
    (h5 : ∀ p, p < n → ∀ g, Has (W1 p) g → Has (W0 p) g ∨ ∃ c, Within n G W0 t p (m + 1) c ∧ Part cn G c g)
    (h6 : full → ∀ p, p < n → ∀ c g, Within n G W0 t p (m + 1) c → Part cn G c g → Has (W1 p) g)
    (h4 : ∀ p, p < n → Kept (W p) (W1 p)) :
    ∃ cur' : Nat → Nat → List El × List El,
      (∀ p, p < n → ∀ q, nextLayer (W1 p) t q (cur p q, []) (cur p q) = some (cur' p q)) ∧
      Level n t cn G full W0 W1 (fun p q => (cur' p q).2) (m + 1) := by
  have key : ∀ p q, ∃ st, p < n → nextLayer (W1 p) t q (cur p q, []) (cur p q) = some st ∧
      (∀ c ∈ cur p q, ∀ js, adj (W1 p) t c = some js → ∀ j ∈ js, ∀ l, adj (W1 p) 3 j = some l → ∀ x ∈ l, x ∉ cur p q →
        ¬ (full → Within n G W0 t q 1 (name (W1 p).num x)) → x ∈ st.2) ∧
      ∀ x ∈ st.2, ∃ c ∈ cur p q, ∃ js, adj (W1 p) t c = some js ∧ ∃ j ∈ js, ∃ l, adj (W1 p) 3 j = some l ∧ x ∈ l := by
    intro p q
    by_cases hp : p < n
    · have P := h1.piece p hp
      obtain ⟨st, hst⟩ := nextLayer_all (S := W1 p) (q := q) ht (near := fun x => full → Within n G W0 t q 1 (name (W1 p).num x))
        (cs := cur p q) (fun c hc => (L.sound p hp q c hc).2.2.2.1) (by
        intro c hc
        obtain ⟨-, -, ca, ct, -⟩ := L.sound p hp q c hc
        have ca1 := ((h4 p hp).old c ca).1
        obtain ⟨js, hjs, hjm⟩ := adj_down P R (t := t) ca1 (by omega)
        refine ⟨js, hjs, fun j hj => ?_⟩
        obtain ⟨j1, j2, -⟩ := (hjm j).1 hj
        obtain ⟨l, hl, hlm⟩ := adj_cells P R j1 (by omega)
        refine ⟨j2, l, hl, fun x hx => ?_⟩
        obtain ⟨x1, x2, x3⟩ := (hlm x).1 hx
        refine ⟨x2, fun ho hf => ?_⟩
        obtain ⟨d, hd, od⟩ := homely hf (name (W1 p).num j) j2 ((h2 _).1 ⟨p, hp, j, j1, rfl⟩)
        rw [(owner_iff h1 hp j1 q).1 ho] at od
        exact .step (.own hd.cell hd.mem od) hd j2 ⟨x2, (h2 _).1 ⟨p, hp, x, x1, rfl⟩, x3⟩)
      exact ⟨st, fun _ => hst⟩
    · exact ⟨([], []), fun h => absurd h hp⟩
  choose cur' hcur using key
  refine ⟨cur', fun p hp q => (hcur p q hp).1, h1, h2, h3, h5, h6, ?_, ?_⟩
  · intro p hp q x hx
    have P := h1.piece p hp
    obtain ⟨c, hc, js, hjs, j, hj, l, hl, hxl⟩ := (hcur p q hp).2.2 x hx
    obtain ⟨hq, hqp, ca, ct, cw⟩ := L.sound p hp q c hc
    have ca1 := ((h4 p hp).old c ca).1
    obtain ⟨js', hjs', hjm⟩ := adj_down P R (t := t) ca1 (by omega)
    rw [hjs] at hjs'
    injection hjs' with hjs'
    subst hjs'
    obtain ⟨j1, j2, j3⟩ := (hjm j).1 hj
    obtain ⟨l', hl', hlm⟩ := adj_cells P R j1 (by omega)
    rw [hl] at hl'
    injection hl' with hl'
    subst hl'
    obtain ⟨x1, x2, x3⟩ := (hlm x).1 hxl
    refine ⟨hq, hqp, x1, x2, ?_⟩
    rw [← (h4 p hp).name ca] at cw
    exact .step cw ⟨ct, (h2 _).1 ⟨p, hp, c, ca1, rfl⟩, j3⟩ j2 ⟨x2, (h2 _).1 ⟨p, hp, x, x1, rfl⟩, x3⟩
  · intro hfull p hp q hq hqp g hT
    have P := h1.piece p hp
    obtain ⟨k, hk, hnear⟩ := trail_near hT
    have : k = m + 1 := by omega
    subst this
    have hs : ∃ c b, Trail n G W0 t p q (m + 1) c ∧ CellAt n G W0 c b ∧ b.ty = t ∧ CellAt n G W0 g b ∧ ¬ Within n G W0 t q (m + 1) g := by
      generalize hi : m + 1 + 1 = i at hT
      cases hT with
      | first a b c d e => omega
      | next a b c d e =>
        have := Nat.succ.inj hi
        subst this
        exact ⟨_, _, a, b, c, d, e⟩
    obtain ⟨c0, b, hT', hcb, hbt, hgb, hng⟩ := hs
    obtain ⟨c, hc, rfl⟩ := L.all hfull p hp q hq hqp _ hT'
    obtain ⟨-, -, ca, ct, -⟩ := L.sound p hp q c hc
    have ca1 := ((h4 p hp).old c ca).1
    rw [← (h4 p hp).name ca] at hcb
    obtain ⟨js, hjs, hjm⟩ := adj_down P R (t := t) ca1 (by omega)
    obtain ⟨y, hy, hyn, -⟩ := below_of_part P ca1 hcb.part
    subst hyn
    have hyt : y.ty = t := hbt
    obtain ⟨l, hl, hlm⟩ := adj_cells P R hy (by omega)
    obtain ⟨x, hx, hxn⟩ := h6 hfull p hp g g hnear .self
    subst hxn
    refine ⟨x, (hcur p q hp).2.1 c hc js hjs y ((hjm y).2 ⟨hy, hyt, hcb.part⟩) l hl x ((hlm x).2 ⟨hx, hgb.cell, hgb.part⟩) ?_ ?_, rfl⟩
    · intro hxc
      obtain ⟨-, -, xa, -, xw⟩ := L.sound p hp q x hxc
      rw [← (h4 p hp).name xa] at xw
      exact hng xw
    · intro hw
      exact hng ((hw hfull).mono (by omega))

theorem spread_congr {W W' : Nat → Side V} (h : ∀ p, p < n → W' p = W p) (H : Spread n cn G W) : Spread n cn G W' where
  piece p hp := by rw [h p hp]; exact H.piece p hp
  sorted p hp := by rw [h p hp]; exact H.sorted p hp
  procs p hp e he q := by
    rw [h p hp] at he ⊢
    rw [H.procs p hp e he]
    constructor
    · rintro ⟨a, b⟩; exact ⟨a, by rw [h q a]; exact b⟩
    · rintro ⟨a, b⟩; rw [h q a] at b; exact ⟨a, b⟩
  home p hp e he := by
    rw [h p hp] at he ⊢
    obtain ⟨a, b⟩ := H.home p hp e he
    exact ⟨a, by rw [h _ a]; exact b⟩
  ghost p hp := by rw [h p hp]; exact H.ghost p hp
  own p hp := by rw [h p hp]; exact H.own p hp
  sh p hp := by rw [h p hp]; exact H.sh p hp
  gh p hp := by rw [h p hp]; exact H.gh p hp

/-- The loop over the layers. -/
theorem rest_result (ok : G.Ok) (fresh : Fresh cn pick) (H0 : Spread n cn G W0) (R : Regular cn G) (ht : t < 3)
    {full : Prop} (homely : full → Homely n G W0 t) : ∀ {k : Nat} {cur : Nat → Nat → List El} {m : Nat} {W W' : Nat → Side V},
    Level n t cn G full W0 W cur m → Rest n t byNum dup pick k cur W W' →
    Spread n cn G W' ∧ (∀ p, p < n → ∀ g, Has (W' p) g → Has (W0 p) g ∨ ∃ c, Within n G W0 t p (m + k) c ∧ Part cn G c g) ∧
      (full → ∀ p, p < n → ∀ c g, Within n G W0 t p (m + k) c → Part cn G c g → Has (W' p) g) ∧
      (∀ p, p < n → Kept (W p) (W' p)) ∧ ∀ f, SameValues n W f → SameValues n W' f
  | 0, cur, m, W, W', L, h => by
    refine ⟨spread_congr h L.spread, fun p hp g => ?_, fun hf p hp => ?_, fun p hp => ?_, fun f hf p hp => ?_⟩
    · rw [h p hp]; exact L.only p hp g
    · rw [h p hp]; exact L.has hf p hp
    · rw [h p hp]; exact Kept.rfl' _
    · rw [h p hp]; exact hf p hp
  | k + 1, cur, m, W, W', L, h => by
    obtain ⟨W1, X, hx, h⟩ := h
    obtain ⟨r1, r2, r3, r3', r3'', r4, r5⟩ := level_exchange ok fresh H0 L hx
    by_cases hk : k = 0
    · rw [if_pos hk] at h
      subst hk
      refine ⟨spread_congr h r1, fun p hp g => ?_, fun hf p hp => ?_, fun p hp => ?_, fun f hf p hp => ?_⟩
      · rw [h p hp]; exact r3' p hp g
      · rw [h p hp]; exact r3'' hf p hp
      · rw [h p hp]; exact r4 p hp
      · rw [h p hp]; exact r5 f hf p hp
    · rw [if_neg hk] at h
      obtain ⟨cur', h1, h2⟩ := h
      obtain ⟨cur'', g1, L'⟩ := level_next H0 R ht homely L r1 r2 r3 r3' r3'' r4
      have he : ∀ p, p < n → ∀ q, cur'' p q = cur' p q := by
        intro p hp q
        have := (g1 p hp q).symm.trans (h1 p hp q)
        injection this
      have L' : Level n t cn G full W0 W1 (fun p q => (cur' p q).2) (m + 1) :=
        ⟨L'.spread, L'.mesh, L'.keep, L'.only, L'.has, fun p hp q c hc => L'.sound p hp q c (by simp only [he p hp q]; exact hc),
          fun hf p hp q hq hqp g hT => by
            obtain ⟨c, hc, hn⟩ := L'.all hf p hp q hq hqp g hT
            simp only [he p hp q] at hc
            exact ⟨c, hc, hn⟩⟩
      obtain ⟨s1, s2, s2', s3, s4⟩ := rest_result ok fresh H0 R ht homely L' h2
      rw [show m + 1 + k = m + (k + 1) by omega] at s2 s2'
      refine ⟨s1, s2, s2', fun p hp => (r4 p hp).trans (s3 p hp), fun f hf => s4 f (r5 f hf)⟩

theorem rest_exists (ok : G.Ok) (fresh : Fresh cn pick) (H0 : Spread n cn G W0) (R : Regular cn G) (ht : t < 3)
    {full : Prop} (homely : full → Homely n G W0 t) : ∀ {k : Nat} {cur : Nat → Nat → List El} {m : Nat} {W : Nat → Side V},
    Level n t cn G full W0 W cur m → ∃ W', Rest n t byNum dup pick k cur W W'
  | 0, cur, m, W, L => ⟨W, fun _ _ => rfl⟩
  | k + 1, cur, m, W, L => by
    obtain ⟨W1, X, hx, -, -⟩ := exchange_exists (byNum := byNum) dup ok L.spread fresh
      (sendto := fun p => sendtoOf n (W p) (cur p)) (fun p _ => marked_sendto _ _) (fun _ l => l) (fun _ l => l)
      (fun _ l => List.Perm.refl l) fun _ l => List.Perm.refl l
    obtain ⟨r1, r2, r3, r3', r3'', r4, r5⟩ := level_exchange ok fresh H0 L hx
    by_cases hk : k = 0
    · exact ⟨W1, W1, X, hx, by rw [if_pos hk]; exact fun _ _ => rfl⟩
    · obtain ⟨cur', g1, L'⟩ := level_next H0 R ht homely L r1 r2 r3 r3' r3'' r4
      obtain ⟨W', h⟩ := rest_exists ok fresh H0 R ht homely (k := k) L'
      exact ⟨W', W1, X, hx, by rw [if_neg hk]; exact ⟨cur', g1, h⟩⟩

/-- ExchangeGhost. -/
theorem ghost_result (ok : G.Ok) (fresh : Fresh cn pick) (H : Spread n cn G W) (R : Regular cn G) (two : TwoCells n G W)
    {layers : Nat} {W' : Nat → Side V}
    (h : ExchangeGhost n t byNum dup pick layers W W') :
    Spread n cn G W' ∧ (∀ p, p < n → ∀ g, Has (W' p) g → Has (W p) g ∨ ∃ c, Within n G W t p layers c ∧ Part cn G c g) ∧
      (Meets n G W t ∧ Homely n G W t → ∀ p, p < n → ∀ c g, Within n G W t p layers c → Part cn G c g → Has (W' p) g) ∧
      (∀ p, p < n → Kept (W p) (W' p)) ∧ ∀ f, SameValues n W f → SameValues n W' f := by
  obtain ⟨ht, bridge, hb, cur, hc, hr⟩ := h
  obtain ⟨cur', g1, L⟩ := level_first H R two ht (full := Meets n G W t ∧ Homely n G W t) And.left hb
  have he : ∀ p, p < n → ∀ q, cur' p q = cur p q := by
    intro p hp q
    have := (g1 p hp q).symm.trans (hc p hp q)
    injection this
  have L : Level n t cn G (Meets n G W t ∧ Homely n G W t) W W (fun p q => (cur p q).2) 0 :=
    ⟨L.spread, L.mesh, L.keep, L.only, L.has, fun p hp q c hc => L.sound p hp q c (by simp only [he p hp q]; exact hc),
      fun hf p hp q hq hqp g hT => by
        obtain ⟨c, hc, hn⟩ := L.all hf p hp q hq hqp g hT
        simp only [he p hp q] at hc
        exact ⟨c, hc, hn⟩⟩
  have := rest_result ok fresh H R ht And.right L hr
  rw [Nat.zero_add] at this
  exact this

theorem ghost_exists (ok : G.Ok) (fresh : Fresh cn pick) (H : Spread n cn G W) (R : Regular cn G) (two : TwoCells n G W)
    (ht : t < 3) (layers : Nat) :
    ∃ W', ExchangeGhost n t byNum dup pick layers W W' := by
  obtain ⟨bridge, hb⟩ := skinSet_exists H R two ht
  obtain ⟨cur, g1, L⟩ := level_first H R two ht (full := False) False.elim hb
  obtain ⟨W', h⟩ := rest_exists (byNum := byNum) (dup := dup) ok fresh H R ht False.elim (k := layers) L
  exact ⟨W', ht, bridge, hb, cur, g1, h⟩

end Verif.Layers
