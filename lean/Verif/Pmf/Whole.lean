import Verif.Pmf.Sections
import Verif.Pmf.Tags
import Verif.Topology.Lemmas
import Mathlib.Tactic.IntervalCases

/-!
# Reading back a whole file
-/

namespace Verif.Pmf
open Verif.Topology Verif.Binary

theorem flatMap_els {β : Type} (T : Topo) (ty : Nat) (w : El → List β) :
    (elsOf T ty).flatMap w = (List.range (T.last ty)).flatMap fun k => w ⟨ty, k⟩ := by
  simp [elsOf, List.flatMap_map]

theorem flatMap_sets {α β : Type} (l : List α) (w : α → List β) :
    l.flatMap w = (List.range l.length).flatMap fun k => (l[k]?.map w).getD [] := by
  induction l with
  | nil => rfl
  | cons a l ih =>
    rw [List.length_cons, List.range_succ_eq_map, List.flatMap_cons, List.flatMap_cons, List.flatMap_map, ih]
    simp

theorem Fits.lt {m : Machine} {lw v w : Nat} (h : Fits m lw w) (hv : v ≤ w) : Fits m lw v :=
  ⟨lt_of_le_of_lt hv h.1, lt_of_le_of_lt hv h.2⟩

variable {m : Machine} {lw : Nat} {x : Extra} {no only no' only' : List (List Nat)} {M M0 : PMesh}

theorem Fits.small (hm : Machines m lw) {v : Nat} (h : v < 256) : Fits m lw v := by
  have h1 := Nat.pow_le_pow_right (n := 256) (by omega) (show 1 ≤ m.width from hm.w.1)
  have h2 := Nat.pow_le_pow_right (n := 256) (by omega) (show 1 ≤ lw from hm.l.1)
  exact ⟨by omega, by omega⟩

/-- The numbers of elements of the mesh. -/
def full (M : PMesh) : Nat → Nat := fun ty => if ty < 4 then M.T.last ty else 0

theorem lowOk (S : Saveable m lw x no only M) {n : Nat → Nat} {ty k : Nat} (h1 : 0 < ty) (h4 : ty < 4) (hk : k < M.T.last ty)
    (hn : n (ty - 1) = M.T.last (ty - 1)) : LowOk m lw M.T n ty k := by
  have I := (reach_inv S.reach).1
  have ha : M.T.alive ⟨ty, k⟩ = true := (S.whole _).2 ⟨h4, hk⟩
  obtain ⟨a, b⟩ := S.low _ ha h1
  refine ⟨a, ?_, b⟩
  intro y hy
  have h5 : y.ty + 1 = ty := by have := (I.lowTy _ _ hy).1 (by simp only; omega); simpa using this
  have h6 := ((S.whole y).1 (I.lowLive hy).1).2
  have h7 : y.ty = ty - 1 := by omega
  refine ⟨h5, ?_, ?_⟩
  · rw [h7] at h6 ⊢; omega
  · have := S.counts y.ty (by omega)
    refine this.lt ?_
    rw [PMesh.num, if_pos (by omega)]
    omega

theorem nodesOk (S : Saveable m lw x no only M) {n : Nat → Nat} {k : Nat} (hk : k < M.T.last 3) (hn : n 0 = M.T.last 0)
    (hcn : M.T.cn = true) : M.T.high ⟨3, k⟩ ≠ [] ∧ Fits m lw (M.T.high ⟨3, k⟩).length ∧
      ∀ y ∈ M.T.high ⟨3, k⟩, y.ty = 0 ∧ y.id < n 0 ∧ Fits m lw y.id := by
  have I := (reach_inv S.reach).1
  have ha : M.T.alive ⟨3, k⟩ = true := (S.whole _).2 ⟨by simp, hk⟩
  obtain ⟨a, b⟩ := S.nodes _ ha rfl hcn
  refine ⟨a, b, ?_⟩
  intro y hy
  have h5 := ((I.highTy (fun h => h) hy).2 rfl).2
  have h6 := ((S.whole y).1 (I.highLive (fun h => h) hy).2).2
  rw [h5] at h6
  refine ⟨h5, by omega, ?_⟩
  have := S.counts 0 (by omega)
  refine this.lt ?_
  rw [PMesh.num, if_pos (by omega)]
  omega

/-- The variables after the header. -/
def start0 (m : Machine) (M : PMesh) (c : Nat → List Nat) (infos : List TagInfo) (L : List TagRec) (n : Nat → Nat) (s : Nat) : Ld :=
  state m M (fun ty => if ty < 5 then M.num ty else 0) c infos L n s

theorem rCount_ok (hm : Machines m lw) (S : Saveable m lw x no only M) {c : Nat → List Nat} {infos : List TagInfo} {L : List TagRec}
    {n : Nat → Nat} {s ty : Nat} (h : ty < 5) (r : Bytes) :
    rCount lw (start0 m M c infos L n s) ty (wI m (M.num ty) ++ r) = some (M.num ty, r) := by
  have hu : (start0 m M c infos L n s).u = m.conv := rfl
  have hs : (start0 m M c infos L n s).sizes ty = M.num ty := if_pos h
  unfold rCount
  simp only [hu, rI_wI hm (S.counts ty (by omega)), hs, if_true]

section tokens
variable {c : Nat → List Nat} {infos : List TagInfo} {L : List TagRec}

theorem tok_nodes (hm : Machines m lw) (S : Saveable m lw x no only M) (r : Bytes) :
    rToken lw no' only' (start0 m M c infos L (fun _ => 0) 0) 0x02
      (wI m (M.num 0) ++ ((List.range (M.num 0)).flatMap fun k => (M.coord k).flatMap (wF m)) ++ r) =
    some (start0 m M c infos L (set1 (fun _ => 0) 0 (M.T.last 0)) 0, r) := by
  unfold rToken
  rw [if_neg (by simp [start0, state])]
  simp only [show ¬ (0x02 : Nat) = 0x09 by decide, show ¬ (0x02 : Nat) = 0x08 by decide, show ¬ (0x02 : Nat) = 0x07 by decide,
    if_false, if_true, List.append_assoc, rCount_ok hm S (show (0 : Nat) < 5 by decide)]
  have e : (fun _ : Nat => (0 : Nat)) = set1 (fun _ => 0) 0 0 := by funext t; simp [set1]
  have key := rFold_range rNode (fun a => start0 m M c infos L (set1 (fun _ => 0) 0 a) 0)
    (fun k => (M.coord k).flatMap (wF m)) r (M.num 0) (by
      intro a ha r
      have hc := S.coord a ha
      have h0 : set1 (fun _ => (0 : Nat)) 0 a 0 = a := by simp [set1]
      have := rNode_state (m := m) (M := M) (sz := fun ty => if ty < 5 then M.num ty else 0) (c := c) (infos := infos) (L := L)
        (n := set1 (fun _ => 0) 0 a) (s := 0) (by simp [set1]) (by simp [set1]) (by rw [h0]; exact hc.1) (by rw [h0]; exact hc.2) r
      rw [inc_set1, h0] at this
      exact this)
  rw [← e] at key
  exact key

theorem tok_elems (hm : Machines m lw) (S : Saveable m lw x no only M) {n : Nat → Nat} {ty : Nat} (hty : ty = 1 ∨ ty = 2) (hn : n (ty - 1) = M.T.last (ty - 1))
    (hz : n ty = 0) (hup : n (ty + 1) = 0) (h3 : n 3 = 0) (r : Bytes) :
    rFold (rElem lw ty) (M.num ty) (start0 m M c infos L n 0) ((elsOf M.T ty).flatMap (wLow m M.T) ++ r) =
    some (start0 m M c infos L (set1 n ty (M.T.last ty)) 0, r) := by
  have e : set1 n ty 0 = n := by funext t; simp only [set1]; split <;> simp_all
  have hnum : M.num ty = M.T.last ty := by rw [PMesh.num, if_pos (by omega)]
  have key := rFold_range (rElem lw ty) (fun a => start0 m M c infos L (set1 n ty a) 0)
    (fun k => wLow m M.T ⟨ty, k⟩) r (M.T.last ty) (by
      intro a ha r
      have h0 : set1 n ty a ty = a := by simp [set1]
      have := rElem_state (m := m) (M := M) (sz := fun ty => if ty < 5 then M.num ty else 0) (c := c) (infos := infos) (L := L)
        (n := set1 n ty a) (s := 0) hm hty (by rw [set1_ne _ _ (by omega)]; exact hup) (by rw [set1_ne _ _ (by omega)]; exact h3)
        (by rw [h0]; exact lowOk S (by omega) (by omega) ha (by rw [set1_ne _ _ (by omega)]; exact hn)) r
      rw [inc_set1, h0] at this
      exact this)
  simp only [e] at key
  rw [flatMap_els, hnum]
  exact key

theorem tok_cells (hm : Machines m lw) (S : Saveable m lw x no only M) {n : Nat → Nat} (hn : n 2 = M.T.last 2) (hn0 : n 0 = M.T.last 0)
    (hz : n 3 = 0) (hup : n 4 = 0) (r : Bytes) :
    rFold (rCell lw) (M.num 3) (start0 m M c infos L n 0) ((elsOf M.T 3).flatMap (wCell m M.T) ++ r) =
    some (start0 m M c infos L (set1 n 3 (M.T.last 3)) 0, r) := by
  have e : set1 n 3 0 = n := by funext t; simp only [set1]; split <;> simp_all
  have hnum : M.num 3 = M.T.last 3 := by rw [PMesh.num, if_pos (by omega)]
  have key := rFold_range (rCell lw) (fun a => start0 m M c infos L (set1 n 3 a) 0)
    (fun k => wCell m M.T ⟨3, k⟩) r (M.T.last 3) (by
      intro a ha r
      have h0 : set1 n 3 a 3 = a := by simp [set1]
      have := rCell_state (m := m) (M := M) (sz := fun ty => if ty < 5 then M.num ty else 0) (c := c) (infos := infos) (L := L)
        (n := set1 n 3 a) (s := 0) hm (by rw [set1_ne _ _ (by omega)]; exact hup)
        (by rw [h0]; exact lowOk S (by omega) (by omega) ha (by rw [set1_ne _ _ (by omega)]; exact hn))
        (by rw [h0]; exact nodesOk S ha (by rw [set1_ne _ _ (by omega)]; exact hn0)) r
      rw [inc_set1, h0] at this
      exact this)
  simp only [e] at key
  rw [flatMap_els, hnum]
  exact key

theorem tok_sets (hm : Machines m lw) (S : Saveable m lw x no only M) {n : Nat → Nat} (hn : ∀ ty, ty < 4 → n ty = M.T.last ty) (r : Bytes) :
    rToken lw no' only' (start0 m M c infos L n 0) 0x06 (wI m (M.num 4) ++ M.sets.flatMap (wSet m) ++ r) =
    some (start0 m M c infos L n M.sets.length, r) := by
  have h4 : M.num 4 = M.sets.length := rfl
  have key := rFold_range (rSet lw) (fun a => start0 m M c infos L n a) (fun k => (M.sets[k]?.map (wSet m)).getD []) r M.sets.length (by
    intro a ha r
    have := rSet_state (m := m) (M := M) (sz := fun ty => if ty < 5 then M.num ty else 0) (c := c) (infos := infos) (L := L)
      (n := n) (s := a) hm ha (S.sets _ (List.getElem_mem ha)) hn S.setNames r
    simp only [List.getElem?_eq_getElem ha, Option.map_some, Option.getD_some]
    exact this)
  have e2 : convSets (List.range M.sets.length) (List.range M.sets.length) M.sets = some M.sets :=
    convSets_id _ _ (fun y hy => by have := convSet_ok (S.sets y hy); rwa [h4] at this) _ (fun k hk => List.mem_range.1 hk)
  have hl : (start0 m M c infos L n M.sets.length).links 4 = List.range M.sets.length := rfl
  have hs : (start0 m M c infos L n M.sets.length).M.sets = M.sets := by
    show M.sets.take M.sets.length = _
    simp
  unfold rToken
  rw [if_neg (by simp [start0, state])]
  simp only [show ¬ (0x06 : Nat) = 0x09 by decide, show ¬ (0x06 : Nat) = 0x08 by decide, show ¬ (0x06 : Nat) = 0x07 by decide,
    show ¬ (0x06 : Nat) = 0x02 by decide, show ¬ (0x06 : Nat) = 0x03 by decide, show ¬ (0x06 : Nat) = 0x04 by decide, show ¬ (0x06 : Nat) = 0x05 by decide,
    if_false, if_true, List.append_assoc, rCount_ok hm S (show (4 : Nat) < 5 by decide)]
  rw [h4, flatMap_sets M.sets (wSet m), key]
  simp only [hl, hs, e2]
  congr 2
  simp [start0, state]

end tokens

theorem rLoop_step {f tok : Nat} {st st' : Ld} {b b' : Bytes} (h : rToken lw no' only' st tok b = some (st', b')) :
    rLoop lw no' only' (f + 1) st (tok :: b) = rLoop lw no' only' f st' b' := by
  simp only [rLoop, h]

theorem rLoop_nil (f : Nat) (st : Ld) : rLoop lw no' only' f st [] = some st := by cases f <;> rfl

theorem tok_open {st : Ld} (h : st.start = false) (h0 : st.M.T.last 0 = 0) (r : Bytes) :
    rToken lw no' only' st 0x10 r = some ({ st with start := true }, r) := by
  unfold rToken
  rw [if_pos h, if_pos ⟨rfl, h0⟩]

theorem tok_close {c : Nat → List Nat} {infos : List TagInfo} {L : List TagRec} {n : Nat → Nat} {s : Nat} (r : Bytes) :
    rToken lw no' only' (start0 m M c infos L n s) 0x09 r = some ({ start0 m M c infos L n s with start := false }, r) := by
  unfold rToken
  rw [if_neg (by simp [start0, state]), if_pos rfl]

theorem tok_header (hm : Machines m lw) (S : Saveable m lw x no only M) (F : Fresh no only M M0) {st : Ld} (h : st.start = true)
    (hM : st.M = { M0 with T := upTo M.T fun _ => 0 }) (r : Bytes) :
    rToken lw no' only' st 0x08 ([writeOrder m.order, m.width, writeOrder m.order, m.width, 1, 8] ++
      ([M.dim, M.num 0, M.num 1, M.num 2, M.num 3, M.num 4, (savedTags no only M).length, x.state, x.rank].flatMap (wI m) ++
      (x.remember ++ r))) = some (start0 m M M0.coord [] M0.tags (fun _ => 0) 0, r) := by
  have hd : Fits m lw M.dim := Fits.small hm (by rcases S.dim with h | h <;> omega)
  have e := rMany_nums hm [M.dim, M.num 0, M.num 1, M.num 2, M.num 3, M.num 4, (savedTags no only M).length, x.state, x.rank] (by
    intro a ha
    simp only [List.mem_cons, List.not_mem_nil, or_false] at ha
    rcases ha with rfl | rfl | rfl | rfl | rfl | rfl | rfl | rfl | rfl
    · exact hd
    · exact S.counts 0 (by omega)
    · exact S.counts 1 (by omega)
    · exact S.counts 2 (by omega)
    · exact S.counts 3 (by omega)
    · exact S.counts 4 (by omega)
    · exact S.tagCount
    · exact S.extra.1
    · exact S.extra.2.1) (x.remember ++ r)
  have hd' : ¬ (M.dim ≠ 2 ∧ M.dim ≠ 3) := by rcases S.dim with h | h <;> omega
  unfold rToken
  rw [if_neg (by simp [h])]
  simp only [show ¬ (0x08 : Nat) = 0x09 by decide, if_false, if_true, List.cons_append, List.nil_append]
  unfold rHeader
  have e' : rMany (rI lw (⟨m.order, m.width⟩ : Conv)) 9 ([M.dim, M.num 0, M.num 1, M.num 2, M.num 3, M.num 4, (savedTags no only M).length, x.state, x.rank].flatMap (wI m) ++ (x.remember ++ r)) = _ := e
  simp only [rConv_order, e', rN_append x.remember _ 15 S.extra.2.2]
  rw [if_neg (by simpa using hd')]
  congr 2
  obtain ⟨st1, st2, st3, st4, st5, st6, st7⟩ := st
  simp only at h hM
  subst h hM
  simp only [start0, state, Machine.conv, Ld.mk.injEq, true_and]
  refine ⟨?_, ?_, ?_⟩
  · funext ty
    by_cases h5 : ty < 5
    · simp only [if_pos h5]
      interval_cases ty <;> rfl
    · simp only [if_neg h5]
  · funext ty
    simp [linksOf]
  · simp [F.sets]

/-- The tags after the file was read. -/
structure TagsRead (no only no' only' : List (List Nat)) (M M0 : PMesh) (L : List TagRec) : Prop where
  tags : ∀ t ∈ savedTags no only M, checkSkip t.name no' only' = false → ∃ u, patch t (allData t M.num) u ∈ L ∧ Ready t u
  nodup : (names L).Nodup
  others : ∀ u ∈ L, (∀ t ∈ savedTags no only M, checkSkip t.name no' only' = false → t.name ≠ u.name) → u ∈ M0.tags
  kept : ∀ u ∈ M0.tags, (∀ t ∈ savedTags no only M, checkSkip t.name no' only' = false → t.name ≠ u.name) → u ∈ L

theorem saved_nodup (S : Saveable m lw x no only M) : (names (savedTags no only M)).Nodup := by
  have := S.tagNames
  unfold names savedTags
  exact this.sublist (List.Sublist.map _ List.filter_sublist)

theorem forall₂_left {α β : Type} {P : α → β → Prop} {l : List α} {l' : List β} (F : List.Forall₂ P l l') {a : α} (h : a ∈ l) :
    ∃ b ∈ l', P a b := by
  induction F with
  | nil => cases h
  | cons hab _ ih =>
    rcases List.mem_cons.1 h with rfl | h
    · exact ⟨_, List.mem_cons_self .., hab⟩
    · obtain ⟨b, hb, hp⟩ := ih h
      exact ⟨b, List.mem_cons_of_mem _ hb, hp⟩

theorem forall₂_right {α β : Type} {P : α → β → Prop} {l : List α} {l' : List β} (F : List.Forall₂ P l l') {b : β} (h : b ∈ l') :
    ∃ a ∈ l, P a b := by
  induction F with
  | nil => cases h
  | cons hab _ ih =>
    rcases List.mem_cons.1 h with rfl | h
    · exact ⟨_, List.mem_cons_self .., hab⟩
    · obtain ⟨b, hb, hp⟩ := ih h
      exact ⟨b, List.mem_cons_of_mem _ hb, hp⟩

theorem forall₂_and {α β : Type} {P Q : α → β → Prop} {l : List α} {l' : List β} (F : List.Forall₂ P l l') (G : List.Forall₂ Q l l') :
    List.Forall₂ (fun a b => P a b ∧ Q a b) l l' := by
  induction F with
  | nil => exact .nil
  | cons hab _ ih =>
    cases G with
    | cons h G => exact .cons ⟨hab, h⟩ (ih G)

theorem load_parts {b b1 b2 b3 data rest : Bytes} {cv : Conv} {n : Nat} {sizes : List Nat} {T T' : Topo} {st : Ld}
    (h1 : rConv b = some (cv, b1)) (h2 : rI 8 cv b1 = some (n, b2)) (h3 : rMany (rI 8 cv) n b2 = some (sizes, b3))
    (h4 : rN sizes.sum b3 = some (data, rest)) (h5 : M0.T.beginMod = some T)
    (h6 : rLoop lw no' only' (data.length + 1)
      ⟨false, ⟨.little, lw⟩, ⟨.little, lw⟩, fun _ => 0, fun _ => [], [], { M0 with T := T }⟩ data = some st)
    (h7 : st.M.T.endMod (fun _ _ => false) = some T') :
    load lw no' only' M0 (0x10 :: b) = some { st.M with T := T' } := by
  unfold load
  simp only [h1, h2, h3, h4, h5, h6, h7]

theorem load_save (hm : Machines m lw) (S : Saveable m lw x no only M) (F : Fresh no only M M0) {file : Bytes} {M1 : PMesh}
    (hs : save m x no only M = some (file, M1)) (hl : file.length < 256 ^ 8) :
    ∃ L, load lw no' only' M0 file =
        some ⟨M.dim, { upTo M.T (full M) with hide := false }, fun k => if k < M.T.last 0 then M.coord k else M0.coord k, M.sets, L⟩ ∧
      TagsRead no only no' only' M M0 L := by
  unfold save at hs
  cases hb : body m x M (savedTags no only M) with
  | none => rw [hb] at hs; cases hs
  | some b =>
  rw [hb] at hs
  simp only [Option.some.injEq, Prod.mk.injEq] at hs
  obtain ⟨rfl, -⟩ := hs
  unfold body at hb
  cases hdat : wAll (wData m M.num) (savedTags no only M) with
  | none => rw [hdat] at hb; cases hb
  | some data =>
  rw [hdat] at hb
  simp only [Option.some.injEq] at hb
  have hbl : b.length < 256 ^ 8 := by
    simp only [List.length_append] at hl; omega
  have hsd := saved_nodup S
  generalize hts : savedTags no only M = ts at *
  -- the parts of the file
  obtain ⟨rSets, hrS⟩ : ∃ q, q = [0x11] ++ data ++ [0x09] := ⟨_, rfl⟩
  obtain ⟨rCells, hrC⟩ : ∃ q, q = 0x06 :: (wI m (M.num 4) ++ M.sets.flatMap (wSet m) ++ rSets) := ⟨_, rfl⟩
  obtain ⟨rFaces, hrF⟩ : ∃ q, q = 0x05 :: (wI m (M.num 3) ++ ((elsOf M.T 3).flatMap (wCell m M.T) ++ rCells)) := ⟨_, rfl⟩
  obtain ⟨rEdges, hrE⟩ : ∃ q, q = 0x04 :: (wI m (M.num 2) ++ ((elsOf M.T 2).flatMap (wLow m M.T) ++ rFaces)) := ⟨_, rfl⟩
  obtain ⟨rNodes, hrN⟩ : ∃ q, q = 0x03 :: (wI m (M.num 1) ++ ((elsOf M.T 1).flatMap (wLow m M.T) ++ rEdges)) := ⟨_, rfl⟩
  obtain ⟨rTags, hrT⟩ : ∃ q, q = 0x02 :: (wI m (M.num 0) ++ ((List.range (M.num 0)).flatMap fun k => (M.coord k).flatMap (wF m)) ++
    rNodes) := ⟨_, rfl⟩
  have hbb : b = 0x10 :: 0x08 :: ([writeOrder m.order, m.width, writeOrder m.order, m.width, 1, 8] ++
      ([M.dim, M.num 0, M.num 1, M.num 2, M.num 3, M.num 4, ts.length, x.state, x.rank].flatMap (wI m) ++
      (x.remember ++ (0x07 :: (wI m ts.length ++ (ts.flatMap (wTag m) ++ rTags)))))) := by
    rw [← hb, hrT, hrN, hrE, hrF, hrC, hrS]
    simp only [List.append_assoc, List.cons_append, List.nil_append]
  -- the tags
  let st0 : Ld := start0 m M M0.coord [] M0.tags (fun _ => 0) 0
  obtain ⟨infos, L1, e1, F1, n1, -, k1, o1⟩ := rTags_wTags (no := no') (ol := only') hm (st := st0) rfl rTags ts [] M0.tags
    (fun t ht => (S.tags t (hts ▸ ht)).1) hsd F.tagNames (fun t ht => F.tags t (hts ▸ ht))
  have t1 : rToken lw no' only' st0 0x07 (wI m ts.length ++ (ts.flatMap (wTag m) ++ rTags)) =
      some (start0 m M M0.coord infos L1 (fun _ => 0) 0, rTags) := by
    unfold rToken
    rw [if_neg (by simp [st0, start0, state])]
    simp only [show ¬ (0x07 : Nat) = 0x09 by decide, show ¬ (0x07 : Nat) = 0x08 by decide, if_false, if_true]
    have hu : st0.u = m.conv := rfl
    rw [hu, rI_wI hm (hts ▸ S.tagCount)]
    exact e1
  -- the elements
  let n0 : Nat → Nat := set1 (fun _ => 0) 0 (M.T.last 0)
  let n1' : Nat → Nat := set1 n0 1 (M.T.last 1)
  let n2' : Nat → Nat := set1 n1' 2 (M.T.last 2)
  let n3' : Nat → Nat := set1 n2' 3 (M.T.last 3)
  have hfull : n3' = full M := by
    funext t
    simp only [n3', n2', n1', n0, set1, full]
    by_cases h3 : t = 3
    · simp [h3]
    by_cases h2 : t = 2
    · simp [h2]
    by_cases h1 : t = 1
    · simp [h1]
    by_cases h0 : t = 0
    · simp [h0]
    rw [if_neg h3, if_neg h2, if_neg h1, if_neg h0, if_neg (by omega)]
  have t2 := tok_nodes (no' := no') (only' := only') (c := M0.coord) (infos := infos) (L := L1) hm S rNodes
  have t3 : rToken lw no' only' (start0 m M M0.coord infos L1 n0 0) 0x03
      (wI m (M.num 1) ++ ((elsOf M.T 1).flatMap (wLow m M.T) ++ rEdges)) = some (start0 m M M0.coord infos L1 n1' 0, rEdges) := by
    unfold rToken
    rw [if_neg (by simp [start0, state])]
    simp only [show ¬ (0x03 : Nat) = 0x09 by decide, show ¬ (0x03 : Nat) = 0x08 by decide, show ¬ (0x03 : Nat) = 0x07 by decide,
      show ¬ (0x03 : Nat) = 0x02 by decide, if_false, if_true, rCount_ok hm S (show (1 : Nat) < 5 by decide)]
    exact tok_elems hm S (Or.inl rfl) (by simp [n0, set1]) (by simp [n0, set1]) (by simp [n0, set1]) (by simp [n0, set1]) rEdges
  have t4 : rToken lw no' only' (start0 m M M0.coord infos L1 n1' 0) 0x04
      (wI m (M.num 2) ++ ((elsOf M.T 2).flatMap (wLow m M.T) ++ rFaces)) = some (start0 m M M0.coord infos L1 n2' 0, rFaces) := by
    unfold rToken
    rw [if_neg (by simp [start0, state])]
    simp only [show ¬ (0x04 : Nat) = 0x09 by decide, show ¬ (0x04 : Nat) = 0x08 by decide, show ¬ (0x04 : Nat) = 0x07 by decide,
      show ¬ (0x04 : Nat) = 0x02 by decide, show ¬ (0x04 : Nat) = 0x03 by decide, if_false, if_true, rCount_ok hm S (show (2 : Nat) < 5 by decide)]
    exact tok_elems hm S (Or.inr rfl) (by simp [n1', n0, set1]) (by simp [n1', n0, set1]) (by simp [n1', n0, set1])
      (by simp [n1', n0, set1]) rFaces
  have t5 : rToken lw no' only' (start0 m M M0.coord infos L1 n2' 0) 0x05
      (wI m (M.num 3) ++ ((elsOf M.T 3).flatMap (wCell m M.T) ++ rCells)) = some (start0 m M M0.coord infos L1 n3' 0, rCells) := by
    unfold rToken
    rw [if_neg (by simp [start0, state])]
    simp only [show ¬ (0x05 : Nat) = 0x09 by decide, show ¬ (0x05 : Nat) = 0x08 by decide, show ¬ (0x05 : Nat) = 0x07 by decide,
      show ¬ (0x05 : Nat) = 0x02 by decide, show ¬ (0x05 : Nat) = 0x03 by decide, show ¬ (0x05 : Nat) = 0x04 by decide,
      if_false, if_true, rCount_ok hm S (show (3 : Nat) < 5 by decide)]
    exact tok_cells hm S (by simp [n2', n1', n0, set1]) (by simp [n2', n1', n0, set1]) (by simp [n2', n1', n0, set1])
      (by simp [n2', n1', n0, set1]) rCells
  have t6 := tok_sets (no' := no') (only' := only') (c := M0.coord) (infos := infos) (L := L1) (n := n3') hm S
    (fun ty h => by rw [hfull, full, if_pos h]) rSets
  -- the data
  let st6 : Ld := start0 m M M0.coord infos L1 n3' M.sets.length
  have K : Links m M.num st6 := by
    refine ⟨rfl, rfl, ?_, ?_, rfl⟩
    · intro ty h
      show linksOf n3' M.sets.length ty = _
      unfold linksOf PMesh.num
      by_cases h4 : ty < 4
      · simp only [if_pos h4, hfull, full]
      · have : ty = 4 := by omega
        simp only [if_neg h4, if_pos this]
    · intro ty h
      exact if_pos h
  obtain ⟨L2, e2, n2, F2, o2⟩ := rDatas_wDatas (no := no') (ol := only') hm (st := st6) K [0x09] ts infos L1 data
    (fun t ht => (S.tags t (hts ▸ ht)).2) hsd n1 F1 hdat
  have t7 : rToken lw no' only' st6 0x11 (data ++ [0x09]) = some (start0 m M M0.coord infos L2 n3' M.sets.length, [0x09]) := by
    unfold rToken
    rw [if_neg (by simp [st6, start0, state])]
    simp only [show ¬ (0x11 : Nat) = 0x09 by decide, show ¬ (0x11 : Nat) = 0x08 by decide, show ¬ (0x11 : Nat) = 0x07 by decide,
      show ¬ (0x11 : Nat) = 0x02 by decide, show ¬ (0x11 : Nat) = 0x03 by decide, show ¬ (0x11 : Nat) = 0x04 by decide,
      show ¬ (0x11 : Nat) = 0x05 by decide, show ¬ (0x11 : Nat) = 0x06 by decide, if_false, if_true]
    exact e2
  have t8 := tok_close (lw := lw) (no' := no') (only' := only') (m := m) (M := M) (c := M0.coord) (infos := infos) (L := L2) (n := n3')
    (s := M.sets.length) []
  refine ⟨L2, ?_, ?_, ?_, ?_, ?_⟩
  · have hbm : M0.T.beginMod = some (upTo M.T fun _ => 0) := by rw [F.topo]; exact beginMod_init M.T
    have r1 : rI 8 ⟨m.order, 8⟩ (mem m.order 8 1 ++ (mem m.order 8 b.length ++ b)) = some (1, mem m.order 8 b.length ++ b) := by
      have := rI_mem (lw := 8) (o := m.order) (w := 8) (v := 1) widthOk8 (by omega) (by norm_num) (mem m.order 8 b.length ++ b)
      simpa using this
    have r2 : rI 8 ⟨m.order, 8⟩ (mem m.order 8 b.length ++ b) = some (b.length, b) := by
      have := rI_mem (lw := 8) (o := m.order) (w := 8) (v := b.length) widthOk8 (by omega) hbl b
      rwa [Nat.mod_eq_of_lt hbl] at this
    have r3 : rN b.length b = some (b, []) := by
      have := rN_append b [] b.length rfl
      simpa using this
    obtain ⟨f, hf⟩ : ∃ f, b.length + 1 = f + 10 := by
      refine ⟨b.length - 9, ?_⟩
      have : 9 ≤ b.length := by
        rw [hbb]; simp only [List.length_cons, List.length_append]; omega
      omega
    have hloop : rLoop lw no' only' (b.length + 1)
        ⟨false, ⟨.little, lw⟩, ⟨.little, lw⟩, fun _ => 0, fun _ => [], [], { M0 with T := upTo M.T fun _ => 0 }⟩ b =
        some { start0 m M M0.coord infos L2 n3' M.sets.length with start := false } := by
      rw [hf]
      conv_lhs => rw [hbb]
      rw [rLoop_step (tok_open rfl rfl _)]
      have th := tok_header (no' := no') (only' := only') hm S F (st := { (⟨false, ⟨.little, lw⟩, ⟨.little, lw⟩, fun _ => 0, fun _ => [], [],
        { M0 with T := upTo M.T fun _ => 0 }⟩ : Ld) with start := true }) rfl rfl (0x07 :: (wI m ts.length ++ (ts.flatMap (wTag m) ++ rTags)))
      rw [hts] at th
      rw [rLoop_step th, rLoop_step t1, hrT, rLoop_step t2, hrN, rLoop_step t3, hrE, rLoop_step t4, hrF, rLoop_step t5, hrC,
        rLoop_step t6, hrS]
      rw [show [0x11] ++ data ++ [0x09] = 0x11 :: (data ++ [0x09]) from rfl, rLoop_step t7, rLoop_step t8, rLoop_nil]
    have hT : (start0 m M M0.coord infos L2 n3' M.sets.length).M.T = upTo M.T (full M) := by rw [hfull]; rfl
    have r4 : rMany (rI 8 ⟨m.order, 8⟩) 1 (mem m.order 8 b.length ++ b) = some ([b.length], b) := by
      simp only [rMany, r2]
    have r5 : rConv (writeOrder m.order :: 8 :: (mem m.order 8 1 ++ (mem m.order 8 b.length ++ b))) = _ := rConv_order _ _ _
    have hend : ({ start0 m M M0.coord infos L2 n3' M.sets.length with start := false } : Ld).M.T.endMod (fun _ _ => false) =
        some { upTo M.T (full M) with hide := false } := by
      show (start0 m M M0.coord infos L2 n3' M.sets.length).M.T.endMod (fun _ _ => false) = _
      rw [hT, endMod_upTo]
    have := load_parts r5 r1 r4 (by rw [List.sum_singleton]; exact r3) hbm hloop hend
    rw [show [0x10] ++ [writeOrder m.order, 8] ++ mem m.order 8 1 ++ mem m.order 8 b.length ++ b =
      0x10 :: (writeOrder m.order :: 8 :: (mem m.order 8 1 ++ (mem m.order 8 b.length ++ b))) by
        simp only [List.append_assoc, List.cons_append, List.nil_append], this]
    congr 1
    have h0 : n3' 0 = M.T.last 0 := by rw [hfull]; rfl
    simp only [start0, state, h0, List.take_length]
  · intro t ht hk
    obtain ⟨i, hi, R, R'⟩ := forall₂_left (P := fun t i => Rel no' only' L1 t i ∧ ∀ p, i.pos = some p →
      ∃ u, L2[p]? = some (patch t (allData t M.num) u) ∧ Ready t u) (forall₂_and F1 F2) (hts ▸ ht)
    cases hp : i.pos with
    | none => rw [R.skip.1 hp] at hk; cases hk
    | some p =>
      obtain ⟨u, h1, h2⟩ := R' p hp
      exact ⟨u, List.mem_of_getElem? h1, h2⟩
  · rw [n2]; exact n1
  · intro u hu hk
    obtain ⟨j, hj, rfl⟩ := List.mem_iff_getElem.1 hu
    have hj' := List.getElem?_eq_getElem hj
    apply o1
    · have : ∀ i ∈ infos, i.pos ≠ some j := by
        intro i hi hp
        obtain ⟨t, ht, R, R'⟩ := forall₂_right (P := fun t i => Rel no' only' L1 t i ∧ ∀ p, i.pos = some p →
          ∃ u, L2[p]? = some (patch t (allData t M.num) u) ∧ Ready t u) (forall₂_and F1 F2) hi
        obtain ⟨u, h1, h2⟩ := R' j hp
        rw [hj'] at h1
        have hsk : checkSkip t.name no' only' = false := by
          cases hc : checkSkip t.name no' only' with
          | false => rfl
          | true => rw [R.skip.2 hc] at hp; cases hp
        apply hk t (hts ▸ ht) hsk
        rw [Option.some.inj h1]
        exact h2.name.symm
      rw [o2 j this] at hj'
      exact List.mem_of_getElem? hj'
    · exact fun t ht => hk t (hts ▸ ht)
  · intro u hu hk
    obtain ⟨j, hj, rfl⟩ := List.mem_iff_getElem.1 hu
    have hj' := k1 j _ (List.getElem?_eq_getElem hj) (fun t ht => hk t (hts ▸ ht))
    have : ∀ i ∈ infos, i.pos ≠ some j := by
      intro i hi hp
      obtain ⟨t, ht, R⟩ := forall₂_right F1 hi
      obtain ⟨u, h1, h2⟩ := R.ready j hp
      rw [hj'] at h1
      have hsk : checkSkip t.name no' only' = false := by
        cases hc : checkSkip t.name no' only' with
        | false => rfl
        | true => rw [R.skip.2 hc] at hp; cases hp
      apply hk t (hts ▸ ht) hsk
      rw [Option.some.inj h1]
      exact h2.name.symm
    rw [← o2 j this] at hj'
    exact List.mem_of_getElem? hj'

end Verif.Pmf
