import Verif.Split.CellLemmas

/-!
# Property C88: splitting a cell by faces

`SplitCell` replaces a cell by the cells that given faces cut out of it.  `splitCell W flip T dup prot c faces news` is the
call for the state `T`; the result is the new state and the returned cells.  `news` are the numbers and the nodes of the
cells that are created, in this order; `dup` is the topology check `DUPLICATE_CELL`, which is not set by default.
-/

namespace Verif.Split
open Verif.Topology Verif.EdgeLoop

variable {cn : Bool} {T T' : Topo} {flip : Topo → El → Bool} {K : Type} {W : Incident.Meas El K} {dup prot : Bool} {c : El}
  {faces ret : List El} {news : List (Nat × List El)}

theorem mem_innerOf' {x : El} : x ∈ innerOf T c faces ↔ x ∈ faces ∧ x ∉ facesOf T c := by
  unfold innerOf facesOf
  rw [List.mem_filter, decide_eq_true_iff]

/-- C88: nothing happens if there are no faces or the cell is protected, and the cell itself is returned if all
faces are in its boundary. -/
theorem C88_noop (h : splitCell W flip T dup prot c faces news = some (T', ret)) :
    (faces = [] ∨ prot = true → T' = T ∧ ret = []) ∧
    (faces ≠ [] → prot = false → (∀ g ∈ faces, g ∈ facesOf T c) → T' = T ∧ ret = [c]) := by
  unfold splitCell at h
  split at h
  · cases h
  refine ⟨fun hp => ?_, fun h1 h2 h3 => ?_⟩
  · rw [if_pos hp] at h
    cases h
    exact ⟨rfl, rfl⟩
  · rw [if_neg (by simp [h1, h2])] at h
    split at h
    · cases h
      exact ⟨rfl, rfl⟩
    next hne =>
      exfalso
      apply hne
      rw [List.eq_nil_iff_forall_not_mem]
      exact fun e he => (mem_innerOf'.1 he).2 (h3 e (mem_innerOf'.1 he).1)

/-- The elements of the loops. -/
theorem CellArgs.elems (I : Inv T (fun _ => False)) (A : CellArgs T c faces) (hal : ∀ g ∈ faces, T.alive g = true) {g : El}
    (hg : g ∈ innerOf T c faces ∨ g ∈ facesOf T c) : T.alive g = true ∧ g.ty = 2 ∧ T.hid g = false ∧ g ≠ c := by
  have hc := A.cell
  rcases hg with h | h
  · have h1 := (mem_innerOf'.1 h).1
    have := A.face g h1
    exact ⟨hal g h1, this.1, this.2, by rintro rfl; omega⟩
  · obtain ⟨h1, h2⟩ := List.mem_filter.1 h
    have := (I.lowTy c g h1).1 (by omega)
    exact ⟨(I.lowLive h1).1, by omega, by simpa using h2, by rintro rfl; omega⟩

theorem makeCells_reach : ∀ (ls : List (List El)) (news : List (Nat × List El)) (T T' : Topo) (cs : List El),
    Reach cn T → (∀ l ∈ ls, ∀ x ∈ l, T.alive x = true ∧ x.ty = 2) →
    (∀ p ∈ news, ∀ n ∈ p.2, T.alive n = true ∧ n.ty = 0) → makeCells dup ls news T = some (T', cs) → Reach cn T'
  | [], news, T, T', cs, r, _, _, h => by cases h; exact r
  | l :: ls, news, T, T', cs, r, hl, hn, h => by
    unfold makeCells at h
    split at h
    · exact makeCells_reach ls news T T' cs r (fun l' h' => hl l' (by simp [h'])) hn h
    split at h
    · cases h
    next id nodes news =>
    split at h
    case h_2 => cases h
    next T1 g new e1 =>
    split at h
    · cases h
    next T2 cs' e2 =>
    simp only [Option.some.injEq, Prod.mk.injEq] at h
    obtain ⟨rfl, rfl⟩ := h
    have A : CreateArgs T 3 l nodes := ⟨by simp, fun x hx => by
      have := hl l (by simp) x hx
      exact ⟨this.1, by omega⟩, fun x hx => hn (id, nodes) (by simp) x hx⟩
    have hmono : ∀ x, T.alive x = true → T1.alive x = true := by
      have e1' := e1
      unfold Topo.create at e1'
      split at e1'
      · cases e1'
      split at e1'
      · cases e1'
      · cases e1'; exact fun _ h => h
      split at e1'
      · cases e1'
      next hd =>
      have hd : T.alive ⟨3, id⟩ = false := by simpa using hd
      split at e1'
      · cases e1'
      next T1' e0 =>
      simp only [Option.some.injEq, Prod.mk.injEq] at e1'
      obtain ⟨rfl, rfl, -⟩ := e1'
      have k := (createUp_some (reach_inv r).1 hd (by simp)
        (fun hm => by have := (A.elemsOk _ hm).2; simp at this)
        (fun hm => by have := (A.nodesOk _ hm).2; simp at this) (by simp) e0).2.1
      intro x hx
      rw [k, set1_ne _ _ (by rintro rfl; rw [hd] at hx; cases hx)]; exact hx
    exact makeCells_reach ls news T1 _ cs' (.create dup 3 id l nodes r A e1)
      (fun l' h' x hx => ⟨hmono x (hl l' (by simp [h']) x hx).1, (hl l' (by simp [h']) x hx).2⟩)
      (fun p hp n hnm => ⟨hmono n (hn p (by simp [hp]) n hnm).1, (hn p (by simp [hp]) n hnm).2⟩) e2

section
variable (r : Reach cn T) (A : CellArgs T c faces) (hin : ∃ g ∈ faces, g ∉ facesOf T c)
  (hn : ∀ p ∈ news, ∀ n ∈ p.2, T.alive n = true ∧ n.ty = 0)
include r A hin hn

/-- C88: the state after the call is a state of a mesh: upward and downward connections agree (C11). -/
theorem C88_reach (h : splitCell W flip T dup false c faces news = some (T', ret)) : Reach cn T' := by
  obtain ⟨g, h1, h2⟩ := hin
  obtain ⟨ha, hal, ls, T1, hl, hd, hm⟩ := splitCell_parts h (List.ne_nil_of_mem (mem_innerOf'.2 ⟨h1, h2⟩))
  have I := (reach_inv r).1
  have hc := A.cell
  obtain ⟨T1', hd', G⟩ := gone (flip := flip) I A.cell ha
  rw [hd] at hd'
  cases hd'
  refine makeCells_reach ls news T1 T' ret (.delete flip c r ha hd) (fun l hlm x hx => ?_) (fun p hp n hnm => ?_) hm
  · obtain ⟨q1, q2, -, q4⟩ := A.elems I hal ((Incident.C86_closed hl hlm).2.2.1 x hx)
    exact ⟨(G.alive x q4).trans q1, q2⟩
  · obtain ⟨q1, q2⟩ := hn p hp n hnm
    exact ⟨(G.alive n (by rintro rfl; omega)).trans q1, q2⟩

variable (h : splitCell W flip T false false c faces news = some (T', ret))
include h

theorem cell_out : T.alive c = true ∧ (∀ g ∈ faces, T.alive g = true) ∧ ∃ ls T1,
      Incident.loops W T.low (innerOf T c faces) (facesOf T c) = some ls ∧ Gone T c T1 ∧
      Made T1 (bigOf ls) news ret T' := by
  obtain ⟨g, h1, h2⟩ := hin
  obtain ⟨ha, hal, ls, T1, hl, hd, hm⟩ := splitCell_parts h (List.ne_nil_of_mem (mem_innerOf'.2 ⟨h1, h2⟩))
  have I := (reach_inv r).1
  have hc := A.cell
  obtain ⟨T1', hd', G⟩ := gone (flip := flip) I A.cell ha
  rw [hd] at hd'
  cases hd'
  refine ⟨ha, hal, ls, T1, hl, G, makeCells_made ls news T1 T' ret G.inv (fun l hlm x hx => ?_) (fun p hp n hnm => ?_) hm⟩
  · obtain ⟨q1, q2, -, q4⟩ := A.elems I hal ((Incident.C86_closed hl hlm).2.2.1 x hx)
    exact ⟨(G.alive x q4).trans q1, q2⟩
  · obtain ⟨q1, q2⟩ := hn p hp n hnm
    exact ⟨(G.alive n (by rintro rfl; omega)).trans q1, q2⟩

omit r A hin hn h in
theorem cell_keep {T1 : Topo} {ls : List (List El)} (G : Gone T c T1) (M : Made T1 ls news ret T') {x : El}
    (hx : x ≠ c) (ha : T.alive x = true) : T'.alive x = true ∧ T'.hid x = T.hid x ∧ (x.ty ≠ 0 → (T'.low x).Perm (T.low x)) ∧
      (x.ty = 3 → (T'.high x).Perm (T.high x)) := by
  have h1 := (G.alive x hx).trans ha
  obtain ⟨q1, q2, q3, q4⟩ := M.keep x h1
  refine ⟨q1, ?_, fun h0 => by rw [q3 h0]; exact G.low x hx h0 ha, fun h0 => by rw [q4 h0]; exact G.high x hx h0 ha⟩
  rw [← G.hid x hx ha]
  unfold Topo.hid
  rw [M.hide, q2]

omit r A hin hn h in
theorem mem_zip_of_right {ls : List (List El)} (hlen : ret.length = ls.length) {g : El} (hg : g ∈ ret) :
    ∃ l, (l, g) ∈ ls.zip ret := by
  rw [← zip_snd hlen] at hg
  obtain ⟨⟨l, g'⟩, hp, rfl⟩ := List.mem_map.1 hg
  exact ⟨l, hp⟩

/-- C88: the returned cells are different new cells with at least four different faces, given ones or faces of the cell,
and are closed: every edge belongs to none or two of their faces.  The cell itself is gone. -/
theorem C88_cells : ret.Nodup ∧ (∀ g ∈ ret, g.ty = 3 ∧ T'.alive g = true ∧ T'.hid g = false ∧ (T.alive g = false ∨ g = c) ∧
      4 ≤ (T'.low g).length ∧ (T'.low g).Nodup ∧
      (∀ f ∈ T'.low g, (f ∈ faces ∨ f ∈ facesOf T c) ∧ T'.hid f = false ∧ g ∈ T'.high f) ∧
      ∀ e, facesAt T' g e = 0 ∨ facesAt T' g e = 2) ∧
    (c ∈ ret ∨ T'.alive c = false ∨ T'.hid c = true) := by
  obtain ⟨ha, hal, ls, T1, hl, G, M⟩ := cell_out r A hin hn h
  have r' := C88_reach r A hin hn h
  have I := (reach_inv r).1
  refine ⟨M.nodup, fun g hg => ?_, ?_⟩
  · obtain ⟨k1, k2, k3, k4⟩ := M.cells g hg
    obtain ⟨l, hp⟩ := mem_zip_of_right M.len hg
    have e := M.pair l g hp
    obtain ⟨hl1, hl2⟩ := List.mem_filter.1 (List.of_mem_zip hp).1
    obtain ⟨c1, c2, c3, c4⟩ := Incident.C86_closed hl hl1
    have hfs : ∀ f ∈ l, T.alive f = true ∧ f.ty = 2 ∧ T.hid f = false ∧ f ≠ c := fun f hf => A.elems I hal (c3 f hf)
    have hvis : ∀ f ∈ l, T'.hid f = false := fun f hf => by
      obtain ⟨q1, q2, q3, q4⟩ := hfs f hf
      rw [(cell_keep G M q4 q1).2.1]; exact q3
    refine ⟨k1, k3, ?_, ?_, ?_, ?_, fun f hf => ?_, fun e' => ?_⟩
    · unfold Topo.hid; rw [k4, Bool.and_false]
    · by_cases hgc : g = c
      · exact Or.inr hgc
      · rw [G.alive g hgc] at k2; exact Or.inl k2
    · rw [e]
      have : 3 < l.length := by simpa using hl2
      omega
    · rw [e]
      refine c4 (List.nodup_append'.2 ⟨A.nodup.filter _, A.once, fun x h1 h2 => (mem_innerOf'.1 h1).2 h2⟩)
    · refine ⟨?_, ?_, ((reach_inv r').1.mem (fun h => h)).1 hf⟩
      · rw [e] at hf
        rcases c3 f hf with h | h
        · exact Or.inl (mem_innerOf'.1 h).1
        · exact Or.inr h
      · rw [e] at hf; exact hvis f hf
    · have : facesAt T' g e' = Incident.uses T.low e' l := by
        unfold facesAt Incident.uses
        rw [e, List.filter_eq_self.2 fun f hf => by rw [hvis f hf]; rfl]
        refine List.countP_congr fun f hf => ?_
        obtain ⟨q1, q2, q3, q4⟩ := hfs f hf
        rw [decide_eq_true_iff, decide_eq_true_iff, ((cell_keep G M q4 q1).2.2.1 (by omega)).mem_iff]
      rw [this]
      exact c1 e'
  · cases hca : T'.alive c with
    | false => exact Or.inr (Or.inl rfl)
    | true =>
      rcases M.back c hca with k | k
      · right; right
        rcases G.self with q | ⟨q1, q2⟩
        · rw [q] at k; cases k
        · rw [← q2]
          unfold Topo.hid
          rw [M.hide, (M.keep c k).2.1]
      · exact Or.inl k

/-- C88: a face of the cell belongs to at most one returned cell, another given face to at most two, and a further face to none. -/
theorem C88_uses (f : El) :
    (f ∈ facesOf T c → (ret.countP fun g => decide (f ∈ T'.low g)) ≤ 1) ∧
    (f ∉ facesOf T c → f ∈ faces → (ret.countP fun g => decide (f ∈ T'.low g)) ≤ 2) ∧
    (f ∉ facesOf T c → f ∉ faces → (ret.countP fun g => decide (f ∈ T'.low g)) = 0) := by
  obtain ⟨ha, hal, ls, T1, hl, G, M⟩ := cell_out r A hin hn h
  obtain ⟨u1, u2⟩ := Incident.C86_uses
    (List.nodup_append'.2 ⟨A.nodup.filter _, A.once, fun x h1 h2 => (mem_innerOf'.1 h1).2 h2⟩) hl
  have e : (ret.countP fun g => decide (f ∈ T'.low g)) = (bigOf ls).countP fun l => decide (f ∈ l) :=
    (zip_count M.len fun l g hp => by rw [M.pair l g hp]).symm
  have hle : ((bigOf ls).countP fun l => decide (f ∈ l)) ≤ ls.countP fun l => decide (f ∈ l) :=
    List.filter_sublist.countP_le
  rw [e]
  refine ⟨fun h1 => le_trans hle (u2 f h1), fun h1 h2 => le_trans hle (u1 f (mem_innerOf'.2 ⟨h2, h1⟩)), fun h1 h2 => ?_⟩
  rw [List.countP_eq_zero]
  intro l hl' hm
  rcases (Incident.C86_closed hl (List.mem_filter.1 hl').1).2.2.1 f (by simpa using hm) with h | h
  · exact h2 (mem_innerOf'.1 h).1
  · exact h1 h

/-- C88: the rest of the mesh does not change: no element disappears but the cell, no element appears but the
returned cells, edges, faces and other cells keep their boundary (up to the order), other cells keep their nodes. -/
theorem C88_elsewhere :
    (∀ x, x ≠ c → T.alive x = true → T'.alive x = true ∧ T'.hid x = T.hid x) ∧
    (∀ x, T'.alive x = true → T'.hid x = false → (x ≠ c ∧ T.alive x = true) ∨ x ∈ ret) ∧
    (∀ x, x ≠ c → T.alive x = true → x.ty ≠ 0 → (T'.low x).Perm (T.low x)) ∧
    ∀ x, x ≠ c → T.alive x = true → x.ty = 3 → (T'.high x).Perm (T.high x) := by
  obtain ⟨ha, hal, ls, T1, hl, G, M⟩ := cell_out r A hin hn h
  refine ⟨fun x h1 h2 => ⟨(cell_keep G M h1 h2).1, (cell_keep G M h1 h2).2.1⟩, fun x h1 h2 => ?_,
    fun x h1 h2 => (cell_keep G M h1 h2).2.2.1, fun x h1 h2 => (cell_keep G M h1 h2).2.2.2⟩
  rcases M.back x h1 with k | k
  · left
    by_cases hxc : x = c
    · subst hxc
      exfalso
      rcases G.self with q | ⟨q1, q2⟩
      · rw [q] at k; cases k
      · have : T'.hid x = T1.hid x := by unfold Topo.hid; rw [M.hide, (M.keep x k).2.1]
        rw [this, q2] at h2; cases h2
    · rw [G.alive x hxc] at k; exact ⟨hxc, k⟩
  · exact Or.inr k

/-- C88: with cell-node connections the new cells have the nodes that were found for them. -/
theorem C88_nodes (i : Nat) (p : Nat × List El) (g : El) (hp : news[i]? = some p) (hg : ret[i]? = some g) :
    T'.high g = if T.cn = true then p.2 else [] := by
  obtain ⟨ha, hal, ls, T1, hl, G, M⟩ := cell_out r A hin hn h
  rw [M.nodes p g (List.mem_of_getElem? (i := i) (by rw [List.getElem?_zip_eq_some]; exact ⟨hp, hg⟩)), G.cn]

end

/-- `CreateCell` succeeds. -/
theorem createCell_total {l nodes : List El} {id : Nat} (A : CreateArgs T 3 l nodes) (h3 : l ≠ []) (hid : T.alive ⟨3, id⟩ = false) :
    ∃ T1, T.create false 3 id l nodes = some (T1, some ⟨3, id⟩, true) ∧ ∀ x, T1.alive x = set1 T.alive ⟨3, id⟩ true x := by
  have hup : ∃ T1, T.createUp ⟨3, id⟩ l nodes = some T1 ∧ T1.alive = set1 T.alive ⟨3, id⟩ true := by
    unfold Topo.createUp
    have hmono : ∀ x, T.alive x = true → (T.tie ⟨3, id⟩).alive x = true := by
      intro x hx
      show set1 T.alive ⟨3, id⟩ true x = true
      unfold set1; split
      · rfl
      · exact hx
    obtain ⟨T1, e1, s1⟩ := forEach_total (P := Same (T.tie ⟨3, id⟩))
      (g := fun T x => T.modHigh x (· ++ [(⟨3, id⟩ : El)])) l (T.tie ⟨3, id⟩) ⟨rfl, rfl⟩ (by
      rintro U x ⟨u1, u2⟩ hx
      obtain ⟨k1, k2⟩ := A.elemsOk x hx
      exact ⟨_, modHigh_total _ (by rw [u1]; exact hmono x k1) (Or.inl (by omega)), u1, u2⟩)
    simp only [e1]
    rw [modLow_total _ (by rw [s1.1]; exact set1_same _ _ _) (Or.inl (by simp))]
    simp only
    split
    · next hcn =>
      obtain ⟨T2, e2, s2⟩ := forEach_total (P := Same T1) (g := fun T x => T.modLow x (· ++ [(⟨3, id⟩ : El)])) nodes
        ({ T1 with low := set1 T1.low ⟨3, id⟩ (T1.low ⟨3, id⟩ ++ l) }) ⟨rfl, rfl⟩ (by
        rintro U x ⟨u1, u2⟩ hx
        obtain ⟨k1, k2⟩ := A.nodesOk x hx
        exact ⟨_, modLow_total _ (by rw [u1, s1.1]; exact hmono x k1) (Or.inr (by rw [u2, s1.2]; exact hcn.2)), u1, u2⟩)
      simp only [e2]
      rw [modHigh_total _ (by rw [s2.1, s1.1]; exact set1_same _ _ _) (Or.inr (by rw [s2.2, s1.2]; exact hcn.2))]
      exact ⟨{ T2 with high := set1 T2.high ⟨3, id⟩ (nodes ++ T2.high ⟨3, id⟩) }, rfl, s2.1.trans s1.1⟩
    · exact ⟨{ T1 with low := set1 T1.low ⟨3, id⟩ (T1.low ⟨3, id⟩ ++ l) }, rfl, s1.1⟩
  obtain ⟨T1, e1, s1⟩ := hup
  refine ⟨T1, ?_, fun x => by rw [s1]⟩
  unfold Topo.create
  rw [if_neg h3]
  simp [hid, e1]

theorem makeCells_total : ∀ (ls : List (List El)) (news : List (Nat × List El)) (T : Topo),
    (∀ l ∈ ls, ∀ x ∈ l, T.alive x = true ∧ x.ty = 2) → (∀ p ∈ news, ∀ n ∈ p.2, T.alive n = true ∧ n.ty = 0) →
    (news.map Prod.fst).Nodup → (∀ p ∈ news, T.alive ⟨3, p.1⟩ = false) → ls.length ≤ news.length →
    ∃ T' cs, makeCells false ls news T = some (T', cs)
  | [], news, T, _, _, _, _, _ => ⟨T, [], rfl⟩
  | l :: ls, [], T, _, _, _, _, h => by simp at h
  | l :: ls, p :: news, T, hl, hn, hnd, hd, hlen => by
    unfold makeCells
    split
    · exact makeCells_total ls (p :: news) T (fun l' h' => hl l' (by simp [h'])) hn hnd hd (by simp at hlen ⊢; omega)
    next hs =>
    have A : CreateArgs T 3 l p.2 := ⟨by simp, fun x hx => by
      have := hl l (by simp) x hx
      exact ⟨this.1, by omega⟩, fun x hx => hn p (by simp) x hx⟩
    obtain ⟨T1, e1, s1⟩ := createCell_total (id := p.1) A (by rintro rfl; simp at hs) (hd p (by simp))
    have hmono : ∀ x, T.alive x = true → T1.alive x = true := by
      intro x hx
      rw [s1]; unfold set1; split
      · rfl
      · exact hx
    rw [List.map_cons, List.nodup_cons] at hnd
    obtain ⟨T2, cs, e2⟩ := makeCells_total ls news T1
      (fun l' h' x hx => ⟨hmono x (hl l' (by simp [h']) x hx).1, (hl l' (by simp [h']) x hx).2⟩)
      (fun p' hp n hnm => ⟨hmono n (hn p' (by simp [hp]) n hnm).1, (hn p' (by simp [hp]) n hnm).2⟩) hnd.2 (fun p' hp => by
        rw [s1, set1_ne]
        · exact hd p' (by simp [hp])
        · intro h
          exact hnd.1 (List.mem_map.2 ⟨p', hp, congrArg El.id h⟩)) (by simpa using hlen)
    simp only [e1, e2]
    exact ⟨_, _, rfl⟩

/-- There are no more loops than uses of elements. -/
theorem loops_sum : ∀ (cols : List El) (ls : List (List El)) (n : El → Nat), (∀ l ∈ ls, ∃ c ∈ l, c ∈ cols) →
    (∀ c ∈ cols, (ls.countP fun l => decide (c ∈ l)) ≤ n c) → ls.length ≤ (cols.map n).sum
  | [], ls, n, h, _ => by
    cases ls with
    | nil => simp
    | cons l ls => obtain ⟨c, -, hc⟩ := h l (by simp); cases hc
  | x :: cols, ls, n, h, hb => by
    have h1 := loops_sum cols (ls.filter fun l => decide (x ∉ l)) n (fun l hl => by
      obtain ⟨hl1, hl2⟩ := List.mem_filter.1 hl
      obtain ⟨c, hc, hm⟩ := h l hl1
      rcases List.mem_cons.1 hm with rfl | hm
      · exact absurd hc (by simpa using hl2)
      · exact ⟨c, hc, hm⟩) fun c hc => le_trans List.filter_sublist.countP_le (hb c (by simp [hc]))
    have h2 := hb x (by simp)
    have h3 := List.length_eq_countP_add_countP (fun l => decide (x ∈ l)) (l := ls)
    have h4 : (ls.filter fun l => decide (x ∉ l)).length = ls.countP fun a => decide ¬ (decide (x ∈ a)) = true := by
      rw [List.countP_eq_length_filter]
      congr 1
      refine List.filter_congr fun l _ => by simp
    rw [List.map_cons, List.sum_cons]
    omega

/-- C88: the call has a defined outcome if there are enough unused numbers for new cells. -/
theorem C88_defined (r : Reach cn T) (A : CellArgs T c faces) (ha : T.alive c = true) (hal : ∀ g ∈ faces, T.alive g = true)
    (hn : ∀ p ∈ news, ∀ n ∈ p.2, T.alive n = true ∧ n.ty = 0) (hnd : (news.map Prod.fst).Nodup)
    (hd : ∀ p ∈ news, T.alive ⟨3, p.1⟩ = false) (hlen : 2 * faces.length + (facesOf T c).length ≤ news.length) :
    ∃ T' ret, splitCell W flip T false prot c faces news = some (T', ret) := by
  have I := (reach_inv r).1
  have hc := A.cell
  unfold splitCell
  rw [if_neg (by
    rintro (h | h)
    · rw [ha] at h; cases h
    · obtain ⟨e, h1, h2⟩ := List.any_eq_true.1 h
      rw [hal e h1] at h2; cases h2)]
  split
  · exact ⟨_, _, rfl⟩
  split
  · exact ⟨_, _, rfl⟩
  obtain ⟨ls, hl⟩ := Incident.C86_terminates W T.low (innerOf T c faces) (facesOf T c)
  have hl' := hl
  unfold facesOf at hl'
  simp only [hl']
  obtain ⟨T1, h1, G⟩ := gone (flip := flip) I hc ha
  simp only [h1]
  have hnd' : (innerOf T c faces ++ facesOf T c).Nodup :=
    List.nodup_append'.2 ⟨A.nodup.filter _, A.once, fun x h1 h2 => (mem_innerOf'.1 h1).2 h2⟩
  have hnum : ls.length ≤ news.length := by
    obtain ⟨u1, u2⟩ := Incident.C86_uses hnd' hl
    have := loops_sum (innerOf T c faces ++ facesOf T c) ls (fun x => if x ∈ innerOf T c faces then 2 else 1) (fun l hlm => by
      obtain ⟨-, q2, q3, -⟩ := Incident.C86_closed hl hlm
      obtain ⟨x, hx⟩ := List.exists_mem_of_ne_nil l q2
      exact ⟨x, hx, List.mem_append.2 (q3 x hx)⟩) (fun x hx => by
      split
      · next hi => exact u1 x hi
      · next hi => exact u2 x ((List.mem_append.1 hx).resolve_left hi))
    rw [List.map_append, List.sum_append] at this
    have e1 : ((innerOf T c faces).map fun x => if x ∈ innerOf T c faces then 2 else 1).sum = 2 * (innerOf T c faces).length := by
      rw [List.map_congr_left (g := fun _ => 2) fun x hx => if_pos hx, List.map_const', List.sum_replicate]
      simp [Nat.mul_comm]
    have e2 : ((facesOf T c).map fun x => if x ∈ innerOf T c faces then 2 else 1).sum = (facesOf T c).length := by
      rw [List.map_congr_left (g := fun _ => 1) fun x hx => if_neg fun hi => (mem_innerOf'.1 hi).2 hx, List.map_const',
        List.sum_replicate]
      simp
    have h2 : (innerOf T c faces).length ≤ faces.length := List.length_filter_le _ _
    omega
  refine makeCells_total ls news T1 (fun l hlm x hx => ?_) (fun p hp n hnm => ?_) hnd (fun p hp => ?_) hnum
  · obtain ⟨q1, q2, -, q4⟩ := A.elems I hal ((Incident.C86_closed hl hlm).2.2.1 x hx)
    exact ⟨(G.alive x q4).trans q1, q2⟩
  · obtain ⟨q1, q2⟩ := hn p hp n hnm
    exact ⟨(G.alive n (by rintro rfl; omega)).trans q1, q2⟩
  · rw [G.alive]
    · exact hd p hp
    · rintro rfl
      have := hd p hp
      rw [show (⟨3, p.1⟩ : El) = ⟨3, p.1⟩ from rfl, ha] at this
      cases this

end Verif.Split
