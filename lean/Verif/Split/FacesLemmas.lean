import Verif.Split.FacesSpec
import Verif.Split.CellsLemmas
import Verif.Split.FaceRun
import Verif.Split.FaceTotal

/-! Lemmas for uniting faces: the order of the edges. -/

namespace Verif.Split
open Verif.Topology Verif.EdgeLoop

variable {T T' : Topo} {flip : Topo → El → Bool} {unite : List El}

theorem nextNode_some {e n : El} {p : Option El} (h2 : ∃ a b, a ≠ b ∧ Joins T e a b) (h : nextNode T e p = some n) :
    n ∈ T.low e ∧ T.hid n = false ∧ (∃ b, b ≠ n ∧ Joins T e b n) ∧ ∀ m, p = some m → m ∈ lowv T e → m ≠ n ∧ Joins T e m n := by
  obtain ⟨a, b, hab, hj⟩ := h2
  unfold nextNode at h
  have key : ∀ x y, x ≠ y → (T.low e).filter (fun x => !T.hid x) = [x, y] →
      n ∈ T.low e ∧ T.hid n = false ∧ (∃ b, b ≠ n ∧ Joins T e b n) ∧
        ∀ m, p = some m → m ∈ lowv T e → m ≠ n ∧ Joins T e m n := by
    intro x y hxy hl
    rw [hl] at h
    have hmem : n ∈ [x, y] := by
      simp only at h
      split at h <;> simp at h <;> simp [h]
    have hn := hmem
    rw [← hl] at hn
    obtain ⟨n1, n2⟩ := List.mem_filter.1 hn
    refine ⟨n1, by simpa using n2, ?_, fun m hm hml => ?_⟩
    · rcases List.mem_pair.1 hmem with rfl | rfl
      · exact ⟨y, Ne.symm hxy, Or.inr hl⟩
      · exact ⟨x, hxy, Or.inl hl⟩
    · unfold lowv at hml
      rw [hl] at hml
      subst hm
      rcases List.mem_pair.1 hml with rfl | rfl
      · simp at h
        subst h
        exact ⟨hxy, Or.inl hl⟩
      · simp [hxy] at h
        subst h
        exact ⟨Ne.symm hxy, Or.inr hl⟩
  rcases hj with hj | hj
  · exact key a b hab hj
  · exact key b a (Ne.symm hab) hj

theorem nextNode_of {e m n : El} (hmn : m ≠ n) (h : Joins T e m n) : nextNode T e (some m) = some n := by
  unfold nextNode
  rcases h with h | h <;> rw [h] <;> simp
  exact fun h => absurd h.symm hmn

theorem searchEdge_some {first : El} {q : Nat} {marked : List El} : ∀ {l : List El} {r : Found},
    searchEdge T first q marked l = some r →
    (r = .closed ∧ q ≠ 1 ∧ first ∈ l ∧ T.hid first = false) ∨ ∃ x, r = .next x ∧ x ∈ l ∧ T.hid x = false ∧ x ∈ marked
  | [], r, h => by cases h
  | x :: xs, r, h => by
    unfold searchEdge at h
    split at h
    · exact (searchEdge_some h).imp (fun ⟨a, b, c, d⟩ => ⟨a, b, by simp [c], d⟩)
        fun ⟨y, a, b, c, d⟩ => ⟨y, a, by simp [b], c, d⟩
    next hx =>
    split at h
    · next hc =>
      cases h
      obtain ⟨rfl, hq⟩ := hc
      exact Or.inl ⟨rfl, hq, by simp, by simpa using hx⟩
    split at h
    · next hm =>
      cases h
      exact Or.inr ⟨x, rfl, by simp, by simpa using hx, hm⟩
    · exact (searchEdge_some h).imp (fun ⟨a, b, c, d⟩ => ⟨a, b, by simp [c], d⟩)
        fun ⟨y, a, b, c, d⟩ => ⟨y, a, by simp [b], c, d⟩

theorem searchEdge_is {first : El} {q : Nat} {marked : List El} {r : Found} : ∀ {l : List El},
    (∃ x ∈ l, T.hid x = false ∧ (x = first ∧ q ≠ 1 ∨ x ∈ marked)) →
    (∀ x ∈ l, T.hid x = false → (x = first ∧ q ≠ 1 → r = .closed) ∧ (¬ (x = first ∧ q ≠ 1) → x ∈ marked → r = .next x)) →
    searchEdge T first q marked l = some r
  | [], h, _ => by obtain ⟨x, hx, -⟩ := h; cases hx
  | x :: xs, h, hu => by
    unfold searchEdge
    obtain ⟨y, hy, hv, hc⟩ := h
    have hrec : y ∈ xs → searchEdge T first q marked xs = some r := fun hy' =>
      searchEdge_is ⟨y, hy', hv, hc⟩ fun z hz => hu z (by simp [hz])
    split
    · next hx =>
      rcases List.mem_cons.1 hy with rfl | hy
      · rw [hv] at hx; cases hx
      · exact hrec hy
    next hx =>
    have hx : T.hid x = false := by simpa using hx
    obtain ⟨u1, u2⟩ := hu x (by simp) hx
    split
    · next h1 => rw [u1 h1]
    next h1 =>
    split
    · next h2 => rw [u2 h1 h2]
    next h2 =>
    rcases List.mem_cons.1 hy with rfl | hy
    · rcases hc with hc | hc
      · exact absurd hc h1
      · exact absurd hc h2
    · exact hrec hy

/-- The edges that the loop appends are a path from the first node; at its end there is the first edge. -/
theorem walk_sound (I : Inv T (fun _ => False)) {first : El} : ∀ (fuel : Nat) (marked : List El) (last : El) (prev : Option El)
    (q : Nat) (es : List El), marked.Nodup → (∀ e ∈ last :: marked, ∃ a b, a ≠ b ∧ Joins T e a b) →
    walk T first fuel marked last prev q = some es →
    ∃ n m ns, nextNode T last prev = some n ∧ Path T n es ns m ∧ first ∈ T.high m ∧ T.hid m = false ∧ es.Nodup ∧
      (∀ e ∈ es, e ∈ marked) ∧ (q = 1 → es ≠ [])
  | 0, _, _, _, _, _, _, _, h => by cases h
  | fuel + 1, marked, last, prev, q, es, hn, h2, h => by
    unfold walk at h
    split at h
    · cases h
    next n e1 =>
    obtain ⟨n1, n2, -, -⟩ := nextNode_some (h2 last (by simp)) e1
    split at h
    · cases h
    · next e2 =>
      cases h
      rcases searchEdge_some e2 with ⟨-, hq, hf, -⟩ | ⟨x, hx, -⟩
      · exact ⟨n, n, [], e1, .nil n, hf, n2, by simp, by simp, fun h => absurd h hq⟩
      · cases hx
    · next e e2 =>
      split at h
      · cases h
      next es' e3 =>
      cases h
      rcases searchEdge_some e2 with ⟨hx, -⟩ | ⟨x, hx, x1, x2, x3⟩
      · cases hx
      cases hx
      obtain ⟨n', m, ns, k1, k2, k3, k4, k5, k6, -⟩ := walk_sound I fuel (marked.erase e) e (some n) (q + 1) es'
        (hn.erase e) (fun y hy => by
          rcases List.mem_cons.1 hy with rfl | hy
          · exact h2 y (by simp [x3])
          · exact h2 y (by simp [List.mem_of_mem_erase hy])) e3
      have hnl : n ∈ lowv T e := by
        unfold lowv
        exact List.mem_filter.2 ⟨(I.mem (fun h => h)).2 x1, by simp [n2]⟩
      obtain ⟨-, -, -, k7⟩ := nextNode_some (h2 e (by simp [x3])) k1
      refine ⟨n, m, n :: ns, e1, .cons (k7 n rfl hnl).2 k2, k3, k4, ?_, fun y hy => ?_, fun _ => by simp⟩
      · rw [List.nodup_cons]
        refine ⟨fun hm => ?_, k5⟩
        exact absurd (k6 e hm) (by rw [hn.mem_erase_iff]; simp)
      · rcases List.mem_cons.1 hy with rfl | hy
        · exact x3
        · exact List.mem_of_mem_erase (k6 y hy)

/-- Along a simple path to the other node of the first edge the loop takes all edges. -/
theorem walk_total (I : Inv T (fun _ => False)) {first b n0 : El} (hf : Joins T first b n0) (hfv : T.hid first = false) :
    ∀ (fuel : Nat) (marked es ns : List El) (last : El) (prev : Option El) (q : Nat) (n : El),
    es.length < fuel → nextNode T last prev = some n → Path T n es ns b → (b :: ns).Nodup → marked.Perm es →
    (∀ e ∈ es, T.hid e = false) → T.hid n = false →
    ((q = 1 ∧ n0 ∉ ns.tail ∧ es ≠ []) ∨ (1 < q ∧ n0 ∉ ns)) →
    walk T first fuel marked last prev q = some es
  | 0, _, _, _, _, _, _, _, h, _, _, _, _, _, _, _ => by omega
  | fuel + 1, marked, es, ns, last, prev, q, n, hlt, hnx, hp, hnd, hpm, hvis, hnv, hq => by
    have hend : ∀ {x : El}, x ∈ T.low first → T.hid x = false → x = b ∨ x = n0 := by
      intro x hx hv
      exact (joins_of hf x).1 (List.mem_filter.2 ⟨hx, by simp [hv]⟩)
    unfold walk
    rw [hnx]
    simp only
    cases hp with
    | nil =>
      have hq1 : q ≠ 1 := by
        rcases hq with ⟨-, -, h⟩ | ⟨h, -⟩
        · exact absurd rfl h
        · omega
      have hm : marked = [] := List.perm_nil.1 hpm
      have : searchEdge T first q marked (T.high b) = some .closed := by
        refine searchEdge_is ⟨first, ?_, hfv, Or.inl ⟨rfl, hq1⟩⟩ fun x _ _ => ⟨fun _ => rfl, fun _ h => by rw [hm] at h; cases h⟩
        have := (joins_of hf b).2 (Or.inl rfl)
        exact (I.mem (fun h => h)).1 (List.mem_filter.1 this).1
      rw [this]
    | @cons e _ m _ es' ns' hj hp' =>
      rw [List.nodup_cons] at hnd
      have hnd' := hnd.2
      rw [List.nodup_cons] at hnd'
      have hne : b ≠ n := fun h => hnd.1 (by simp [h])
      have hen := (joins_of hj n).2 (Or.inl rfl)
      have hes : searchEdge T first q marked (T.high n) = some (.next e) := by
        refine searchEdge_is ⟨e, (I.mem (fun h => h)).1 (List.mem_filter.1 hen).1, hvis e (by simp),
          Or.inr (hpm.symm.subset (by simp))⟩ fun x hx hxv => ⟨fun hc => ?_, fun hc hxm => ?_⟩
        · exfalso
          obtain ⟨rfl, hq1⟩ := hc
          rcases hend ((I.mem (fun h => h)).2 hx) hnv with h | h
          · exact hne h.symm
          · rcases hq with ⟨h', -⟩ | ⟨-, h'⟩
            · exact hq1 h'
            · exact h' (by simp [h])
        · congr 1
          rcases List.mem_cons.1 (hpm.subset hxm) with h | h
          · exact h.symm
          · exfalso
            obtain ⟨u, v, hj', hu, hv⟩ := hp'.mem h
            have : n ∈ lowv T x := List.mem_filter.2 ⟨(I.mem (fun h => h)).2 hx, by simp [hnv]⟩
            have hcorner : ∀ y, y ∈ ns' ++ [b] → y ≠ n := by
              rintro y hy rfl
              rcases List.mem_append.1 hy with hy | hy
              · exact hnd'.1 hy
              · exact hne (List.mem_singleton.1 hy).symm
            rcases (joins_of hj' n).1 this with h | h
            · exact hcorner u (List.mem_append_left _ hu) h.symm
            · exact hcorner v hv h.symm
      rw [hes]
      simp only
      have hmv : m ∈ lowv T e := (joins_of hj m).2 (Or.inr rfl)
      have hnm : n ≠ m := by
        rintro rfl
        cases hp' with
        | nil => exact hne rfl
        | cons => exact hnd'.1 (by simp)
      have hmem : e ∈ marked := hpm.symm.subset (by simp)
      rw [walk_total I hf hfv fuel (marked.erase e) es' ns' e (some n) (q + 1) m (by simp at hlt; omega) (nextNode_of hnm hj) hp'
        (List.nodup_cons.2 ⟨fun h => hnd.1 (by simp [h]), hnd'.2⟩)
        (by
          have := (List.perm_cons_erase hmem).symm.trans hpm
          exact (List.perm_cons e).1 this) (fun y hy => hvis y (by simp [hy]))
        (by simpa using (List.mem_filter.1 hmv).2) (Or.inr ⟨?_, ?_⟩)]
      · rcases hq with ⟨h, -⟩ | ⟨h, -⟩
        · omega
        · omega
      · rcases hq with ⟨-, h, -⟩ | ⟨-, h⟩
        · simpa using h
        · exact fun hm => h (by simp [hm])

/-! ## The lists -/

section
variable (I : Inv T (fun _ => False)) (A : FacesArgs T unite)
include A

theorem FacesArgs.once : ∀ f ∈ unite, (facesOf T f).Nodup := by
  intro f hf
  obtain ⟨ns, h, hn⟩ := A.polygon f hf
  obtain ⟨a, hp⟩ := h.path
  exact cycle_nodup hp hn h.three

theorem visited_visits (e : El) : (visited T unite).count e = visits T unite e := visited_count A.once e

theorem mem_outerEdges {e : El} : e ∈ outerEdges T unite ↔ visits T unite e = 1 := by
  unfold outerEdges
  rw [List.mem_filter, decide_eq_true_iff, visited_visits A, mem_keys]
  refine ⟨fun h => h.2, fun h => ⟨?_, h⟩⟩
  rw [← List.count_pos_iff, visited_visits A]; omega

theorem mem_innerEdges {e : El} : e ∈ innerEdges T unite ↔ visits T unite e = 2 := by
  unfold innerEdges
  rw [List.mem_filter, decide_eq_true_iff, visited_visits A, mem_keys]
  refine ⟨fun h => h.2, fun h => ⟨?_, h⟩⟩
  rw [← List.count_pos_iff, visited_visits A]; omega

theorem mem_innerCorners {n : El} : n ∈ innerCorners T unite ↔ Enclosed T unite n := by
  unfold innerCorners Enclosed
  rw [mem_unused, mem_gather]
  simp only [mem_innerEdges A]

theorem visits_edge {e : El} (h : 0 < visits T unite e) : ∃ f ∈ unite, e ∈ edgesOf T f := by
  obtain ⟨c, hc, hf⟩ := List.countP_pos_iff.1 h
  exact ⟨c, hc, of_decide_eq_true hf⟩

include I in
theorem visits_ok {e : El} (h : 0 < visits T unite e) : e.ty = 1 ∧ Visible T e := by
  obtain ⟨f, hf, he⟩ := visits_edge A h
  obtain ⟨h1, h2⟩ := mem_facesOf.1 he
  have h3 := (A.face f hf).1
  have := (I.lowTy f e h1).1 (by omega)
  exact ⟨by omega, (I.lowLive h1).1, h2⟩

theorem edge_ends {e : El} (h : 0 < visits T unite e) : ∃ a b, a ≠ b ∧ Joins T e a b := by
  obtain ⟨f, hf, he⟩ := visits_edge A h
  obtain ⟨ns, hl, hn⟩ := A.polygon f hf
  obtain ⟨x, hp⟩ := hl.path
  obtain ⟨es1, es2, heq⟩ := List.append_of_mem he
  obtain ⟨u, v, hj, -, -⟩ := hp.mem he
  refine ⟨u, v, ?_, hj⟩
  rintro rfl
  obtain ⟨rest, ns2, p1, p2, p3⟩ := cycle_at hp hn he hj
  cases p1 with
  | nil =>
    have := p3.length_eq
    have := hl.three
    simp at *
    omega
  | cons => simp at p2

include I in
theorem visited_ty : ∀ x ∈ visited T unite, x.ty = 1 := by
  intro x hx
  exact (visits_ok I A (by rw [← visited_visits A]; exact List.count_pos_iff.2 hx)).1

include I in
theorem nodup_lists : (outerEdges T unite).Nodup ∧ (innerEdges T unite).Nodup ∧ (innerCorners T unite).Nodup := by
  have h := keys_nodup (visited_ty I A)
  exact ⟨h.filter _, h.filter _, (nodup_gather _).filter _⟩

include I in
theorem visited_perm (h2 : ∀ e, visits T unite e ≤ 2) :
    (visited T unite).Perm (outerEdges T unite ++ (innerEdges T unite ++ innerEdges T unite)) := by
  rw [List.perm_iff_count]
  intro f
  obtain ⟨n1, n2, -⟩ := nodup_lists I A
  rw [visited_visits A, List.count_append, List.count_append]
  have c1 : (outerEdges T unite).count f = if visits T unite f = 1 then 1 else 0 := by
    split
    · next hv => exact List.count_eq_one_of_mem n1 ((mem_outerEdges A).2 hv)
    · next hv => exact List.count_eq_zero.2 fun hm => hv ((mem_outerEdges A).1 hm)
  have c2 : (innerEdges T unite).count f = if visits T unite f = 2 then 1 else 0 := by
    split
    · next hv => exact List.count_eq_one_of_mem n2 ((mem_innerEdges A).2 hv)
    · next hv => exact List.count_eq_zero.2 fun hm => hv ((mem_innerEdges A).1 hm)
  have := h2 f
  rw [c1, c2]
  split <;> split <;> omega

omit A in
theorem uses_append (low : El → List El) (r : El) (l l' : List El) :
    Incident.uses low r (l ++ l') = Incident.uses low r l + Incident.uses low r l' := by
  unfold Incident.uses
  rw [List.countP_append]

include I in
/-- At every node there is an even number of outer edges. -/
theorem outer_even (h2 : ∀ e, visits T unite e ≤ 2) (r : El) :
    Incident.uses (lowv T) r (outerEdges T unite) % 2 = 0 := by
  have hv : Incident.uses (lowv T) r (visited T unite) % 2 = 0 := by
    have hf : ∀ f ∈ unite, Incident.uses (lowv T) r (edgesOf T f) % 2 = 0 := by
      intro f hf
      obtain ⟨ns, hl, hn⟩ := A.polygon f hf
      obtain ⟨x, hp⟩ := hl.path
      have := path_uses hp (fun e he u v hj => by
        have hpos : 0 < visits T unite e := List.countP_pos_iff.2 ⟨f, hf, decide_eq_true he⟩
        obtain ⟨a, b, hab, hj'⟩ := edge_ends A hpos
        rintro rfl
        rcases hj with hj | hj <;> rcases hj' with hj' | hj' <;> rw [hj] at hj' <;> cases hj' <;> exact hab rfl) r
      split at this <;> omega
    unfold visited
    clear A I h2
    induction unite with
    | nil => rfl
    | cons f fs ih =>
      rw [List.flatMap_cons, uses_append]
      have h1 := hf f (by simp)
      have h2 := ih fun g hg => hf g (by simp [hg])
      unfold edgesOf at h1
      omega
  have hp : Incident.uses (lowv T) r (visited T unite) = _ := (visited_perm I A h2).countP_eq _
  rw [hp] at hv
  change Incident.uses (lowv T) r _ % 2 = 0 at hv
  rw [uses_append, uses_append] at hv
  omega

include I in
/-- The edges of the new face are a closed polygon that consists of the edges of exactly one of the faces. -/
theorem orderEdges_sound (h2 : ∀ e, visits T unite e ≤ 2) {es : List El} (h : orderEdges T unite = some es) :
    es.Nodup ∧ (∀ e, e ∈ es ↔ visits T unite e = 1) ∧ ∃ ns, Loop T es ns := by
  unfold orderEdges at h
  split at h
  · cases h
  next first rest hout =>
  split at h
  · cases h
  next es' hw =>
  split at h
  case isFalse => cases h
  next hlen =>
  cases h
  have hnd := (nodup_lists I A).1
  rw [hout] at hnd
  have hmem : ∀ e, e ∈ first :: rest ↔ visits T unite e = 1 := fun e => by rw [← hout, mem_outerEdges A]
  have hends : ∀ e ∈ first :: rest, ∃ a b, a ≠ b ∧ Joins T e a b := fun e he =>
    edge_ends A (by rw [(hmem e).1 he]; omega)
  obtain ⟨n, m, ns, k1, k2, k3, k4, k5, k6, k7⟩ := walk_sound I _ rest first none 1 es' (List.nodup_cons.1 hnd).2 hends hw
  have hperm : es'.Perm rest := (List.subperm_of_subset k5 k6).perm_of_length_le (by omega)
  have hpf : (first :: es').Perm (first :: rest) := hperm.cons _
  obtain ⟨-, -, ⟨b, hbn, hj⟩, -⟩ := nextNode_some (hends first (by simp)) k1
  have hm : m = b ∨ m = n :=
    (joins_of hj m).1 (List.mem_filter.2 ⟨(I.mem (fun h => h)).2 k3, by simp [k4]⟩)
  have hd : ∀ e ∈ es', ∀ x y, Joins T e x y → x ≠ y := by
    rintro e he x y hjx rfl
    obtain ⟨a, b, hab, hj'⟩ := hends e (by simp [k6 e he])
    rcases hjx with hj | hj <;> rcases hj' with hj' | hj' <;> rw [hj] at hj' <;> cases hj' <;> exact hab rfl
  have hmb : m = b := by
    rcases hm with hm | rfl
    · exact hm
    exfalso
    have e1 := outer_even I A h2 b
    rw [hout] at e1
    have e2 : Incident.uses (lowv T) b (first :: es') = Incident.uses (lowv T) b (first :: rest) := hpf.countP_eq _
    have e3 := path_uses k2 hd b
    have e4 : b ∈ lowv T first := (joins_of hj b).2 (Or.inl rfl)
    rw [← e2, Incident.uses_cons, if_pos e4] at e1
    rw [if_neg hbn] at e3
    omega
  subst hmb
  refine ⟨hpf.nodup_iff.2 hnd, fun e => by rw [hpf.mem_iff, hmem], ?_⟩
  have hp := Path.cons hj k2
  refine ⟨_, hp.loop ?_⟩
  cases k2 with
  | nil => exact absurd rfl hbn
  | @cons e _ m' _ es2 ns2 hj2 k2 =>
    cases k2 with
    | nil =>
      exfalso
      have hef : first = e := by
        have v1 := (hmem first).1 (by simp)
        have v2 := (hmem e).1 (by simp [k6 e (by simp)])
        obtain ⟨f, hf, hfe⟩ := visits_edge A (e := first) (by omega)
        obtain ⟨g, hg, hge⟩ := visits_edge A (e := e) (by omega)
        exact A.apart f hf g hg first hfe e hge _ _ hj hj2.symm
      have := List.nodup_cons.1 hnd
      exact this.1 (hef ▸ k6 e (by simp))
    | cons => simp

end

end Verif.Split
