import Verif.CellNodes.Count

/-! The loop over the sides of a hexahedron or a prism. -/

namespace Verif.CellNodes
open Verif.Topology Verif.EdgeLoop

variable {T : Topo} {n : Nat} {base verts : List El}

theorem side_skip {q r : Nat} {qs : List Nat} {ret : List (Option El)} {v : El} (hv : verts[q]? = some v) (hb : v ∉ base) :
    sideLoop n base verts (q :: qs) r ret = sideLoop n base verts qs r ret := by
  conv => lhs; unfold sideLoop
  rw [hv]
  simp only [if_neg hb]

theorem idx_base {i : Nat} {v : El} {us : List (Option El)} (hn : base.Nodup) (hl : base.length = n) (hi : base[i]? = some v) :
    ((base.map some ++ us).take n).idxOf (some v) = i := by
  obtain ⟨hlt, he⟩ := List.getElem?_eq_some_iff.1 hi
  rw [List.take_left' (by simpa using hl)]
  have hn' : (base.map some).Nodup := hn.map (fun a b h => Option.some.inj h)
  have := List.Nodup.idxOf_getElem hn' i (by simpa using hlt)
  rw [← this]
  congr 1
  simp [he]

theorem set_base {i : Nat} {us : List (Option El)} (hl : base.length = n) (z : Option El) :
    (base.map some ++ us).set (i + n) z = base.map some ++ us.set i z := by
  rw [List.set_append_right _ _ (by simp [hl])]
  simp [hl]

theorem side_nxt {q r i : Nat} {qs : List Nat} {us : List (Option El)} {v nxt prv : El} (hn : base.Nodup) (hl : base.length = n)
    (hv : verts[q]? = some v) (hi : base[i]? = some v) (hr : r < 2)
    (h4 : verts.length = 4) (h1 : verts[(q + 1) % 4]? = some nxt) (h2 : verts[(q + 4 - 1) % 4]? = some prv)
    (hb : nxt ∈ base) :
    sideLoop n base verts (q :: qs) r (base.map some ++ us) =
      sideLoop n base verts qs (r + 1) (base.map some ++ us.set i (some prv)) := by
  have hlt := (List.getElem?_eq_some_iff.1 hi).1
  conv => lhs; unfold sideLoop
  rw [hv]
  simp only [if_pos (List.mem_of_getElem? hi)]
  rw [idx_base hn hl hi, if_pos ⟨hr, by omega⟩, h4, h1, h2]
  simp only [if_pos hb]
  rw [set_base hl]

theorem side_prv {q r i : Nat} {qs : List Nat} {us : List (Option El)} {v nxt prv : El} (hn : base.Nodup) (hl : base.length = n)
    (hv : verts[q]? = some v) (hi : base[i]? = some v) (hr : r < 2)
    (h4 : verts.length = 4) (h1 : verts[(q + 1) % 4]? = some nxt) (h2 : verts[(q + 4 - 1) % 4]? = some prv)
    (hb : nxt ∉ base) (hb' : prv ∈ base) :
    sideLoop n base verts (q :: qs) r (base.map some ++ us) =
      sideLoop n base verts qs (r + 1) (base.map some ++ us.set i (some nxt)) := by
  have hlt := (List.getElem?_eq_some_iff.1 hi).1
  conv => lhs; unfold sideLoop
  rw [hv]
  simp only [if_pos (List.mem_of_getElem? hi)]
  rw [idx_base hn hl hi, if_pos ⟨hr, by omega⟩, h4, h1, h2]
  simp only [if_neg hb, if_pos hb']
  rw [set_base hl]

/-- A quadrilateral with two neighbouring nodes in the base: the nodes above them are stored. -/
theorem side_quad {i j : Nat} {x y u w : El} {us : List (Option El)} (hn : base.Nodup) (hl : base.length = n)
    (hx : base[i]? = some x) (hy : base[j]? = some y) (hij : i ≠ j) (hu : u ∉ base) (hw : w ∉ base)
    (hP : SameCycle verts [x, y, u, w]) :
    sideLoop n base verts (List.range verts.length) 0 (base.map some ++ us) =
      some (base.map some ++ (us.set i (some w)).set j (some u)) := by
  have hxb := List.mem_of_getElem? hx
  have hyb := List.mem_of_getElem? hy
  have hc := @List.set_comm _ (some w) (some u) i j us hij
  rcases quad_ways hP with rfl | rfl | rfl | rfl | rfl | rfl | rfl | rfl <;>
    rw [show List.range (List.length [_, _, _, _]) = [0, 1, 2, 3] from rfl]
  · rw [side_nxt hn hl rfl hx (by omega) rfl rfl rfl hyb, side_prv hn hl rfl hy (by omega) rfl rfl rfl hu hxb, side_skip rfl hu,
      side_skip rfl hw]; rfl
  · rw [side_prv hn hl rfl hy (by omega) rfl rfl rfl hu hxb, side_skip rfl hu, side_skip rfl hw,
      side_nxt hn hl rfl hx (by omega) rfl rfl rfl hyb, hc]; rfl
  · rw [side_skip rfl hu, side_skip rfl hw, side_nxt hn hl rfl hx (by omega) rfl rfl rfl hyb,
      side_prv hn hl rfl hy (by omega) rfl rfl rfl hu hxb]; rfl
  · rw [side_skip rfl hw, side_nxt hn hl rfl hx (by omega) rfl rfl rfl hyb, side_prv hn hl rfl hy (by omega) rfl rfl rfl hu hxb,
      side_skip rfl hu]; rfl
  · rw [side_skip rfl hw, side_skip rfl hu, side_nxt hn hl rfl hy (by omega) rfl rfl rfl hxb,
      side_prv hn hl rfl hx (by omega) rfl rfl rfl hw hyb, hc]; rfl
  · rw [side_skip rfl hu, side_nxt hn hl rfl hy (by omega) rfl rfl rfl hxb, side_prv hn hl rfl hx (by omega) rfl rfl rfl hw hyb,
      side_skip rfl hw, hc]; rfl
  · rw [side_nxt hn hl rfl hy (by omega) rfl rfl rfl hxb, side_prv hn hl rfl hx (by omega) rfl rfl rfl hw hyb, side_skip rfl hw,
      side_skip rfl hu, hc]; rfl
  · rw [side_prv hn hl rfl hx (by omega) rfl rfl rfl hw hyb, side_skip rfl hw, side_skip rfl hu,
      side_nxt hn hl rfl hy (by omega) rfl rfl rfl hxb]; rfl

/-- What a polygon of a prism over `base` is: not a side, or side number `i`. -/
inductive Kind (base tops : List El) (P : List El) : Prop
  | other : (P.filter fun x => decide (x ∈ base)).length ≠ 2 → Kind base tops P
  | side (i j : Nat) (x y u w : El) : base[i]? = some x → base[j]? = some y → tops[j]? = some u → tops[i]? = some w → i ≠ j →
      u ∉ base → w ∉ base → SameCycle P [x, y, u, w] → Kind base tops P

/-- Entries are unknown or right. -/
def Right (tops : List El) (us : List (Option El)) : Prop :=
  us.length = tops.length ∧ ∀ i, i < us.length → us[i]? = some none ∨ us[i]? = some tops[i]?

theorem right_set {tops : List El} {us : List (Option El)} {i : Nat} {z : El} (h : Right tops us) (hz : tops[i]? = some z) :
    Right tops (us.set i (some z)) ∧ (us.set i (some z))[i]? = some (some z) ∧
      ∀ (k : Nat) (z' : El), us[k]? = some (some z') → (us.set i (some z))[k]? = some (some z') := by
  have hi := (List.getElem?_eq_some_iff.1 hz).1
  have hi' : i < us.length := by rw [h.1]; exact hi
  refine ⟨⟨by simpa using h.1, fun k hk => ?_⟩, by simp [hi'], fun k z' hk => ?_⟩
  · rw [List.length_set] at hk
    by_cases e : i = k
    · subst e; right; simp [hi', hz]
    · rw [List.getElem?_set_ne e]; exact h.2 k hk
  · by_cases e : i = k
    · subst e
      rcases h.2 i hi' with h' | h'
      · rw [h'] at hk; cases hk
      · rw [h', hz] at hk
        cases hk
        simp [hi']
    · rw [List.getElem?_set_ne e]; exact hk

theorem sides_spec {tops : List El} (hn : base.Nodup) (hl : base.length = n) :
    ∀ (fs : List El) (F : List (List El)) (us : List (Option El)), List.Forall₂ (Poly T) fs F →
      (∀ P ∈ F, Kind base tops P) → Right tops us →
      ∃ us', sides T n base fs (base.map some ++ us) = some (base.map some ++ us') ∧ Right tops us' ∧
        (∀ (k : Nat) (z : El), us[k]? = some (some z) → us'[k]? = some (some z)) ∧
        ∀ P ∈ F, ∀ (i j : Nat) (x y u w : El), base[i]? = some x → base[j]? = some y → tops[j]? = some u → tops[i]? = some w →
          i ≠ j → u ∉ base → w ∉ base → SameCycle P [x, y, u, w] → us'[i]? = some (some w) ∧ us'[j]? = some (some u)
  | [], _, us, .nil, _, hR => ⟨us, rfl, hR, fun _ _ h => h, fun _ h => by cases h⟩
  | f :: fs, P :: F, us, .cons hf hF, hK, hR => by
    have hcount := nbNodes_poly hf (fun x => decide (x ∈ base))
    have two : ∀ (i j : Nat) (x y u w : El), base[i]? = some x → base[j]? = some y → u ∉ base → w ∉ base → SameCycle P [x, y, u, w] →
        (P.filter fun x => decide (x ∈ base)).length = 2 := by
      intro i j x y u w hx hy hu hw hP
      rw [(hP.perm.filter _).length_eq]
      simp [List.mem_of_getElem? hx, List.mem_of_getElem? hy, hu, hw]
    rcases hK P (List.mem_cons_self ..) with h | ⟨i, j, x, y, u, w, hx, hy, hu, hw, hij, hub, hwb, hP⟩
    · obtain ⟨us', e, h1, h2, h3⟩ := sides_spec hn hl fs F us hF (fun Q hQ => hK Q (List.mem_cons_of_mem _ hQ)) hR
      refine ⟨us', ?_, h1, h2, fun Q hQ i j x y u w hx hy hu hw hij hub hwb hP => ?_⟩
      · unfold sides; rw [if_neg (by rw [hcount]; exact h)]; exact e
      · rcases List.mem_cons.1 hQ with rfl | hQ
        · exact absurd (two i j x y u w hx hy hub hwb hP) h
        · exact h3 Q hQ i j x y u w hx hy hu hw hij hub hwb hP
    · obtain ⟨r1, s1, k1⟩ := right_set hR hw
      obtain ⟨r2, s2, k2⟩ := right_set r1 hu
      obtain ⟨us', e, h1, h2, h3⟩ := sides_spec hn hl fs F ((us.set i (some w)).set j (some u)) hF
        (fun Q hQ => hK Q (List.mem_cons_of_mem _ hQ)) r2
      refine ⟨us', ?_, h1, fun k z hk => h2 k z (k2 k z (k1 k z hk)), fun Q hQ i' j' x' y' u' w' hx' hy' hu' hw' hij' hub' hwb' hP' => ?_⟩
      · unfold sides
        rw [if_pos (by rw [hcount]; exact two i j x y u w hx hy hub hwb hP), poly_nodes hf]
        simp only [side_quad hn hl hx hy hij hub hwb hP]
        exact e
      · rcases List.mem_cons.1 hQ with rfl | hQ
        · -- the same two nodes
          have hmem : ∀ z, z ∈ [x, y, u, w] ↔ z ∈ [x', y', u', w'] := fun z => by
            rw [← hP.perm.mem_iff, hP'.perm.mem_iff]
          have hxx : ∀ {k : Nat} {z : El}, base[k]? = some z → z = x ∨ z = y → k = i ∨ k = j := by
            intro k z hk hz
            rcases hz with rfl | rfl
            · left
              exact (List.getElem?_inj (List.getElem?_eq_some_iff.1 hk).1 hn).1 (hk.trans hx.symm)
            · right
              exact (List.getElem?_inj (List.getElem?_eq_some_iff.1 hk).1 hn).1 (hk.trans hy.symm)
          have inb : ∀ z, z ∈ base → z ∈ [x, y, u, w] → z = x ∨ z = y := by
            intro z hz hm
            simp only [List.mem_cons, List.not_mem_nil, or_false] at hm
            rcases hm with h | h | h | h
            · exact Or.inl h
            · exact Or.inr h
            · subst h; exact absurd hz hub
            · subst h; exact absurd hz hwb
          have hi' := hxx hx' (inb x' (List.mem_of_getElem? hx') ((hmem x').2 (by simp)))
          have hj' := hxx hy' (inb y' (List.mem_of_getElem? hy') ((hmem y').2 (by simp)))
          have gi : us'[i]? = some tops[i]? := by rw [h2 i w (k2 i w s1), hw]
          have gj : us'[j]? = some tops[j]? := by rw [h2 j u s2, hu]
          have g : ∀ k, k = i ∨ k = j → us'[k]? = some tops[k]? := by
            rintro k (rfl | rfl)
            · exact gi
            · exact gj
          exact ⟨by rw [g i' hi', hw'], by rw [g j' hj', hu']⟩
        · exact h3 Q hQ i' j' x' y' u' w' hx' hy' hu' hw' hij' hub' hwb' hP'

theorem allValid_map : ∀ (l : List El), allValid (l.map some) = some l
  | [] => rfl
  | x :: l => by
    rw [List.map_cons]
    unfold allValid
    rw [allValid_map l]

theorem right_full {tops : List El} {us : List (Option El)} (h : Right tops us)
    (hf : ∀ (i : Nat) (z : El), tops[i]? = some z → us[i]? = some (some z)) : us = tops.map some := by
  refine List.ext_getElem? fun i => ?_
  rw [List.getElem?_map]
  cases hz : tops[i]? with
  | none =>
    rw [List.getElem?_eq_none_iff] at hz
    simp only [Option.map_none]
    rw [List.getElem?_eq_none_iff, h.1]; exact hz
  | some z => rw [hf i z hz]; rfl

theorem resize_eq {base : List El} {n : Nat} (h : base.length = n) (k : Nat) :
    resize (n + k) base = base.map some ++ List.replicate k none := by
  unfold resize
  rw [List.take_append, List.take_of_length_le (by simp; omega), List.take_replicate]
  simp [h]

end Verif.CellNodes
