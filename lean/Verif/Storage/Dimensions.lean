import Mathlib.Data.List.Nodup
import Mathlib.Algebra.Field.Rat
import Mathlib.Data.List.Basic
import Mathlib.Tactic.Ring
import Mathlib.Tactic.Linarith

/-!
Changing the number of coordinates of nodes, `Mesh::SetDimensions`, mesh.cpp L1892-1921.
-/

namespace Verif.Dimensions

/-- A tag with a fixed number of entries on nodes. `real` says that the data is of type DATA_REAL,
`data k` is the record of the node with the local identifier `k`. Data on other elements is not
modelled. -/
structure Tag where
  name : String
  real : Bool
  size : Nat
  data : Nat → List ℚ

/-- The mesh: number of coordinates, tags, name of the tag `tag_coords`, `NodeLastLocalID()`,
places that hold a node (`isValidElementNum(0,k)`, inmost_mesh.h L1519), hidden nodes. -/
structure St where
  dim : Nat
  tags : List Tag
  coords : String
  last : Nat
  valid : Nat → Bool
  hidden : Nat → Bool

/-- Outcomes: the new mesh, an exception, a failed assertion or an access outside of memory. -/
inductive Out where
  | ok (s : St)
  | throws
  | bad

/-- `NumberOfNodes()`, inmost_mesh.h L3071: hidden nodes are not counted. -/
def numberOfNodes (s : St) : Nat := ((List.range s.last).filter fun k => s.valid k && !s.hidden k).length

/-- `memcpy` into the vector `temp` at the position `pos`; `none` outside of the vector. -/
def copyTo (temp : List ℚ) (pos : Nat) (l : List ℚ) : Option (List ℚ) :=
  if pos + l.length ≤ temp.length then some (temp.take pos ++ l ++ temp.drop (pos + l.length)) else none

/-- `memcpy` of `n` values from `src` at `pos`; `none` outside of it. -/
def copyFrom (src : List ℚ) (pos n : Nat) : Option (List ℚ) :=
  if pos + n ≤ src.length then some ((src.drop pos).take n) else none

/-- `DeleteTag`, mesh.cpp L753-793: the tag is no longer in the list. -/
def deleteTag (tags : List Tag) (name : String) : List Tag := tags.filter fun t => t.name ≠ name

/-- `CreateTag(name,DATA_REAL,NODE,NONE,size)`, tag.cpp L337-407: a tag with the same name is
returned if it has the same type and size (assertions L351-352), otherwise a new tag is added. New
records are filled with zeros; the order of tags (L369) is not modelled. -/
def createTag (tags : List Tag) (name : String) (size : Nat) : Option (List Tag) :=
  match tags.find? (fun t => t.name = name) with
  | some t => if t.real ∧ size = t.size then some tags else none
  | none => some (tags ++ [{ name := name, real := true, size := size, data := fun _ => List.replicate size 0 }])

/-- First loop, L1904-1905. -/
def save (s : St) (t : Tag) (dims copyDims : Nat) : List Nat → List ℚ → Option (List ℚ)
  | [], temp => some temp
  | k :: r, temp =>
    if s.valid k then
      match copyFrom (t.data k) 0 copyDims with
      | none => none
      | some l =>
        match copyTo temp (k * dims) l with
        | none => none
        | some temp => save s t dims copyDims r temp
    else save s t dims copyDims r temp

/-- Second loop, L1911-1912, over one tag. -/
def restore (s : St) (temp : List ℚ) (dims : Nat) : List Nat → (Nat → List ℚ) → Option (Nat → List ℚ)
  | [], data => some data
  | k :: r, data =>
    if s.valid k then
      match copyFrom temp (k * dims) dims with
      | none => none
      | some l =>
        match copyTo (data k) 0 l with
        | none => none
        | some d => restore s temp dims r (fun j => if j = k then d else data j)
    else restore s temp dims r data

/-- Replace the records of the tag with this name. -/
def setRecords (tags : List Tag) (name : String) (data : Nat → List ℚ) : List Tag :=
  tags.map fun t => if t.name = name then { t with data := data } else t

/-- `Mesh::SetDimensions`, L1892-1921. -/
def setDimensions (s : St) (dims : Nat) : Out :=
  if s.dim = dims then .ok s
  else if dims < 2 ∨ dims > 3 then .throws
  else if numberOfNodes s > 0 then
    let copyDims := if s.dim < dims then s.dim else dims
    match s.tags.find? (fun t => t.name = s.coords) with
    | none => .bad
    | some t =>
      match save s t dims copyDims (List.range s.last) (List.replicate (dims * s.last) 0) with
      | none => .bad
      | some temp =>
        match createTag (deleteTag s.tags s.coords) "COORD" dims with
        | none => .bad
        | some tags =>
          match tags.find? (fun t => t.name = "COORD") with
          | none => .bad
          | some u =>
            match restore s temp dims (List.range s.last) u.data with
            | none => .bad
            | some data => .ok { s with dim := dims, tags := setRecords tags "COORD" data, coords := "COORD" }
  else
    match createTag (deleteTag s.tags s.coords) "PROTECTED_COORD" dims with
    | none => .bad
    | some tags => .ok { s with dim := dims, tags := tags, coords := "PROTECTED_COORD" }

/-! ## Specification -/

/-- The node `k` has the coordinates `l`: its record in the tag of coordinates. -/
def HasCoords (s : St) (k : Nat) (l : List ℚ) : Prop := ∃ t ∈ s.tags, t.name = s.coords ∧ t.data k = l

/-- A mesh in order: different names of tags, one tag of coordinates with `dim` real entries,
records of all places have the size of the tag. -/
structure Good (s : St) : Prop where
  names : (s.tags.map Tag.name).Nodup
  coords : ∃ t ∈ s.tags, t.name = s.coords ∧ t.real = true ∧ t.size = s.dim
  records : ∀ t ∈ s.tags, ∀ k, (t.data k).length = t.size

/-! ## Lemmas -/

theorem find_name {tags : List Tag} (h : (tags.map Tag.name).Nodup) {t : Tag} (ht : t ∈ tags) : tags.find? (fun u => u.name = t.name) = some t := by
  induction tags with
  | nil => simp at ht
  | cons a r ih =>
    rw [List.map_cons, List.nodup_cons] at h
    rcases List.mem_cons.1 ht with rfl | ht
    · simp
    · have : a.name ≠ t.name := fun e => h.1 (e ▸ List.mem_map_of_mem ht)
      rw [List.find?_cons_of_neg (by simpa using this)]
      exact ih h.2 ht

theorem copyTo_length {temp l r : List ℚ} {p : Nat} (h : copyTo temp p l = some r) : r.length = temp.length := by
  unfold copyTo at h
  split at h
  · obtain rfl := Option.some.inj h
    simp
    omega
  · simp at h

theorem copyTo_get {temp l r : List ℚ} {p : Nat} (h : copyTo temp p l = some r) (i : Nat) :
    r[i]? = if p ≤ i ∧ i < p + l.length then l[i - p]? else temp[i]? := by
  unfold copyTo at h
  split at h
  case isFalse => simp at h
  case isTrue hb =>
    obtain rfl := Option.some.inj h
    have hp : (temp.take p).length = p := by rw [List.length_take]; omega
    by_cases h1 : i < p
    · rw [List.append_assoc, List.getElem?_append_left (by omega), List.getElem?_take_of_lt h1, if_neg (by omega)]
    · rw [List.append_assoc, List.getElem?_append_right (by omega), hp]
      by_cases h2 : i < p + l.length
      · rw [List.getElem?_append_left (by omega), if_pos ⟨by omega, h2⟩]
      · rw [List.getElem?_append_right (by omega), List.getElem?_drop, if_neg (by omega)]
        congr 1
        omega

theorem save_spec (s : St) (t : Tag) (dims c : Nat) (hc : c ≤ dims) (hl : ∀ k, c ≤ (t.data k).length) (N : Nat) :
    ∀ (ks : List Nat) (temp : List ℚ), ks.Nodup → (∀ k ∈ ks, k < N) → temp.length = dims * N →
      ∃ temp', save s t dims c ks temp = some temp' ∧ temp'.length = dims * N ∧
        ∀ k i, i < dims → temp'[k * dims + i]? = if k ∈ ks ∧ s.valid k = true ∧ i < c then (t.data k)[i]? else temp[k * dims + i]?
  | [], temp, _, _, hlen => ⟨temp, rfl, hlen, fun k i _ => by simp⟩
  | k0 :: r, temp, hn, hk, hlen => by
    rw [List.nodup_cons] at hn
    unfold save
    by_cases hv : s.valid k0 = true
    · rw [if_pos hv]
      have e1 : copyFrom (t.data k0) 0 c = some ((t.data k0).take c) := by
        unfold copyFrom
        rw [if_pos (by have := hl k0; omega)]
        simp
      rw [e1]
      have hll : ((t.data k0).take c).length = c := by rw [List.length_take]; have := hl k0; omega
      have hk0 := hk k0 List.mem_cons_self
      have hb : k0 * dims + c ≤ dims * N := by
        have : (k0 + 1) * dims ≤ N * dims := Nat.mul_le_mul_right _ hk0
        rw [Nat.add_mul, Nat.one_mul] at this
        rw [Nat.mul_comm dims N]
        omega
      have e2 : ∃ q, copyTo temp (k0 * dims) ((t.data k0).take c) = some q := by
        unfold copyTo
        rw [if_pos (by rw [hll, hlen]; exact hb)]
        exact ⟨_, rfl⟩
      obtain ⟨q, e2⟩ := e2
      simp only [e2]
      obtain ⟨temp', h1, h2, h3⟩ := save_spec s t dims c hc hl N r q hn.2 (fun k h => hk k (List.mem_cons_of_mem _ h)) ((copyTo_length e2).trans hlen)
      refine ⟨temp', h1, h2, fun k i hi => ?_⟩
      rw [h3 k i hi, copyTo_get e2, hll]
      by_cases hkr : k = k0
      · subst hkr
        rw [if_neg (by simp [hn.1])]
        by_cases hic : i < c
        · rw [if_pos ⟨by omega, by omega⟩, if_pos ⟨List.mem_cons_self, hv, hic⟩, Nat.add_sub_cancel_left, List.getElem?_take_of_lt hic]
        · rw [if_neg (by omega), if_neg (by tauto)]
      · have hout : ¬ (k0 * dims ≤ k * dims + i ∧ k * dims + i < k0 * dims + c) := by
          rintro ⟨a, b⟩
          rcases Nat.lt_or_gt_of_ne hkr with h | h
          · have : (k + 1) * dims ≤ k0 * dims := Nat.mul_le_mul_right _ h
            rw [Nat.add_mul, Nat.one_mul] at this
            omega
          · have : (k0 + 1) * dims ≤ k * dims := Nat.mul_le_mul_right _ h
            rw [Nat.add_mul, Nat.one_mul] at this
            omega
        rw [if_neg hout]
        simp [hkr]
    · rw [if_neg hv]
      obtain ⟨temp', h1, h2, h3⟩ := save_spec s t dims c hc hl N r temp hn.2 (fun k h => hk k (List.mem_cons_of_mem _ h)) hlen
      refine ⟨temp', h1, h2, fun k i hi => ?_⟩
      rw [h3 k i hi]
      by_cases hkr : k = k0
      · subst hkr
        simp [hv]
      · simp [hkr]

theorem restore_spec (s : St) (temp : List ℚ) (dims N : Nat) (ht : temp.length = dims * N) :
    ∀ (ks : List Nat) (data : Nat → List ℚ), (∀ k ∈ ks, k < N) → (∀ k, (data k).length = dims) →
      ∃ data', restore s temp dims ks data = some data' ∧ (∀ k, (data' k).length = dims) ∧
        ∀ k ∈ ks, s.valid k = true → ∀ i, i < dims → (data' k)[i]? = temp[k * dims + i]?
  | [], data, _, hd => ⟨data, rfl, hd, by simp⟩
  | k0 :: r, data, hk, hd => by
    unfold restore
    have hkr : ∀ k ∈ r, k < N := fun k h => hk k (List.mem_cons_of_mem _ h)
    by_cases hv : s.valid k0 = true
    · rw [if_pos hv]
      have hk0 := hk k0 List.mem_cons_self
      have hb : k0 * dims + dims ≤ dims * N := by
        have : (k0 + 1) * dims ≤ N * dims := Nat.mul_le_mul_right _ hk0
        rw [Nat.add_mul, Nat.one_mul] at this
        rw [Nat.mul_comm dims N]
        omega
      have e1 : copyFrom temp (k0 * dims) dims = some ((temp.drop (k0 * dims)).take dims) := by
        unfold copyFrom
        rw [if_pos (by omega)]
      have hll : ((temp.drop (k0 * dims)).take dims).length = dims := by
        rw [List.length_take, List.length_drop]
        omega
      have e2 : copyTo (data k0) 0 ((temp.drop (k0 * dims)).take dims) = some ((temp.drop (k0 * dims)).take dims) := by
        unfold copyTo
        rw [if_pos (by rw [hll, hd]; omega), hll]
        simp [hd]
      simp only [e1, e2]
      have hd' : ∀ k, ((fun j => if j = k0 then (temp.drop (k0 * dims)).take dims else data j) k).length = dims := by
        intro k
        by_cases h : k = k0
        · simp only [h, if_true]
          exact hll
        · simp only [h, if_false]
          exact hd k
      have keep : ∀ (ks : List Nat) (d d' : Nat → List ℚ), restore s temp dims ks d = some d' → (∀ k, (d k).length = dims) →
          (∀ i, i < dims → (d k0)[i]? = temp[k0 * dims + i]?) → ∀ i, i < dims → (d' k0)[i]? = temp[k0 * dims + i]? := by
        intro ks
        induction ks with
        | nil => intro d d' h _ h0; obtain rfl := Option.some.inj h; exact h0
        | cons a r ih =>
          intro d d' h hdl h0
          unfold restore at h
          by_cases hva : s.valid a = true
          · rw [if_pos hva] at h
            split at h
            · simp at h
            · rename_i l hl
              split at h
              · simp at h
              · rename_i q hq
                refine ih _ d' h (fun k => ?_) fun i hi => ?_
                · by_cases hka : k = a
                  · simp only [hka, if_true]
                    rw [copyTo_length hq, hdl]
                  · simp only [hka, if_false]
                    exact hdl k
                · by_cases hka : k0 = a
                  · subst hka
                    simp only [if_true]
                    unfold copyFrom at hl
                    split at hl
                    · obtain rfl := Option.some.inj hl
                      rw [copyTo_get hq, if_pos ⟨by omega, by rw [List.length_take, List.length_drop]; omega⟩, Nat.sub_zero,
                        List.getElem?_take_of_lt hi, List.getElem?_drop]
                    · simp at hl
                  · simp only [hka, if_false]
                    exact h0 i hi
          · rw [if_neg hva] at h
            exact ih d d' h hdl h0
      obtain ⟨data', h1, h2, h3⟩ := restore_spec s temp dims N ht r _ hkr hd'
      refine ⟨data', h1, h2, fun k hkm hvk => ?_⟩
      rcases List.mem_cons.1 hkm with rfl | hkm
      · refine keep r _ data' h1 hd' fun i hi => ?_
        simp only [if_true]
        rw [List.getElem?_take_of_lt hi, List.getElem?_drop]
      · exact h3 k hkm hvk
    · rw [if_neg hv]
      obtain ⟨data', h1, h2, h3⟩ := restore_spec s temp dims N ht r data hkr hd
      refine ⟨data', h1, h2, fun k hkm hvk => ?_⟩
      rcases List.mem_cons.1 hkm with rfl | hkm
      · exact absurd hvk hv
      · exact h3 k hkm hvk

/-! ## Properties -/

/-- C159, full claim: after `SetDimensions(dims)` with two or three dimensions each node keeps its
first coordinates, new coordinates are zero, and other tags are as before. Proved for meshes where
some node is not hidden and no tag of the user has the name "COORD". -/
theorem C159_coordinates_partial (s : St) (g : Good s) (dims : Nat) (hd : dims = 2 ∨ dims = 3) (hne : s.dim ≠ dims)
    (hnode : ∃ k, k < s.last ∧ s.valid k = true ∧ s.hidden k = false)
    (hname : ∀ t ∈ s.tags, t.name = "COORD" → s.coords = "COORD") :
    ∃ s', setDimensions s dims = .ok s' ∧ Good s' ∧ s'.dim = dims ∧
      (∀ k l, k < s.last → s.valid k = true → HasCoords s k l →
        ∃ l', HasCoords s' k l' ∧ l'.length = dims ∧ ∀ i, i < dims → l'[i]? = if i < s.dim then l[i]? else some 0) ∧
      ∀ t, t.name ≠ s.coords → t.name ≠ s'.coords → (t ∈ s'.tags ↔ t ∈ s.tags) := by
  obtain ⟨t, ht, htn, htr, hts⟩ := g.coords
  have hcount : numberOfNodes s > 0 := by
    obtain ⟨k, h1, h2, h3⟩ := hnode
    exact List.length_pos_of_mem (List.mem_filter.2 ⟨List.mem_range.2 h1, by simp [h2, h3]⟩)
  have hfind : s.tags.find? (fun u => u.name = s.coords) = some t := htn ▸ find_name g.names ht
  have hrec := g.records t ht
  obtain ⟨temp, e1, e2, e3⟩ := save_spec s t dims (if s.dim < dims then s.dim else dims) (by split <;> omega)
    (fun k => by rw [hrec k, hts]; split <;> omega) s.last (List.range s.last) (List.replicate (dims * s.last) 0) List.nodup_range
    (fun k h => List.mem_range.1 h) (by simp)
  have hnone : ∀ u ∈ deleteTag s.tags s.coords, u.name ≠ "COORD" := by
    intro u hu e
    obtain ⟨h1, h2⟩ := List.mem_filter.1 hu
    exact (by simpa using h2 : u.name ≠ s.coords) (e.trans (hname u h1 e).symm)
  have hcreate : createTag (deleteTag s.tags s.coords) "COORD" dims =
      some (deleteTag s.tags s.coords ++ [{ name := "COORD", real := true, size := dims, data := fun _ => List.replicate dims 0 }]) := by
    unfold createTag
    rw [List.find?_eq_none.2 fun u hu => by simpa using hnone u hu]
  have hfind2 : (deleteTag s.tags s.coords ++ [({ name := "COORD", real := true, size := dims, data := fun _ => List.replicate dims 0 } : Tag)]).find?
      (fun u => u.name = "COORD") = some { name := "COORD", real := true, size := dims, data := fun _ => List.replicate dims 0 } := by
    rw [List.find?_append, List.find?_eq_none.2 fun u hu => by simpa using hnone u hu]
    simp
  obtain ⟨data, f1, f2, f3⟩ := restore_spec s temp dims s.last e2 (List.range s.last) (fun _ => List.replicate dims 0)
    (fun k h => List.mem_range.1 h) (fun k => by simp)
  have hset : setRecords (deleteTag s.tags s.coords ++ [{ name := "COORD", real := true, size := dims, data := fun _ => List.replicate dims 0 }]) "COORD" data =
      deleteTag s.tags s.coords ++ [{ name := "COORD", real := true, size := dims, data := data }] := by
    unfold setRecords
    rw [List.map_append]
    congr 1
    refine (List.map_congr_left fun u hu => ?_).trans (List.map_id _)
    rw [if_neg (hnone u hu)]
    rfl
  refine ⟨{ s with dim := dims, tags := deleteTag s.tags s.coords ++ [{ name := "COORD", real := true, size := dims, data := data }], coords := "COORD" },
    ?_, ?_, rfl, ?_, ?_⟩
  · unfold setDimensions
    rw [if_neg hne, if_neg (by omega), if_pos hcount]
    simp only [hfind, e1, hcreate, hfind2, f1, hset]
  · refine ⟨?_, ⟨_, List.mem_append_right _ (List.mem_singleton_self _), rfl, rfl, rfl⟩, ?_⟩
    · simp only [List.map_append, List.map_cons, List.map_nil]
      refine List.nodup_append.2 ⟨?_, by simp, ?_⟩
      · exact g.names.sublist (List.Sublist.map _ List.filter_sublist)
      · rintro a ha b hb rfl
        obtain ⟨u, hu, rfl⟩ := List.mem_map.1 ha
        exact hnone u hu (by simpa using hb)
    · intro u hu k
      rcases List.mem_append.1 hu with hu | hu
      · exact g.records u (List.mem_filter.1 hu).1 k
      · obtain rfl := List.mem_singleton.1 hu
        exact f2 k
  · rintro k l hk hv ⟨u, hu, hun, hul⟩
    have : u = t := Option.some.inj ((hun ▸ find_name g.names hu : s.tags.find? (fun u => u.name = s.coords) = some u).symm.trans hfind)
    subst this
    refine ⟨data k, ⟨_, List.mem_append_right _ (List.mem_singleton_self _), rfl, rfl⟩, f2 k, fun i hi => ?_⟩
    rw [f3 k (List.mem_range.2 hk) hv i hi, e3 k i hi]
    have hrange : k * dims + i < dims * s.last := by
      have : (k + 1) * dims ≤ s.last * dims := Nat.mul_le_mul_right _ hk
      rw [Nat.add_mul, Nat.one_mul] at this
      rw [Nat.mul_comm dims s.last]
      omega
    by_cases h : i < s.dim
    · rw [if_pos ⟨List.mem_range.2 hk, hv, by split <;> omega⟩, if_pos h, hul]
    · rw [if_neg (by rintro ⟨_, _, h'⟩; split at h' <;> omega), if_neg h, List.getElem?_replicate, if_pos hrange]
  · intro u h1 h2
    simp only [List.mem_append, List.mem_singleton, deleteTag, List.mem_filter]
    constructor
    · rintro (h | rfl)
      · exact h.1
      · exact absurd rfl h2
    · exact fun h => .inl ⟨h, by simpa using h1⟩

/-- C159: other numbers of dimensions are rejected with an exception, the present number changes nothing. -/
theorem C159_rejected (s : St) (dims : Nat) :
    (s.dim = dims → setDimensions s dims = .ok s) ∧ (s.dim ≠ dims → (dims < 2 ∨ 3 < dims) → setDimensions s dims = .throws) := by
  constructor
  · intro h
    unfold setDimensions
    rw [if_pos h]
  · intro h h'
    unfold setDimensions
    rw [if_neg h, if_pos h']

/-- A mesh with three coordinates, two nodes and a free place between them. -/
def sample (userName : String) (hid : Nat → Bool) : St :=
  { dim := 3
    tags := [{ name := "PROTECTED_COORD", real := true, size := 3, data := fun k => [(k : ℚ), 5, 7] },
             { name := userName, real := true, size := 2, data := fun _ => [1, 2] }]
    coords := "PROTECTED_COORD"
    last := 3
    valid := fun k => k ≠ 1
    hidden := hid }

theorem sample_good (n : String) (h : n ≠ "PROTECTED_COORD") (hid : Nat → Bool) : Good (sample n hid) :=
  ⟨by simp [sample, h.symm], ⟨_, List.mem_cons_self, rfl, rfl, rfl⟩, by
    intro t ht k
    simp only [sample, List.mem_cons, List.not_mem_nil, or_false] at ht
    rcases ht with rfl | rfl <;> rfl⟩

/-- The hypotheses of C159 are met. -/
example : Good (sample "VELOCITY" fun _ => false) ∧ (2 = 2 ∨ 2 = 3) ∧ (sample "VELOCITY" fun _ => false).dim ≠ 2 ∧
    (∃ k, k < (sample "VELOCITY" fun _ => false).last ∧ (sample "VELOCITY" fun _ => false).valid k = true ∧ (sample "VELOCITY" fun _ => false).hidden k = false) ∧
    (∀ t ∈ (sample "VELOCITY" fun _ => false).tags, t.name = "COORD" → (sample "VELOCITY" fun _ => false).coords = "COORD") :=
  ⟨sample_good _ (by decide) _, .inl rfl, by decide, ⟨0, by decide, by decide, rfl⟩, by
    intro t ht
    simp only [sample, List.mem_cons, List.not_mem_nil, or_false] at ht
    rcases ht with rfl | rfl <;> simp⟩

/-- C159 fails for a mesh with a tag "COORD" of the user: its values are replaced by coordinates. -/
theorem C159_user_tag_fails : ∃ (s s' : St) (t : Tag), Good s ∧ (∃ k, k < s.last ∧ s.valid k = true ∧ s.hidden k = false) ∧
    t ∈ s.tags ∧ t.name ≠ s.coords ∧ t.data 2 = [1, 2] ∧ setDimensions s 2 = .ok s' ∧ ∃ u ∈ s'.tags, u.name = t.name ∧ u.data 2 = [2, 5] := by
  refine ⟨sample "COORD" fun _ => false, _, _, sample_good _ (by decide) _, ⟨0, by decide, by decide, rfl⟩,
    List.mem_cons_of_mem _ List.mem_cons_self, by decide, rfl, rfl, _, List.mem_cons_self, rfl, ?_⟩
  decide +kernel

/-- C159 fails for a user tag "COORD" with another number of entries: the assertion of `CreateTag` fails. -/
theorem C159_user_size_fails : ∃ s : St, Good s ∧ setDimensions s 2 = .bad := by
  let s := sample "COORD" fun _ => false
  refine ⟨{ s with tags := [s.tags[0], { name := "COORD", real := true, size := 1, data := fun _ => [1] }] }, ⟨by decide +kernel, ⟨_, List.mem_cons_self, rfl, rfl, rfl⟩, ?_⟩, ?_⟩
  · intro t ht k
    rcases List.mem_cons.1 ht with rfl | ht
    · rfl
    · obtain rfl := List.mem_singleton.1 ht
      rfl
  · rfl

/-- C159 fails if all nodes are hidden during a modification: they lose their coordinates. -/
theorem C159_hidden_fails : ∃ s s' : St, Good s ∧ s.valid 2 = true ∧ 2 < s.last ∧ HasCoords s 2 [2, 5, 7] ∧
    setDimensions s 2 = .ok s' ∧ HasCoords s' 2 [0, 0] := by
  refine ⟨sample "VELOCITY" fun _ => true, _, sample_good _ (by decide) _, by decide, by decide,
    ⟨_, List.mem_cons_self, rfl, by simp⟩, rfl, _, List.mem_cons_of_mem _ List.mem_cons_self, rfl, rfl⟩

end Verif.Dimensions
