import Mathlib.Data.List.Nodup

/-!
# Copying the data of one element to another (C145)

Models `Mesh::CopyData(Element a, Element b)`, `/repo/Source/Mesh/mesh.cpp` L2601-2617, with `TagManager::GetTag` (Data/tag.cpp L425-432) and
`TagManager::CopyData` (Data/tag.cpp L97-126). Elements may belong to one mesh or to two.

Simplifications: the data of a tag on an element is a list of values, `none` when a sparse tag has no data there; tags of a mesh are found by name, and
data is kept under the name. Handles in the values of references are copied as they are. Types of data are numbers.
-/

namespace Verif.Copy.Element

/-- A tag: name, type of data, number of values (`none`: variable), where it is defined and where it is sparse, by types of elements. -/
structure TagDecl where
  name : String
  dtype : Nat
  size : Option Nat
  defined : Nat → Bool
  sparse : Nat → Bool

/-- A mesh: its tags, types of elements, data of tags by names, bits of markers. -/
structure MeshSt (V : Type) where
  tags : List TagDecl
  etype : Nat → Nat
  data : String → Nat → Option (List V)
  mark : Nat → Nat

/-- all meshes by numbers -/
abbrev World (V : Type) := Nat → MeshSt V

/-- An element: number of the mesh and handle. -/
structure El where
  mesh : Nat
  h : Nat
deriving DecidableEq

variable {V : Type}

def World.get (w : World V) (e : El) (name : String) : Option (List V) := (w e.mesh).data name e.h

def World.mark (w : World V) (e : El) : Nat := (w e.mesh).mark e.h

def World.etype (w : World V) (e : El) : Nat := (w e.mesh).etype e.h

/-- the data of an element is written -/
def World.set (w : World V) (e : El) (name : String) (d : List V) : World V := fun k =>
  if k = e.mesh then
    { w k with data := fun n h => if n = name ∧ h = e.h then some d else (w k).data n h }
  else w k

/-- `SetMarkerSpace`, mesh.cpp L2311-2315 -/
def World.setMark (w : World V) (e : El) (v : Nat) : World V := fun k =>
  if k = e.mesh then { w k with mark := fun h => if h = e.h then v else (w k).mark h } else w k

/-- `HaveData`, mesh.cpp L2584-2599: dense data always exists where the tag is defined -/
def haveData (w : World V) (e : El) (t : TagDecl) : Bool :=
  if t.sparse (w.etype e) then (w.get e t.name).isSome else t.defined (w.etype e)

/-- the test of the name, L2607 -/
def isProtected (name : String) : Bool := name.toList.take 9 = "PROTECTED".toList

/-- `TagManager::CopyData`, tag.cpp L97-126. Variable size: the array of `a` is emptied first (L106, L127-166), then the array of `b` is read (L107-114).
Fixed size: the values are copied (L121, L125). -/
def rawCopy (w : World V) (a b : El) (t : TagDecl) : World V :=
  match t.size with
  | none =>
    let w1 := w.set a t.name []
    w1.set a t.name ((w1.get b t.name).getD [])
  | some _ => w.set a t.name ((w.get b t.name).getD [])

/-- The body of the loop, L2607-2613; `asserts`: assertions are compiled in (L430 of tag.cpp, otherwise an invalid tag is returned). -/
def copyTag (asserts : Bool) (a b : El) (t : TagDecl) (w : World V) : Option (World V) :=
  if t.defined (w.etype b) && !isProtected t.name && haveData w b t then
    match (w a.mesh).tags.find? (fun ta => ta.name == t.name) with
    | none => if asserts then none else some w
    | some ta =>
      if ta.defined (w.etype a) && ta.dtype == t.dtype && ta.size == t.size then some (rawCopy w a b t) else some w
  else some w

/-- the loop over the tags of the mesh of `b`, L2606 -/
def copyTags (asserts : Bool) (a b : El) : List TagDecl → World V → Option (World V)
  | [], w => some w
  | t :: r, w => (copyTag asserts a b t w).bind (copyTags asserts a b r)

/-- `Mesh::CopyData`, L2601-2617: assertion L2603, tags, markers L2614-2616 -/
def copyData (asserts : Bool) (a b : El) (w : World V) : Option (World V) :=
  if asserts && w.etype a != w.etype b then none
  else (copyTags asserts a b (w b.mesh).tags w).map fun w' => w'.setMark a (w'.mark b)

/-! ## Specification -/

/-- The tag `t` of the mesh of `b` is to be copied: it is defined for `b`, its name does not begin with `PROTECTED` (no service tag), and `b` has data
if the tag is sparse. -/
def Source (w : World V) (b : El) (t : TagDecl) : Prop :=
  t ∈ (w b.mesh).tags ∧ t.defined (w.etype b) = true ∧ ¬ "PROTECTED".toList <+: t.name.toList ∧
    (t.sparse (w.etype b) = true → w.get b t.name ≠ none)

/-- The mesh of `a` has a tag with this name, type of data and size, defined for `a`. -/
def Target (w : World V) (a : El) (t : TagDecl) : Prop :=
  ∃ ta ∈ (w a.mesh).tags, ta.name = t.name ∧ ta.defined (w.etype a) = true ∧ ta.dtype = t.dtype ∧ ta.size = t.size

/-- Meshes with the same tags and types of elements. -/
def SameTags (w w' : World V) : Prop := ∀ k, (w' k).tags = (w k).tags ∧ (w' k).etype = (w k).etype

/-- The data of elements other than `a` is the same. -/
def SameOthers (w w' : World V) (a : El) : Prop := ∀ e n, e ≠ a → w'.get e n = w.get e n

/-- no two tags of a mesh have one name (`CreateTag`) -/
def Unique (w : World V) : Prop := ∀ k, ((w k).tags.map (·.name)).Nodup

theorem get_set (w : World V) (a e : El) (n m : String) (d : List V) :
    (w.set a n d).get e m = if e = a ∧ m = n then some d else w.get e m := by
  rcases e with ⟨k, h⟩
  rcases a with ⟨ka, ha⟩
  simp only [World.set, World.get, El.mk.injEq]
  by_cases h1 : k = ka
  · subst h1
    by_cases h2 : m = n <;> by_cases h3 : h = ha <;> simp [h2, h3]
  · simp [h1]

theorem set_same (w : World V) (a : El) (n : String) (d : List V) : SameTags w (w.set a n d) ∧ ∀ e, (w.set a n d).mark e = w.mark e := by
  constructor
  · intro k; simp only [World.set]; split <;> simp
  · intro e; simp only [World.set, World.mark]; split <;> simp

theorem rawCopy_spec (w : World V) {a b : El} (hab : a ≠ b) (t : TagDecl) :
    SameTags w (rawCopy w a b t) ∧ (∀ e, (rawCopy w a b t).mark e = w.mark e) ∧
    ∀ e n, (rawCopy w a b t).get e n = if e = a ∧ n = t.name then some ((w.get b t.name).getD []) else w.get e n := by
  have hba : b ≠ a := fun h => hab h.symm
  cases hs : t.size with
  | none =>
    simp only [rawCopy, hs]
    refine ⟨fun k => ?_, fun e => ?_, fun e n => ?_⟩
    · obtain ⟨h1, h2⟩ := (set_same (w.set a t.name []) a t.name (((w.set a t.name []).get b t.name).getD [])).1 k
      obtain ⟨h3, h4⟩ := (set_same w a t.name []).1 k
      exact ⟨h1.trans h3, h2.trans h4⟩
    · rw [(set_same _ _ _ _).2, (set_same _ _ _ _).2]
    · rw [get_set, get_set, get_set]
      by_cases he : e = a ∧ n = t.name <;> simp [he, hba]
  | some k =>
    simp only [rawCopy, hs]
    exact ⟨(set_same _ _ _ _).1, (set_same _ _ _ _).2, fun e n => get_set _ _ _ _ _ _⟩

theorem etype_eq {w w' : World V} (h : SameTags w w') (e : El) : w'.etype e = w.etype e := by simp [World.etype, (h e.mesh).2]

theorem find_name {l : List TagDecl} (hu : (l.map (·.name)).Nodup) {ta : TagDecl} (hm : ta ∈ l) {n : String} (hn : ta.name = n) :
    l.find? (fun x => x.name == n) = some ta := by
  induction l with
  | nil => simp at hm
  | cons x r ih =>
    simp only [List.map_cons, List.nodup_cons] at hu
    rcases List.mem_cons.1 hm with rfl | hm
    · simp [hn]
    · have : x.name ≠ n := fun h => hu.1 (h ▸ hn ▸ List.mem_map_of_mem hm)
      rw [List.find?_cons_of_neg (by simpa using this)]
      exact ih hu.2 hm

theorem protected_iff (n : String) : isProtected n = true ↔ "PROTECTED".toList <+: n.toList := by
  have h9 : "PROTECTED".toList.length = 9 := by decide
  simp only [isProtected, decide_eq_true_eq, List.prefix_iff_eq_take, h9]
  exact eq_comm

/-- the test of L2607 -/
theorem test_iff (w : World V) (b : El) (t : TagDecl) (ht : t ∈ (w b.mesh).tags) :
    (t.defined (w.etype b) && !isProtected t.name && haveData w b t) = true ↔ Source w b t := by
  have hp : (!isProtected t.name) = true ↔ ¬ "PROTECTED".toList <+: t.name.toList := by
    rw [← protected_iff]; simp
  rw [Bool.and_eq_true, Bool.and_eq_true, hp]
  constructor
  · rintro ⟨⟨h1, h2⟩, h3⟩
    refine ⟨ht, h1, h2, fun hs => ?_⟩
    simp only [haveData, hs, if_true] at h3
    intro hn; simp [hn] at h3
  · rintro ⟨-, h1, h2, h3⟩
    refine ⟨⟨h1, h2⟩, ?_⟩
    unfold haveData
    split
    · rename_i hs
      exact Option.isSome_iff_ne_none.2 (h3 hs)
    · exact h1

/-- one tag: the state afterwards -/
theorem copyTag_spec (asserts : Bool) {a b : El} (hab : a ≠ b) (t : TagDecl) (w w' : World V) (hu : Unique w)
    (ht : t ∈ (w b.mesh).tags) (h : copyTag asserts a b t w = some w') :
    SameTags w w' ∧ (∀ e, w'.mark e = w.mark e) ∧ (∀ e n, e ≠ a ∨ n ≠ t.name → w'.get e n = w.get e n) ∧
    (Source w b t ∧ Target w a t → w'.get a t.name = some ((w.get b t.name).getD [])) ∧
    (¬ (Source w b t ∧ Target w a t) → w'.get a t.name = w.get a t.name) := by
  have same : SameTags w w := fun _ => ⟨rfl, rfl⟩
  unfold copyTag at h
  split at h
  case isTrue hs =>
    have src : Source w b t := (test_iff w b t ht).1 hs
    split at h
    case h_1 hf =>
      have nt : ¬ Target w a t := by
        rintro ⟨ta, hm, hn, -⟩
        have := List.find?_eq_none.1 hf ta hm
        simp [hn] at this
      cases asserts <;> simp at h
      subst h
      exact ⟨same, fun _ => rfl, fun _ _ _ => rfl, fun h => absurd h.2 nt, fun _ => rfl⟩
    case h_2 ta hf =>
      have hmem := List.mem_of_find?_eq_some hf
      have hname : ta.name = t.name := by simpa using List.find?_some hf
      split at h
      case isTrue hc =>
        simp only [Bool.and_eq_true, beq_iff_eq] at hc
        have tgt : Target w a t := ⟨ta, hmem, hname, hc.1.1, hc.1.2, hc.2⟩
        simp only [Option.some.injEq] at h
        subst h
        obtain ⟨h1, h2, h3⟩ := rawCopy_spec w hab t
        refine ⟨h1, h2, fun e n hn => ?_, fun _ => by simp [h3], fun h => absurd ⟨src, tgt⟩ h⟩
        rw [h3, if_neg (by rintro ⟨r1, r2⟩; rcases hn with hn | hn <;> contradiction)]
      case isFalse hc =>
        simp only [Option.some.injEq] at h
        subst h
        have nt : ¬ Target w a t := by
          rintro ⟨tb, hm, hn, hd, he, hs'⟩
          have := find_name (hu a.mesh) hm hn
          rw [hf] at this
          cases this
          exact hc (by simp [hd, he, hs'])
        exact ⟨same, fun _ => rfl, fun _ _ _ => rfl, fun h => absurd h.2 nt, fun _ => rfl⟩
  case isFalse hs =>
    simp only [Option.some.injEq] at h
    subst h
    have ns : ¬ Source w b t := fun h => hs ((test_iff w b t ht).2 h)
    exact ⟨same, fun _ => rfl, fun _ _ _ => rfl, fun h => absurd h.1 ns, fun _ => rfl⟩

theorem source_same {w w' : World V} {b : El} (h : SameTags w w') (hb : ∀ n, w'.get b n = w.get b n) (t : TagDecl) :
    Source w' b t ↔ Source w b t := by
  simp only [Source, etype_eq h, (h b.mesh).1, hb]

theorem target_same {w w' : World V} {a : El} (h : SameTags w w') (t : TagDecl) : Target w' a t ↔ Target w a t := by
  simp only [Target, etype_eq h, (h a.mesh).1]

theorem copyTags_spec (asserts : Bool) {a b : El} (hab : a ≠ b) : ∀ (l : List TagDecl) (w w' : World V), Unique w →
    (∀ t ∈ l, t ∈ (w b.mesh).tags) → (l.map (·.name)).Nodup → copyTags asserts a b l w = some w' →
    SameTags w w' ∧ (∀ e, w'.mark e = w.mark e) ∧ SameOthers w w' a ∧
    (∀ t ∈ l, Source w b t ∧ Target w a t → w'.get a t.name = some ((w.get b t.name).getD [])) ∧
    (∀ n, (∀ t ∈ l, t.name = n → ¬ (Source w b t ∧ Target w a t)) → w'.get a n = w.get a n)
  | [], w, w', _, _, _, h => by
    simp only [copyTags, Option.some.injEq] at h
    subst h
    exact ⟨fun _ => ⟨rfl, rfl⟩, fun _ => rfl, fun _ _ _ => rfl, by simp, fun _ _ => rfl⟩
  | t :: r, w, w', hu, hl, hd, h => by
    simp only [copyTags, Option.bind_eq_some_iff] at h
    obtain ⟨w1, h1, h2⟩ := h
    simp only [List.map_cons, List.nodup_cons] at hd
    obtain ⟨a1, a2, a3, a4, a5⟩ := copyTag_spec asserts hab t w w1 hu (hl t (by simp)) h1
    have hba : b ≠ a := fun h => hab h.symm
    have hb : ∀ n, w1.get b n = w.get b n := fun n => a3 b n (Or.inl hba)
    obtain ⟨b1, b2, b3, b4, b5⟩ := copyTags_spec asserts hab r w1 w' (fun k => by rw [(a1 k).1]; exact hu k)
      (fun t' ht' => by rw [(a1 b.mesh).1]; exact hl t' (by simp [ht'])) hd.2 h2
    have hne : ∀ t' ∈ r, t'.name ≠ t.name := fun t' ht' he => hd.1 (he ▸ List.mem_map_of_mem ht')
    refine ⟨fun k => ⟨(b1 k).1.trans (a1 k).1, (b1 k).2.trans (a1 k).2⟩, fun e => (b2 e).trans (a2 e),
      fun e n he => (b3 e n he).trans (a3 e n (Or.inl he)), ?_, ?_⟩
    · intro t' ht' hst
      rcases List.mem_cons.1 ht' with rfl | ht'
      · rw [b5 _ (fun t'' h'' hn => absurd hn (hne t'' h''))]
        exact a4 hst
      · rw [b4 t' ht' ⟨(source_same a1 hb t').2 hst.1, (target_same a1 t').2 hst.2⟩, hb]
    · intro n hn
      rw [b5 n (fun t' ht' he hst => hn t' (by simp [ht']) he ⟨(source_same a1 hb t').1 hst.1, (target_same a1 t').1 hst.2⟩)]
      by_cases he : n = t.name
      · subst he
        exact a5 (hn t (by simp) rfl)
      · exact a3 a n (Or.inr he)

/-! ## The property -/

/-- **C145** (partial: for two different elements, and `a` keeps what it had for tags without data on `b`). After `CopyData(a,b)` the element `a` has the
data of `b` for every tag that is no service tag, has data on `b` and has a tag with the same name, type and size in the mesh of `a`; its other data,
and the data of all other elements of all meshes, is the same; `a` has the markers of `b`, the other elements keep theirs. -/
theorem C145_copy_partial (asserts : Bool) {a b : El} (hab : a ≠ b) (w w' : World V) (hu : Unique w)
    (h : copyData asserts a b w = some w') :
    (∀ t, Source w b t → Target w a t → w'.get a t.name = some ((w.get b t.name).getD [])) ∧
    (∀ n, (∀ t, t.name = n → Source w b t → ¬ Target w a t) → w'.get a n = w.get a n) ∧
    SameOthers w w' a ∧ w'.mark a = w.mark b ∧ (∀ e, e ≠ a → w'.mark e = w.mark e) ∧ SameTags w w' := by
  unfold copyData at h
  split at h
  · simp at h
  simp only [Option.map_eq_some_iff] at h
  obtain ⟨w1, h1, rfl⟩ := h
  obtain ⟨c1, c2, c3, c4, c5⟩ := copyTags_spec asserts hab _ w w1 hu (fun _ h => h) (hu b.mesh) h1
  have g : ∀ e n, (w1.setMark a (w1.mark b)).get e n = w1.get e n := by
    intro e n; simp only [World.setMark, World.get]; split <;> simp
  refine ⟨fun t hs ht => by rw [g]; exact c4 t hs.1 ⟨hs, ht⟩, fun n hn => by rw [g]; exact c5 n (fun t _ he hst => hn t he hst.1 hst.2),
    fun e n he => by rw [g]; exact c3 e n he, ?_, fun e he => ?_, fun k => ?_⟩
  · rw [← c2 b]; simp [World.setMark, World.mark]
  · rw [← c2 e]
    rcases e with ⟨k, x⟩; rcases a with ⟨ka, xa⟩
    simp only [ne_eq, El.mk.injEq, not_and] at he
    simp only [World.setMark, World.mark]
    by_cases hk : k = ka
    · subst hk; simp [he rfl]
    · simp [hk]
  · have := c1 k
    simp only [World.setMark]
    split <;> simpa using this

/-- **C145**: without assertions the copy always succeeds. -/
theorem C145_total (a b : El) (w : World V) : ∃ w', copyData false a b w = some w' := by
  have tot : ∀ (l : List TagDecl) (w : World V), ∃ w', copyTags false a b l w = some w' := by
    intro l
    induction l with
    | nil => intro w; exact ⟨w, rfl⟩
    | cons t r ih =>
      intro w
      have : ∃ w1, copyTag false a b t w = some w1 := by
        unfold copyTag
        split
        · split
          · exact ⟨w, by simp⟩
          · split
            · exact ⟨_, rfl⟩
            · exact ⟨_, rfl⟩
        · exact ⟨_, rfl⟩
      obtain ⟨w1, h1⟩ := this
      obtain ⟨w2, h2⟩ := ih w1
      exact ⟨w2, by simp [copyTags, h1, h2]⟩
  obtain ⟨w', h⟩ := tot (w b.mesh).tags w
  exact ⟨w'.setMark a (w'.mark b), by simp [copyData, h]⟩

/-! ### Where the code differs -/

/-- a tag of arrays of variable size on all elements -/
def tv : TagDecl := ⟨"v", 0, none, fun _ => true, fun _ => false⟩

/-- a sparse tag of one value -/
def ts : TagDecl := ⟨"s", 0, some 1, fun _ => true, fun _ => true⟩

/-- Two meshes: 0 with tags `v`, `s`, its elements 0 and 1 with data; 1 with the tag `s` only. -/
def demo : World Nat := fun k =>
  if k = 0 then ⟨[tv, ts], fun _ => 8, fun n h => if n = "v" then some [h + 5, 7] else if h = 1 then some [3] else none, fun h => h⟩
  else ⟨[ts], fun _ => 8, fun _ _ => none, fun _ => 0⟩

/-- With assertions the copy stops at a tag of `b` that the mesh of `a` does not have, although L2610 is there to pass over it (tag.cpp L430). -/
theorem C145_missing_tag_fails : ∃ (w : World Nat) (a b : El), Unique w ∧ a ≠ b ∧ copyData true a b w = none ∧
    (copyData false a b w).isSome := by
  refine ⟨demo, ⟨1, 0⟩, ⟨0, 0⟩, ?_, by decide, rfl, rfl⟩
  intro k
  by_cases h : k = 0 <;> simp [demo, h, tv, ts]

/-- Copying an element to itself loses its arrays of variable size: the array is emptied before it is read. -/
theorem C145_self_fails : ∃ (w : World Nat) (a : El) (w' : World Nat), copyData true a a w = some w' ∧ w.get a "v" = some [5, 7] ∧
    w'.get a "v" = some [] :=
  ⟨demo, ⟨0, 0⟩, _, rfl, rfl, rfl⟩

/-- Sparse data of `a` stays if `b` has no data for the tag: afterwards the elements differ. -/
theorem C145_stale_fails : ∃ (w : World Nat) (a b : El) (w' : World Nat), copyData true a b w = some w' ∧ Unique w ∧ a ≠ b ∧
    w.get b "s" = none ∧ w'.get a "s" = some [3] := by
  refine ⟨demo, ⟨0, 1⟩, ⟨0, 0⟩, _, rfl, ?_, by decide, rfl, rfl⟩
  intro k
  by_cases h : k = 0 <;> simp [demo, h, tv, ts]

/-- The element 1 is copied to 0: arrays, sparse data and markers. -/
example : ∃ w', copyData true ⟨0, 0⟩ ⟨0, 1⟩ demo = some w' ∧ w'.get ⟨0, 0⟩ "v" = some [6, 7] ∧ w'.get ⟨0, 0⟩ "s" = some [3] ∧
    w'.mark ⟨0, 0⟩ = 1 ∧ Source demo ⟨0, 1⟩ ts ∧ Target demo ⟨0, 0⟩ ts :=
  ⟨_, rfl, rfl, rfl, rfl, by refine ⟨?_, rfl, by decide, fun _ => by decide⟩; simp [demo], ts, by simp [demo], rfl, rfl, rfl, rfl⟩

end Verif.Copy.Element
