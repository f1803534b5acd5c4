import Verif.Transfer.Check

/-!
# Properties C97, C98: sending elements to other processors
-/

namespace Verif.Transfer

open Verif.Topology

/-! ## Example: three tetrahedra, one on each of three processors -/

/-- Six nodes, three tetrahedra in a row; elements belong to the first processor that has them. -/
def tetRows : List Row := [
  ⟨⟨0, 0⟩, [], [], 0⟩, ⟨⟨0, 1⟩, [], [], 0⟩, ⟨⟨0, 2⟩, [], [], 0⟩, ⟨⟨0, 3⟩, [], [], 0⟩, ⟨⟨0, 4⟩, [], [], 1⟩,
  ⟨⟨0, 5⟩, [], [], 2⟩, ⟨⟨1, 0⟩, [⟨0, 0⟩, ⟨0, 1⟩], [], 0⟩, ⟨⟨1, 1⟩, [⟨0, 0⟩, ⟨0, 2⟩], [], 0⟩,
  ⟨⟨1, 2⟩, [⟨0, 0⟩, ⟨0, 3⟩], [], 0⟩, ⟨⟨1, 3⟩, [⟨0, 1⟩, ⟨0, 2⟩], [], 0⟩, ⟨⟨1, 4⟩, [⟨0, 1⟩, ⟨0, 3⟩], [], 0⟩,
  ⟨⟨1, 5⟩, [⟨0, 2⟩, ⟨0, 3⟩], [], 0⟩, ⟨⟨1, 6⟩, [⟨0, 1⟩, ⟨0, 4⟩], [], 1⟩, ⟨⟨1, 7⟩, [⟨0, 2⟩, ⟨0, 4⟩], [], 1⟩,
  ⟨⟨1, 8⟩, [⟨0, 3⟩, ⟨0, 4⟩], [], 1⟩, ⟨⟨1, 9⟩, [⟨0, 2⟩, ⟨0, 5⟩], [], 2⟩, ⟨⟨1, 10⟩, [⟨0, 3⟩, ⟨0, 5⟩], [], 2⟩,
  ⟨⟨1, 11⟩, [⟨0, 4⟩, ⟨0, 5⟩], [], 2⟩, ⟨⟨2, 0⟩, [⟨1, 0⟩, ⟨1, 1⟩, ⟨1, 3⟩], [], 0⟩,
  ⟨⟨2, 1⟩, [⟨1, 0⟩, ⟨1, 2⟩, ⟨1, 4⟩], [], 0⟩, ⟨⟨2, 2⟩, [⟨1, 1⟩, ⟨1, 2⟩, ⟨1, 5⟩], [], 0⟩,
  ⟨⟨2, 3⟩, [⟨1, 3⟩, ⟨1, 4⟩, ⟨1, 5⟩], [], 0⟩, ⟨⟨2, 4⟩, [⟨1, 3⟩, ⟨1, 6⟩, ⟨1, 7⟩], [], 1⟩,
  ⟨⟨2, 5⟩, [⟨1, 4⟩, ⟨1, 6⟩, ⟨1, 8⟩], [], 1⟩, ⟨⟨2, 6⟩, [⟨1, 5⟩, ⟨1, 7⟩, ⟨1, 8⟩], [], 1⟩,
  ⟨⟨2, 7⟩, [⟨1, 5⟩, ⟨1, 9⟩, ⟨1, 10⟩], [], 2⟩, ⟨⟨2, 8⟩, [⟨1, 7⟩, ⟨1, 9⟩, ⟨1, 11⟩], [], 2⟩,
  ⟨⟨2, 9⟩, [⟨1, 8⟩, ⟨1, 10⟩, ⟨1, 11⟩], [], 2⟩,
  ⟨⟨3, 0⟩, [⟨2, 0⟩, ⟨2, 1⟩, ⟨2, 2⟩, ⟨2, 3⟩], [⟨0, 0⟩, ⟨0, 1⟩, ⟨0, 2⟩, ⟨0, 3⟩], 0⟩,
  ⟨⟨3, 1⟩, [⟨2, 3⟩, ⟨2, 4⟩, ⟨2, 5⟩, ⟨2, 6⟩], [⟨0, 1⟩, ⟨0, 2⟩, ⟨0, 3⟩, ⟨0, 4⟩], 1⟩,
  ⟨⟨3, 2⟩, [⟨2, 6⟩, ⟨2, 7⟩, ⟨2, 8⟩, ⟨2, 9⟩], [⟨0, 2⟩, ⟨0, 3⟩, ⟨0, 4⟩, ⟨0, 5⟩], 2⟩]
/-- A tetrahedron. -/
def tetOps : List (Nat × Nat × List El × List El) := [
  (0, 0, [], []), (0, 1, [], []), (0, 2, [], []), (0, 3, [], []), (1, 0, [⟨0, 0⟩, ⟨0, 1⟩], []),
  (1, 1, [⟨0, 0⟩, ⟨0, 2⟩], []), (1, 2, [⟨0, 0⟩, ⟨0, 3⟩], []), (1, 3, [⟨0, 1⟩, ⟨0, 2⟩], []),
  (1, 4, [⟨0, 1⟩, ⟨0, 3⟩], []), (1, 5, [⟨0, 2⟩, ⟨0, 3⟩], []), (2, 0, [⟨1, 0⟩, ⟨1, 1⟩, ⟨1, 3⟩], []),
  (2, 1, [⟨1, 0⟩, ⟨1, 2⟩, ⟨1, 4⟩], []), (2, 2, [⟨1, 1⟩, ⟨1, 2⟩, ⟨1, 5⟩], []), (2, 3, [⟨1, 3⟩, ⟨1, 4⟩, ⟨1, 5⟩], []),
  (3, 0, [⟨2, 0⟩, ⟨2, 1⟩, ⟨2, 2⟩, ⟨2, 3⟩], [⟨0, 0⟩, ⟨0, 1⟩, ⟨0, 2⟩, ⟨0, 3⟩])]
/-- The numbers of the elements of the three processors. -/
def tetNums : List (List (List Nat)) := [
  [[0, 1, 2, 3], [0, 1, 2, 3, 4, 5], [0, 1, 2, 3], [0]], [[1, 2, 3, 4], [3, 4, 6, 5, 7, 8], [3, 4, 5, 6], [1]],
  [[2, 3, 4, 5], [5, 7, 9, 8, 10, 11], [6, 7, 8, 9], [2]]]

def tetT : Topo := (build (Topo.init true) tetOps).get (by decide +kernel)

theorem reach_tetT : Reach true tetT := build_reach _ _ _ .init (getEq _)

def tetNum (p : Nat) (e : El) : Nat := ((tetNums.getD p []).getD e.ty []).getD e.id 0

/-- The processors that have an element. -/
def tetProcs (g : El) : List Nat := (List.range 3).filter fun p => ((tetNums.getD p []).getD g.ty []).contains g.id

/-- The processors, without the stored lists; the value of an element is its number. -/
def tetBare (p : Nat) : Side Nat where
  T := tetT
  num := tetNum p
  owner := fun e => ((ofRows tetRows).owner (name (tetNum p) e) : Int)
  procs := fun e => tetProcs (name (tetNum p) e)
  status := fun e => if (ofRows tetRows).owner (name (tetNum p) e) ≠ p then .ghost
    else if tetProcs (name (tetNum p) e) = [p] then .owned else .shared
  val := tetNum p
  sh := fun _ _ => []
  gh := fun _ _ => []

/-- The three processors. -/
def tets : Nat → Side Nat := stored 3 tetBare

theorem tets_ok : (ofRows tetRows).Ok := ok_check (by decide +kernel)

theorem tets_spread : Spread 3 true (ofRows tetRows) tets :=
  spread_check (fun _ _ => reach_tetT) (by decide +kernel)

/-- Processor 0 marks its cell for both others, processor 1 marks its cell for processor 2, processor 2 marks a node
for processor 0. -/
def tetMarks (p : Nat) (e : El) : List Nat :=
  if p = 0 ∧ e = ⟨3, 0⟩ then [2, 1] else if p = 1 ∧ e = ⟨3, 0⟩ then [2] else if p = 2 ∧ e = ⟨0, 3⟩ then [0] else []

theorem tetMarks_ok (p : Nat) : Marked 3 (tets p) (tetMarks p) := by
  refine ⟨fun e _ k hk => ?_, fun e => ?_⟩
  · unfold tetMarks at hk
    split at hk
    · simp at hk; omega
    · split at hk
      · simp at hk; omega
      · split at hk
        · simp at hk; omega
        · cases hk
  · unfold tetMarks
    split
    · decide
    · split
      · decide
      · split <;> decide

/-! ## A message -/

variable {V : Type}

/-- C97: the lists that are packed contain the selected elements and, for every element in them that the destination is
not known to have, all elements it is built of and (for a cell) its nodes; nothing else, and nothing twice. -/
theorem C97_gather {cn : Bool} (S : Side V) (byNum : Nat → Bool) (dest : Nat) (sel : Nat → List El) (hr : Reach cn S.T)
    (hs : Selection S sel) (t : Nat) (ht : t < 4) :
    (∀ x, x ∈ gather S byNum dest sel t ↔ x.ty = t ∧ Sent S byNum dest sel x) ∧ (gather S byNum dest sel t).Nodup :=
  ⟨gather_iff S byNum dest sel hr hs.live ht, gather_nodup S byNum dest sel hs.once t⟩

/-- C97: any elements of a processor can be sent to any other: packing and unpacking do not fail.  The receiver has
afterwards what it had and the elements of the message with all they are built of, nothing else; its connectivity,
owners and numbers are those of the whole mesh.  No element is there twice.  Copies of elements of others get the
values and the list of processors of the sender; own elements keep theirs.  New elements are ghosts.  The sender only
adds the receiver to the lists of its own elements that it sent, which become shared. -/
theorem C97_message {n : Nat} {cn : Bool} {G : Whole} {W : Nat → Side V} (ok : G.Ok) (H : Spread n cn G W)
    (byNum : Nat → Bool) (dup : Bool) {pick : Topo → Nat → Nat} (fresh : Fresh cn pick) {p q : Nat} (hp : p < n) (hq : q < n)
    (hne : p ≠ q) {sel : Nat → List El} (hs : Selection (W p) sel) :
    ∃ S' M R' out, pack p q byNum true (gather (W p) byNum q sel) (W p) = some (S', M) ∧
      unpack q p dup pick M (W q) = some (R', out) ∧ Given (W p) S' p q (gather (W p) byNum q sel) ∧
      Received cn G (W p) S' (W q) R' q (gather (W p) byNum q sel) (fun t => (out t).map Prod.fst) ∧
      ∀ g, Has R' g ↔ Has (W q) g ∨ ∃ t, ∃ e ∈ sel t, Part cn G (name (W p).num e) g := by
  have PW := H.piece p hp
  have c := ctx_of (byNum := byNum) ok H fresh hp hq hne (Like.rfl' (W p)) (fun _ _ => rfl) (H.piece q hq)
    (Like.rfl' (W q)).more hs.live
  have hnd := gather_nodup (W p) byNum q sel hs.once
  obtain ⟨S', M, R', out, h1, h2, h3, h4⟩ := transfer_ok c dup fun t _ => (hnd t).imp fun h1 h2 => absurd h2 h1
  have hold : ∀ g, Has (W q) g → Has R' g := by
    rintro g ⟨x, hx, rfl⟩
    obtain ⟨a, b, -⟩ := h4.old x hx
    exact ⟨x, a, by simp only [name, b]⟩
  refine ⟨S', M, R', out, h1, h2, h3, h4, fun g => ⟨?_, ?_⟩⟩
  · rintro ⟨x, hx, rfl⟩
    cases hxW : (W q).T.alive x with
    | true =>
      left
      exact ⟨x, hxW, by simp only [name, (h4.old x hxW).2.1]⟩
    | false =>
      right
      obtain ⟨-, t, -, e, he, hen⟩ := h4.new x hx hxW
      obtain ⟨⟨s, a, ha, hpt⟩, -⟩ := gather_part PW hs.live t e he
      rw [hen] at hpt
      exact ⟨s, a, ha, hpt⟩
  · rintro (h | ⟨t, e, he, hpt⟩)
    · exact hold g h
    · rcases part_gather (byNum := byNum) (q := q) PW hs.live (K := Has (W q)) (fun x hx hk => by
          unfold Side.known at hk
          rw [Bool.and_eq_true] at hk
          exact ((H.procs p hp x hx q).1 (List.contains_iff_mem.1 hk.2)).2)
        (fun _ _ => part_has (H.piece q hq)) he hpt with h | ⟨s, hs4, x, hx, rfl⟩
      · exact hold g h
      · have := List.mem_map_of_mem (f := name (W p).num) hx
        rw [← h4.same s hs4] at this
        obtain ⟨y, hy, hyn⟩ := List.mem_map.1 this
        exact ⟨y, h4.live s hs4 y hy, hyn⟩

/-- The cell of processor 0 for processor 2, by number where possible: processor 2 gets the whole tetrahedron. -/
example : ∃ S' M R' out, pack 0 2 (fun _ => true) true
      (gather (tets 0) (fun _ => true) 2 fun t => if t = 3 then [⟨3, 0⟩] else []) (tets 0) = some (S', M) ∧
    unpack 2 0 true endPick M (tets 2) = some (R', out) ∧
    (∀ g ∈ ([⟨3, 0⟩, ⟨2, 0⟩, ⟨2, 3⟩, ⟨1, 0⟩, ⟨0, 0⟩, ⟨0, 1⟩] : List El), Has R' g ∧ ¬ Has (tets 2) g) ∧
    ¬ Has R' ⟨3, 1⟩ := by
  have hsel : Selection (tets 0) (fun t => if t = 3 then [⟨3, 0⟩] else []) := by
    refine ⟨fun t e he => ?_, fun t => ?_⟩
    · split at he
      · next h => rw [List.mem_singleton] at he; subst he; subst h; exact ⟨by decide +kernel, rfl⟩
      · cases he
    · split <;> simp
  obtain ⟨S', M, R', out, h1, h2, -, -, h5⟩ := C97_message tets_ok tets_spread (fun _ => true) true
    (endPick_fresh (cn := true)) (p := 0) (q := 2) (by decide) (by decide) (by decide) hsel
  refine ⟨S', M, R', out, h1, h2, ?_, ?_⟩
  · have r : Reach true (tets 2).T := reach_tetT
    have hcell : Part true (ofRows tetRows) (name (tets 0).num ⟨3, 0⟩) ⟨3, 0⟩ := .self
    have hface : ∀ i, i < 4 → Part true (ofRows tetRows) (name (tets 0).num ⟨3, 0⟩) ⟨2, i⟩ := fun i hi =>
      .low hcell (by decide) (by revert i; decide +kernel)
    have hedge : Part true (ofRows tetRows) (name (tets 0).num ⟨3, 0⟩) ⟨1, 0⟩ :=
      .low (hface 0 (by decide)) (by decide) (by decide +kernel)
    have hn0 : Part true (ofRows tetRows) (name (tets 0).num ⟨3, 0⟩) ⟨0, 0⟩ := .low hedge (by decide) (by decide +kernel)
    have hn1 : Part true (ofRows tetRows) (name (tets 0).num ⟨3, 0⟩) ⟨0, 1⟩ := .low hedge (by decide) (by decide +kernel)
    have key : ∀ g ∈ ([⟨3, 0⟩, ⟨2, 0⟩, ⟨2, 3⟩, ⟨1, 0⟩, ⟨0, 0⟩, ⟨0, 1⟩] : List El), ¬ Has (tets 2) g := by
      intro g hg h
      rw [← hasB_iff r] at h
      revert g
      decide +kernel
    intro g hg
    refine ⟨(h5 g).2 (Or.inr ⟨3, ⟨3, 0⟩, by simp, ?_⟩), key g hg⟩
    simp only [List.mem_cons, List.not_mem_nil, or_false] at hg
    rcases hg with rfl | rfl | rfl | rfl | rfl | rfl
    exacts [hcell, hface 0 (by decide), hface 3 (by decide), hedge, hn0, hn1]
  · intro h
    have r : Reach true (tets 2).T := reach_tetT
    rcases (h5 _).1 h with h | ⟨t, e, he, hpt⟩
    · rw [← hasB_iff r] at h
      revert h
      decide +kernel
    · have := part_has (tets_spread.piece 0 (by decide)) ⟨e, (hsel.live t e he).1, rfl⟩ hpt
      rw [← hasB_iff (cn := true) (show Reach true (tets 0).T from reach_tetT)] at this
      revert this
      decide +kernel

/-- Node 0 of processor 0, twice. -/
def twiceSel (t : Nat) : List El := if t = 0 then [⟨0, 0⟩, ⟨0, 0⟩] else []
def twiceSent : Side Nat × Msg Nat :=
  (pack 0 1 (fun _ => true) true (gather (tets 0) (fun _ => true) 1 twiceSel) (tets 0)).get (by decide +kernel)
def twiceTaken : Side Nat × (Nat → List (El × Bool)) := (unpack 1 0 true endPick twiceSent.2 (tets 1)).get (by decide +kernel)

/-- C97: if a node is named twice (its number is in the list of destinations twice), the receiver creates two nodes with
the same number: it looks for received nodes only among the nodes it had before. -/
theorem C97_twice_fails : ∃ (n : Nat) (G : Whole) (W : Nat → Side Nat) (sel : Nat → List El), G.Ok ∧ Spread n true G W ∧
    (∀ t, ∀ e ∈ sel t, (W 0).T.alive e = true ∧ e.ty = t) ∧
    ∃ S' M R' out, pack 0 1 (fun _ => true) true (gather (W 0) (fun _ => true) 1 sel) (W 0) = some (S', M) ∧
      unpack 1 0 true endPick M (W 1) = some (R', out) ∧
      ∃ a b, a ≠ b ∧ R'.T.alive a = true ∧ R'.T.alive b = true ∧ name R'.num a = name R'.num b := by
  refine ⟨3, ofRows tetRows, tets, twiceSel, tets_ok, tets_spread, ?_, twiceSent.1, twiceSent.2, twiceTaken.1, twiceTaken.2,
    getEq (by decide +kernel), getEq (by decide +kernel), ⟨0, 4⟩, ⟨0, 5⟩, by decide, by decide +kernel, by decide +kernel, by decide +kernel⟩
  intro t e he
  unfold twiceSel at he
  split at he
  · next h =>
    simp only [List.mem_cons, List.not_mem_nil, or_false, or_self] at he
    subst he; subst h
    exact ⟨by decide +kernel, rfl⟩
  · cases he

/-! ## The call -/

/-- C98: the call ends for every order in which the messages of its two rounds arrive: no assertion fails, no message is
lost, no processor gets an element it cannot connect. -/
theorem C98_completes {n : Nat} {cn : Bool} {G : Whole} {W : Nat → Side V} {sendto : Nat → El → List Nat} (ok : G.Ok)
    (H : Spread n cn G W) (byNum : Nat → Bool) (dup : Bool) {pick : Topo → Nat → Nat} (fresh : Fresh cn pick)
    (hm : ∀ p, p < n → Marked n (W p) (sendto p)) (arr arr' : Nat → List (Nat × Msg V) → List (Nat × Msg V))
    (ha : ∀ q l, (arr q l).Perm l) (ha' : ∀ q l, (arr' q l).Perm l) :
    ∃ W' X, Exchange n byNum dup pick sendto W W' X ∧ (∀ q, X.order q = arr q (mail n X.box q)) ∧
      ∀ q, X.order' q = arr' q (mail n X.box' q) :=
  exchange_exists dup ok H fresh hm arr arr' ha ha'

/-- C98: afterwards each processor has what it had and what was sent to it, with all that is built of, and nothing else. -/
theorem C98_elements {n : Nat} {cn : Bool} {G : Whole} {W W' : Nat → Side V} {sendto : Nat → El → List Nat} (ok : G.Ok)
    (H : Spread n cn G W) {byNum : Nat → Bool} {dup : Bool} {pick : Topo → Nat → Nat} (fresh : Fresh cn pick)
    (hm : ∀ p, p < n → Marked n (W p) (sendto p)) {X : Trace V} (h : Exchange n byNum dup pick sendto W W' X) (q : Nat)
    (hq : q < n) :
    (∀ g, Has (W' q) g ↔ Has (W q) g ∨ Wanted n cn G W sendto q g) ∧ Kept (W q) (W' q) :=
  ⟨(exchange_result ok H fresh hm h).2.1 q hq, (exchange_result ok H fresh hm h).2.2.1 q hq⟩

/-- C98: afterwards the processors know who has what: the list of processors of every copy of every element names exactly
the processors that have it, statuses and stored lists of shared and ghost elements are right. -/
theorem C98_partition {n : Nat} {cn : Bool} {G : Whole} {W W' : Nat → Side V} {sendto : Nat → El → List Nat} (ok : G.Ok)
    (H : Spread n cn G W) {byNum : Nat → Bool} {dup : Bool} {pick : Topo → Nat → Nat} (fresh : Fresh cn pick)
    (hm : ∀ p, p < n → Marked n (W p) (sendto p)) {X : Trace V} (h : Exchange n byNum dup pick sendto W W' X) :
    Spread n cn G W' :=
  (exchange_result ok H fresh hm h).1

/-- C98: if all copies of each element have the same values before, so they have afterwards, and the values of all
elements are the same as before. -/
theorem C98_values {n : Nat} {cn : Bool} {G : Whole} {W W' : Nat → Side V} {sendto : Nat → El → List Nat} (ok : G.Ok)
    (H : Spread n cn G W) {byNum : Nat → Bool} {dup : Bool} {pick : Topo → Nat → Nat} (fresh : Fresh cn pick)
    (hm : ∀ p, p < n → Marked n (W p) (sendto p)) {X : Trace V} (h : Exchange n byNum dup pick sendto W W' X) (f : El → V)
    (hf : SameValues n W f) : SameValues n W' f :=
  (exchange_result ok H fresh hm h).2.2.2 f hf

/-- C98: an element marked for `q` is on `q` afterwards, every copy of it lists `q`, and if it is not owned by `q`, the copy
on `q` is a ghost. -/
theorem C98_listed {n : Nat} {cn : Bool} {G : Whole} {W W' : Nat → Side V} {sendto : Nat → El → List Nat} (ok : G.Ok)
    (H : Spread n cn G W) {byNum : Nat → Bool} {dup : Bool} {pick : Topo → Nat → Nat} (fresh : Fresh cn pick)
    (hm : ∀ p, p < n → Marked n (W p) (sendto p)) {X : Trace V} (h : Exchange n byNum dup pick sendto W W' X)
    {p q r : Nat} (hp : p < n) (hq : q < n) (hr : r < n) {e a : El} (he : (W p).T.alive e = true) (hqe : q ∈ sendto p e)
    (ha : (W' r).T.alive a = true) (han : name (W' r).num a = name (W p).num e) :
    q ∈ (W' r).procs a ∧ (r = q → G.owner (name (W p).num e) ≠ q → (W' r).status a = .ghost) := by
  obtain ⟨S, h1, -, -⟩ := exchange_result ok H fresh hm h
  have hhas : Has (W' q) (name (W p).num e) := by
    by_cases hpq : p = q
    · subst hpq; exact (h1 p hq _).2 (Or.inl ⟨e, he, rfl⟩)
    · exact (h1 q hq _).2 (Or.inr ⟨p, hp, hpq, e, he, hqe, .self⟩)
  refine ⟨(S.procs r hr a ha q).2 ⟨hq, by rw [han]; exact hhas⟩, ?_⟩
  rintro rfl ho
  refine S.ghost r hr a ha ?_
  rw [(S.piece r hr).owner a ha, han]
  intro h'
  exact ho (by exact_mod_cast h')

/-- The three tetrahedra, all messages in reverse order: processor 2 gets both other cells, processor 1 gets the cell of
processor 0, nobody else gets a cell; and the call can be repeated from the result. -/
example : ∃ W' X, Exchange 3 (fun _ => true) true endPick tetMarks tets W' X ∧ Spread 3 true (ofRows tetRows) W' ∧
    Has (W' 2) ⟨3, 0⟩ ∧ Has (W' 2) ⟨3, 1⟩ ∧ Has (W' 1) ⟨3, 0⟩ ∧ ¬ Has (W' 0) ⟨3, 1⟩ ∧
    SameValues 3 W' (fun g => g.id) ∧
    ∃ W'' X', Exchange 3 (fun _ => true) true endPick (fun p e => if p = 2 ∧ e.ty = 3 then [0] else []) W' W'' X' ∧
      Has (W'' 0) ⟨3, 1⟩ := by
  obtain ⟨W', X, h, -⟩ := C98_completes tets_ok tets_spread (fun _ => true) true (endPick_fresh (cn := true))
    (fun p _ => tetMarks_ok p) (fun _ l => l.reverse) (fun _ l => l.reverse) (fun _ l => l.reverse_perm) (fun _ l => l.reverse_perm)
  have S := C98_partition tets_ok tets_spread (endPick_fresh (cn := true)) (fun p _ => tetMarks_ok p) h
  have hel := fun q hq => (C98_elements tets_ok tets_spread (endPick_fresh (cn := true)) (fun p _ => tetMarks_ok p) h q hq).1
  have h21 : Has (W' 2) ⟨3, 1⟩ := (hel 2 (by decide) _).2 (Or.inr ⟨1, by decide, by decide, ⟨3, 0⟩, by decide +kernel,
    by decide, by
      have : name (tets 1).num ⟨3, 0⟩ = ⟨3, 1⟩ := by decide +kernel
      rw [this]; exact .self⟩)
  have hm2 : ∀ p, p < 3 → Marked 3 (W' p) (fun e => if p = 2 ∧ e.ty = 3 then [0] else []) := by
    intro p _
    refine ⟨fun e _ k hk => ?_, fun e => ?_⟩
    · split at hk
      · rw [List.mem_singleton] at hk; omega
      · cases hk
    · split <;> simp
  obtain ⟨W'', X', h', -⟩ := C98_completes tets_ok S (fun _ => true) true (endPick_fresh (cn := true)) hm2
    (fun _ l => l) (fun _ l => l) (fun _ l => .refl l) (fun _ l => .refl l)
  have hel' := fun q hq => (C98_elements tets_ok S (endPick_fresh (cn := true)) hm2 h' q hq).1
  refine ⟨W', X, h, S, ?_, h21, ?_, ?_, ?_, W'', X', h', ?_⟩
  · refine (hel 2 (by decide) _).2 (Or.inr ⟨0, by decide, by decide, ⟨3, 0⟩, by decide +kernel, by decide, ?_⟩)
    have : name (tets 0).num ⟨3, 0⟩ = ⟨3, 0⟩ := by decide +kernel
    rw [this]; exact .self
  · refine (hel 1 (by decide) _).2 (Or.inr ⟨0, by decide, by decide, ⟨3, 0⟩, by decide +kernel, by decide, ?_⟩)
    have : name (tets 0).num ⟨3, 0⟩ = ⟨3, 0⟩ := by decide +kernel
    rw [this]; exact .self
  · intro hh
    rcases (hel 0 (by decide) _).1 hh with hh | ⟨p, hp, hp0, e, he, hqe, hpt⟩
    · rw [← hasB_iff (cn := true) (show Reach true (tets 0).T from reach_tetT)] at hh
      revert hh
      decide +kernel
    · unfold tetMarks at hqe
      split at hqe
      · next hc => exact hp0 hc.1
      · split at hqe
        · simp at hqe
        · split at hqe
          · next hc =>
            obtain ⟨rfl, rfl⟩ := hc
            have hpt' : (⟨3, 1⟩ : El).ty ≤ 0 := by
              have key : ∀ g h, Part true (ofRows tetRows) g h → g.ty = 0 → h.ty = 0 := by
                intro g h hgh h0
                induction hgh with
                | self => exact h0
                | low _ h1 _ ih => omega
                | nodes _ h3 _ _ ih => omega
              exact Nat.le_of_eq (key _ _ hpt rfl)
            exact absurd hpt' (by decide)
          · cases hqe
  · refine C98_values tets_ok tets_spread (endPick_fresh (cn := true)) (fun p _ => tetMarks_ok p) h (fun g => g.id) ?_
    intro p _ e _
    show (stored 3 tetBare p).val e = _
    simp only [name]
    have key : ∀ p, (stored 3 tetBare p).val = tetNum p ∧ (stored 3 tetBare p).num = tetNum p := by
      intro p
      unfold stored recompute
      split <;> exact ⟨rfl, rfl⟩
    rw [(key p).1]
    exact congrFun (key p).2.symm e
  · obtain ⟨x, hx, hxn⟩ := h21
    have hty : x.ty = 3 := congrArg El.ty hxn
    refine (hel' 0 (by decide) _).2 (Or.inr ⟨2, by decide, by decide, x, hx, ?_, ?_⟩)
    · simp [hty]
    · rw [hxn]; exact .self

end Verif.Transfer
