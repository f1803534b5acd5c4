/-!
# Model of sending buffers in chunks and of waiting for them

Source: `Source/Mesh/parallel.cpp`, ExchangeBuffersInner L5596-5684, FinishRequests L5848-5897,
the loop around it in ExchangeDataInnerEnd L3675-3705; `Source/Headers/inmost_mesh.h`, exch_recv_reqs_t L2287-2306.

Simplifications.  `limit` stands for `INT_MAX`.  A buffer is a list of bytes.  `std::lower_bound` on the sorted
vector `buf` is the first position whose entry is not smaller.  Which requests
`MPI_Waitsome` reports, how many at a time and in which order, is given by a list of batches.
-/

namespace Verif.Parallel

/-- The do-while loop over chunks of one buffer (parallel.cpp L5629-5647, L5658-5674): offset and length of each
chunk.  `fuel` bounds the number of turns. -/
def chunksFrom (limit size : Nat) : Nat → Nat → List (Nat × Nat)
  | 0, _ => []
  | fuel + 1, shift =>
    let chunk := min limit (size - shift)
    if shift + chunk ≠ size then (shift, chunk) :: chunksFrom limit size fuel (shift + chunk)
    else [(shift, chunk)]

/-- The chunks of a buffer of `size` bytes. -/
def chunks (limit size : Nat) : List (Nat × Nat) := chunksFrom limit size (size + 1) 0

/-- `recv_reqs.cnt` after ExchangeBuffersInner (parallel.cpp L5627, L5642). -/
def reqCnt (limit : Nat) (sizes : List Nat) : List Nat := sizes.map fun s => (chunks limit s).length

/-- `recv_reqs.buf` (parallel.cpp L5628, L5641; it starts as `{0}`, inmost_mesh.h L2302). -/
def reqBuf (b : Nat) : List Nat → List Nat
  | [] => [b]
  | c :: cs => b :: reqBuf (b + c) cs

/-- `std::lower_bound(buf.begin(),buf.end(),p) - buf.begin()`. -/
def lowerBound : List Nat → Nat → Nat
  | [], _ => 0
  | b :: bs, p => if b < p then lowerBound bs p + 1 else 0

/-- The loop over the requests one `MPI_Waitsome` reported (parallel.cpp L5877-5888).  `none`: `cnt[k]` is out of
range or counts below zero. -/
def finishBatch (buf : List Nat) : List Nat → List Nat → List Nat → Option (List Nat × List Nat)
  | [], cnt, ret => some (cnt, ret)
  | p :: ps, cnt, ret =>
    let k := lowerBound buf p
    match cnt[k]? with
    | none => none
    | some 0 => none
    | some (c + 1) => finishBatch buf ps (cnt.set k c) (if c = 0 then ret ++ [k] else ret)

/-- FinishRequests (parallel.cpp L5848-5897): returned list, counters, batches not used. -/
def finishRequests (buf : List Nat) : List (List Nat) → List Nat → Option (List Nat × List Nat × List (List Nat))
  | [], cnt => some ([], cnt, [])
  | b :: bs, cnt =>
    if cnt.sum = 0 then some ([], cnt, b :: bs)
    else
      match finishBatch buf b cnt [] with
      | none => none
      | some (cnt', ret) => if ret = [] then finishRequests buf bs cnt' else some (ret, cnt', bs)

/-- The loop `while( !(done = FinishRequests(recv_reqs)).empty() )` (parallel.cpp L3675): the lists of buffers to
unpack. -/
def drain (buf : List Nat) : Nat → List (List Nat) → List Nat → Option (List (List Nat))
  | 0, _, _ => some []
  | fuel + 1, bs, cnt =>
    match finishRequests buf bs cnt with
    | none => none
    | some (ret, cnt', bs') =>
      if ret = [] then some []
      else
        match drain buf fuel bs' cnt' with
        | none => none
        | some l => some (ret :: l)

/-- A processor waits for the buffers of sizes `sizes`, and `MPI_Waitsome` reports the batches `bs`. -/
def waitAll (limit : Nat) (sizes : List Nat) (bs : List (List Nat)) : Option (List (List Nat)) :=
  drain (reqBuf 0 (reqCnt limit sizes)) (bs.length + 1) bs (reqCnt limit sizes)

/-! ## Lemmas -/

theorem chunksFrom_spec {limit size : Nat} (hl : 0 < limit) {α : Type} (data : List α)
    (hd : data.length = size) : ∀ (fuel shift : Nat), shift ≤ size → size - shift < fuel →
    ((chunksFrom limit size fuel shift).flatMap fun c => (data.drop c.1).take c.2) = data.drop shift ∧
    (∀ c, c ∈ chunksFrom limit size fuel shift → c.2 ≤ limit ∧ c.1 + c.2 ≤ size) ∧
    (shift < size → ∀ c, c ∈ chunksFrom limit size fuel shift → 0 < c.2)
  | 0, shift, _, h2 => by omega
  | fuel + 1, shift, h1, h2 => by
    unfold chunksFrom
    simp only
    split
    · rename_i hne
      have hc : min limit (size - shift) = limit := by omega
      rw [hc] at hne ⊢
      obtain ⟨i1, i2, i3⟩ := chunksFrom_spec hl data hd fuel (shift + limit) (by omega) (by omega)
      refine ⟨?_, ?_, ?_⟩
      · rw [List.flatMap_cons, i1]
        simp only
        rw [← List.drop_drop]
        exact List.take_append_drop _ _
      · intro c hc
        rcases List.mem_cons.1 hc with rfl | hc
        · simp only; omega
        · exact i2 c hc
      · intro _ c hc
        rcases List.mem_cons.1 hc with rfl | hc
        · exact hl
        · exact i3 (by omega) c hc
    · rename_i he
      have he : shift + min limit (size - shift) = size := by omega
      refine ⟨?_, ?_, ?_⟩
      · simp only [List.flatMap_cons, List.flatMap_nil, List.append_nil]
        apply List.take_of_length_le
        rw [List.length_drop, hd]
        omega
      · intro c hc
        rw [List.mem_singleton] at hc
        subst hc
        simp only
        omega
      · intro hlt c hc
        rw [List.mem_singleton] at hc
        subst hc
        simp only
        omega

theorem chunks_one {limit size : Nat} (h : size ≤ limit) : chunks limit size = [(0, size)] := by
  unfold chunks chunksFrom
  simp only
  have : min limit (size - 0) = size := by omega
  rw [this, if_neg (by omega)]

theorem reqCnt_one {limit : Nat} {sizes : List Nat} (h : ∀ s, s ∈ sizes → s ≤ limit) :
    reqCnt limit sizes = List.replicate sizes.length 1 := by
  unfold reqCnt
  induction sizes with
  | nil => rfl
  | cons s ss ih =>
    rw [List.map_cons, ih fun x hx => h x (List.mem_cons_of_mem _ hx), chunks_one (h s List.mem_cons_self)]
    rfl

theorem lowerBound_one : ∀ (n b p : Nat), b ≤ p → p ≤ b + n →
    lowerBound (reqBuf b (List.replicate n 1)) p = p - b
  | 0, b, p, h1, h2 => by
    have : p = b := by omega
    subst this
    simp [reqBuf, lowerBound]
  | n + 1, b, p, h1, h2 => by
    rw [List.replicate_succ]
    simp only [reqBuf, lowerBound]
    split
    · rw [lowerBound_one n (b + 1) p (by omega) (by omega)]; omega
    · omega

/-- The counters when the requests in `s` have been reported. -/
def counters (n : Nat) (s : List Nat) : List Nat := (List.range n).map fun i => if i ∈ s then 0 else 1

theorem counters_nil (n : Nat) : counters n [] = List.replicate n 1 := by
  unfold counters
  rw [List.eq_replicate_iff]
  simp

theorem counters_set {n p : Nat} {s : List Nat} (hp : p < n) :
    (counters n s).set p 0 = counters n (s ++ [p]) := by
  unfold counters
  apply List.ext_getElem
  · simp
  · intro i h1 h2
    rw [List.getElem_set]
    simp only [List.getElem_map, List.getElem_range, List.mem_append, List.mem_singleton]
    by_cases h : p = i
    · simp [h]
    · have : ¬ i = p := fun e => h e.symm
      simp [h, this]

theorem finishBatch_one {n : Nat} : ∀ (ps s ret : List Nat), (∀ p, p ∈ ps → p < n) → (s ++ ps).Nodup →
    finishBatch (reqBuf 0 (List.replicate n 1)) ps (counters n s) ret =
      some (counters n (s ++ ps), ret ++ ps)
  | [], s, ret, _, _ => by simp [finishBatch]
  | p :: ps, s, ret, h, hn => by
    have hp := h p List.mem_cons_self
    simp only [finishBatch]
    rw [lowerBound_one n 0 p (by omega) (by omega), Nat.sub_zero]
    have hnot : p ∉ s := by
      intro hs
      rw [List.nodup_append] at hn
      exact hn.2.2 p hs p List.mem_cons_self rfl
    have hget : (counters n s)[p]? = some 1 := by
      unfold counters
      rw [List.getElem?_map, List.getElem?_range hp]
      simp [hnot]
    rw [hget]
    simp only [if_true]
    rw [counters_set hp, finishBatch_one ps (s ++ [p]) (ret ++ [p])
      (fun x hx => h x (List.mem_cons_of_mem _ hx)) (by rw [List.append_assoc]; exact hn)]
    simp

theorem counters_sum_pos {n p : Nat} {s : List Nat} (hp : p < n) (hs : p ∉ s) : (counters n s).sum ≠ 0 := by
  intro h0
  have hmem : (1 : Nat) ∈ counters n s := by
    unfold counters
    rw [List.mem_map]
    exact ⟨p, List.mem_range.2 hp, by rw [if_neg hs]⟩
  have : ∀ (l : List Nat), l.sum = 0 → (1 : Nat) ∉ l := by
    intro l
    induction l with
    | nil => intro _ h; cases h
    | cons a l ih =>
      intro h hm
      rw [List.sum_cons] at h
      rcases List.mem_cons.1 hm with rfl | hm
      · omega
      · exact ih (by omega) hm
  exact this _ h0 hmem

theorem drain_one {n : Nat} : ∀ (bs : List (List Nat)) (s : List Nat) (fuel : Nat), bs.length < fuel →
    (∀ b, b ∈ bs → b ≠ []) → (∀ p, p ∈ bs.flatten → p < n) → (s ++ bs.flatten).Nodup →
    drain (reqBuf 0 (List.replicate n 1)) fuel bs (counters n s) = some bs
  | [], s, fuel + 1, _, _, _, _ => by simp [drain, finishRequests]
  | b :: bs, s, fuel + 1, hf, hne, hlt, hnd => by
    have hb := hne b List.mem_cons_self
    rw [List.flatten_cons] at hlt hnd
    obtain ⟨p, hp⟩ := List.exists_mem_of_ne_nil b hb
    have hpn := hlt p (List.mem_append_left _ hp)
    have hps : p ∉ s := by
      intro hs
      rw [List.nodup_append] at hnd
      exact hnd.2.2 p hs p (List.mem_append_left _ hp) rfl
    have hnd' : (s ++ b).Nodup := by
      rw [← List.append_assoc, List.nodup_append] at hnd
      exact hnd.1
    simp only [drain, finishRequests]
    rw [if_neg (counters_sum_pos hpn hps), finishBatch_one b s [] (fun x hx => hlt x (List.mem_append_left _ hx)) hnd']
    simp only [List.nil_append, hb, if_false]
    simp only [List.length_cons] at hf
    rw [drain_one bs (s ++ b) fuel (by omega) (fun x hx => hne x (List.mem_cons_of_mem _ hx))
      (fun x hx => hlt x (List.mem_append_right _ hx)) (by rw [List.append_assoc]; exact hnd)]

end Verif.Parallel
