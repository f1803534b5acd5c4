import Verif.Parallel.Requests

/-!
# Properties of sending and awaiting buffers (C65)
-/

namespace Verif.Parallel

/-- C65: whatever the size of a buffer, its chunks put one after the other are the buffer, each within the buffer
and not larger than the limit of MPI, and none is empty unless the buffer is. -/
theorem C65_chunks (limit : Nat) (hl : 0 < limit) {α : Type} (data : List α) :
    ((chunks limit data.length).flatMap fun c => (data.drop c.1).take c.2) = data ∧
    (∀ c, c ∈ chunks limit data.length → c.2 ≤ limit ∧ c.1 + c.2 ≤ data.length) ∧
    (data ≠ [] → ∀ c, c ∈ chunks limit data.length → 0 < c.2) := by
  obtain ⟨h1, h2, h3⟩ := chunksFrom_spec hl data rfl (data.length + 1) 0 (by omega) (by omega)
  refine ⟨by rw [List.drop_zero] at h1; exact h1, h2, fun h => h3 ?_⟩
  exact List.length_pos_iff.2 h

example : chunks 4 10 = [(0, 4), (4, 4), (8, 2)] ∧ chunks 4 8 = [(0, 4), (4, 4)] ∧ chunks 4 0 = [(0, 0)] := by
  decide

/-- C65 for buffers that fit in one message each: in whatever portions and order MPI reports that messages have
arrived, each call of FinishRequests returns exactly the buffers reported arrived, so every buffer is unpacked
once, after it has arrived.  Missing: larger buffers, for which it is wrong (`C65_large_fails`). -/
theorem C65_reports_partial (limit : Nat) (sizes : List Nat) (hs : ∀ s, s ∈ sizes → s ≤ limit)
    (bs : List (List Nat)) (hne : ∀ b, b ∈ bs → b ≠ []) (hp : bs.flatten.Perm (List.range sizes.length)) :
    waitAll limit sizes bs = some bs := by
  unfold waitAll
  rw [reqCnt_one hs]
  have h1 : ∀ p, p ∈ bs.flatten → p < sizes.length := fun p h => List.mem_range.1 (hp.mem_iff.1 h)
  have h2 : ([] ++ bs.flatten).Nodup := by
    rw [List.nil_append]
    exact hp.nodup_iff.2 List.nodup_range
  have := drain_one (n := sizes.length) bs [] (bs.length + 1) (by omega) hne h1 h2
  rw [counters_nil] at this
  exact this

example : waitAll 100 [7, 0, 100] [[2], [1, 0]] = some [[2], [1, 0]] := by decide

/-- C65 fails for every buffer larger than the limit: its second chunk is attributed to a buffer that does not
exist, and the counter of it is read out of range (parallel.cpp L5884). -/
theorem C65_large_fails (limit : Nat) (hl : 0 < limit) :
    waitAll limit [limit + 1] [[0], [1]] = none := by
  have hc : chunks limit (limit + 1) = [(0, limit), (limit, 1)] := by
    unfold chunks
    rw [chunksFrom]
    have h1 : min limit (limit + 1 - 0) = limit := by omega
    simp only [h1]
    rw [if_pos (by omega)]
    obtain ⟨k, rfl⟩ : ∃ k, limit = k + 1 := ⟨limit - 1, by omega⟩
    rw [chunksFrom]
    have h2 : min (k + 1) (k + 1 + 1 - (0 + (k + 1))) = 1 := by omega
    simp only [h2]
    rw [if_neg (by omega), Nat.zero_add]
  unfold waitAll reqCnt
  simp only [List.map_cons, List.map_nil, hc]
  rfl

end Verif.Parallel
