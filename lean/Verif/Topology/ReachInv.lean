import Verif.Topology.UniteFacesInv

namespace Verif.Topology

variable {T : Topo}

/-! ## Reachable states -/

theorem init_inv (cn : Bool) : Inv (Topo.init cn) (fun _ => False) :=
  ⟨fun _ h => by simp [Topo.init] at h, fun _ _ => ⟨rfl, rfl, rfl⟩, fun _ h => by simp [Topo.init] at h,
    fun _ _ h => by simp [Topo.init] at h, fun _ _ _ => rfl, fun _ _ h => h.elim⟩

theorem reach_inv {cn : Bool} (r : Reach cn T) : Inv T (fun _ => False) ∧ T.cn = cn := by
  induction r with
  | init => exact ⟨init_inv cn, rfl⟩
  | createNode id _ e ih => exact (createNode_inv ih.1 e).imp (fun h => h) fun h => h.trans ih.2
  | create dup ty id elems nodes _ A e ih => exact (create_inv ih.1 A e).imp (fun h => h) fun h => h.trans ih.2
  | delete flip h _ ha e ih => exact (delete_inv ih.1 ha e).imp (fun h => h) fun h => h.trans ih.2
  | destroy flip h _ e ih => exact (destroy_inv ih.1 e).imp (fun h => h) fun h => h.trans ih.2
  | hideOp flip h _ e ih => exact (hideOp_inv ih.1 e).imp (fun h => h) fun h => h.trans ih.2
  | showOp h _ e ih => exact (showOp_inv ih.1 e).imp (fun h => h) fun h => h.trans ih.2
  | beginMod _ e ih => exact (beginMod_inv ih.1 e).imp (fun h => h) fun h => h.trans ih.2
  | endMod flip _ e ih => exact (endMod_inv ih.1 e).imp (fun h => h) fun h => h.trans ih.2
  | fixNormal flip f _ e ih =>
    have P := fixNormal_perm e
    exact ⟨ih.1.perm P, P.cn.trans ih.2⟩
  | permLow x l _ hl e ih =>
    have P := permLow_perm hl e
    exact ⟨ih.1.perm P, P.cn.trans ih.2⟩
  | connect h adj _ e ih => exact (connect_inv ih.1 e).imp (fun h => h) fun h => h.trans ih.2
  | disconnect flip h adj _ e ih => exact (disconnect_inv ih.1 e).imp (fun h => h) fun h => h.trans ih.2
  | splitEdge flip dup prot e nodes ids _ ht hn e ih =>
    exact (splitEdge_inv ih.1 ht hn e).imp (fun h => h) fun h => h.trans ih.2
  | uniteEdges flip dup prot edges id _ A e ih =>
    exact (uniteEdges_inv ih.1 A e).imp (fun h => h) fun h => h.trans ih.2
  | splitFace flip dup f cnodes loops ids _ A e ih =>
    exact (splitFaceRun_inv ih.1 A e).imp (fun h => h) fun h => h.trans ih.2
  | uniteFaces flip dup faces cells inner nodes edges id _ A e ih =>
    exact (uniteFacesRun_inv ih.1 A e).imp (fun h => h) fun h => h.trans ih.2

end Verif.Topology
