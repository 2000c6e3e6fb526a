import Verif.Lemmas.Level

/-!
# FLP verification right after `tree_init`
-/

namespace Mastic

variable {P : Prims}

/-- A server right after `tree_init`: the root node is exact. -/
structure Fresh (kc : KeyCollection P) (root : TreeNode) : Prop where
  frontier : kc.frontier = [root]
  path : root.path = []
  exact : Spec.NodeExact P kc.inputLen (kc.reportShares.map Prod.snd) root

theorem treeInit_fresh {kc kc' : KeyCollection P} (h : kc.treeInit = .ok kc') :
    ∃ root, Fresh kc' root ∧ kc' = { kc with frontier := [root] } := by
  have hx := treeInit_exact h
  obtain ⟨keys, -, rfl⟩ := treeInit_ok h
  exact ⟨_, ⟨rfl, rfl, hx.1 _ (by simp)⟩, rfl⟩

theorem driverTreeInit_ok {kcs kcs' : Pair2 P} (h : driverTreeInit kcs = .ok kcs') :
    kcs.1.treeInit = .ok kcs'.1 ∧ kcs.2.treeInit = .ok kcs'.2 := by
  unfold driverTreeInit at h
  obtain ⟨k0, h0, h⟩ := bind_eq_ok.1 h
  obtain ⟨k1, h1, h⟩ := bind_eq_ok.1 h
  cases h; exact ⟨h0, h1⟩

theorem Fresh.child {kc : KeyCollection P} {root l : TreeNode} {dir : Bool} (hf : Fresh kc root)
    (h : kc.makeTreeNode root dir = .ok l) :
    l.path = [dir] ∧ Spec.NodeExact P kc.inputLen (kc.reportShares.map Prod.snd) l := by
  refine ⟨by rw [(makeTreeNode_ok h).1, hf.path]; rfl, ?_⟩
  exact makeTreeNode_exact (m := (kc.reportShares.map Prod.snd).length)
    (by rw [List.take_length]; exact hf.exact) h

theorem Fresh.ready {kc : KeyCollection P} {root l r : TreeNode} {n : Nat} (hf : Fresh kc root)
    (hn : kc.reportShares.length = n) (hl : kc.makeTreeNode root false = .ok l)
    (hr : kc.makeTreeNode root true = .ok r) : FlpReady n kc root l r :=
  ⟨hf.frontier, hf.path, by rw [hf.exact.2.1, List.length_map, hn], hn, hl, hr⟩

theorem Fresh.children {kc : KeyCollection P} {root : TreeNode} (hf : Fresh kc root)
    (hk : KeysReach 0 kc.reportShares) (dir : Bool) : Returns (kc.makeTreeNode root dir) :=
  makeTreeNode_progress dir (by rw [hf.path]; exact hk) hf.exact

theorem runFlp_children {kc : KeyCollection P} {root : TreeNode} {bld : Build} {s e : Nat}
    {v : List (List Field128)} (hf : Fresh kc root) (h : kc.runFlpQueries bld s e = .ok v) :
    ∃ l r, kc.makeTreeNode root false = .ok l ∧ kc.makeTreeNode root true = .ok r := by
  unfold KeyCollection.runFlpQueries at h
  obtain ⟨root', h0, h⟩ := bind_eq_ok.1 h
  rw [hf.frontier, idx_eq_ok] at h0
  cases h0
  obtain ⟨_, -, h⟩ := bind_eq_ok.1 h
  obtain ⟨_, -, h⟩ := bind_eq_ok.1 h
  obtain ⟨l, hl, h⟩ := bind_eq_ok.1 h
  obtain ⟨r, hr, h⟩ := bind_eq_ok.1 h
  exact ⟨l, r, hl, hr⟩

/-- If the driver's FLP phase completes, both servers could expand the root. -/
theorem driverFlp_children {c0 c1 : ServerCfg} {bld : Build} {cfg : Config} {kcs kcs' : Pair2 P}
    {n : Nat} {root0 root1 : TreeNode} (f0 : Fresh kcs.1 root0) (f1 : Fresh kcs.2 root1)
    (hn0 : kcs.1.reportShares.length = n) (hn1 : kcs.2.reportShares.length = n)
    (h : driverFlp c0 c1 bld cfg kcs n = .ok kcs') :
    ∃ l0 r0 l1 r1, FlpReady n kcs.1 root0 l0 r0 ∧ FlpReady n kcs.2 root1 l1 r1 := by
  rcases Nat.eq_zero_or_pos n with rfl | hpos
  · have k0 : KeysReach 0 kcs.1.reportShares := by
      rw [List.eq_nil_of_length_eq_zero hn0]; intro br hbr; cases hbr
    have k1 : KeysReach 0 kcs.2.reportShares := by
      rw [List.eq_nil_of_length_eq_zero hn1]; intro br hbr; cases hbr
    obtain ⟨l0, a0⟩ := f0.children k0 false
    obtain ⟨r0, b0⟩ := f0.children k0 true
    obtain ⟨l1, a1⟩ := f1.children k1 false
    obtain ⟨r1, b1⟩ := f1.children k1 true
    exact ⟨l0, r0, l1, r1, f0.ready hn0 a0 b0, f1.ready hn1 a1 b1⟩
  · unfold driverFlp at h
    obtain ⟨rs, hrs, h⟩ := bind_eq_ok.1 h
    obtain ⟨keeps, hk, h⟩ := bind_eq_ok.1 h
    obtain ⟨m, rfl⟩ : ∃ m, n = m + 1 := ⟨n - 1, by omega⟩
    unfold whileRanges at hrs
    rw [if_pos (Nat.succ_pos m)] at hrs
    obtain ⟨rest, -, hrs⟩ := bind_eq_ok.1 hrs
    cases hrs
    rw [mapE_cons] at hk
    obtain ⟨b, hb', -⟩ := bind_eq_ok.1 hk
    unfold flpBatch at hb'
    obtain ⟨_, -, hb'⟩ := bind_eq_ok.1 hb'
    obtain ⟨v0, e0, hb'⟩ := bind_eq_ok.1 hb'
    obtain ⟨_, -, hb'⟩ := bind_eq_ok.1 hb'
    obtain ⟨v1, e1, -⟩ := bind_eq_ok.1 hb'
    obtain ⟨l0, r0, a0, b0⟩ := runFlp_children f0 e0
    obtain ⟨l1, r1, a1, b1⟩ := runFlp_children f1 e1
    exact ⟨l0, r0, l1, r1, f0.ready hn0 a0 b0, f1.ready hn1 a1 b1⟩

/-- The FLP query of one client is the specified one. -/
theorem flpQueryClient_iff {kc : KeyCollection P} {l r : TreeNode} {i : Nat} {b : Bool}
    {s : ReportShare} (hs : kc.reportShares[i]? = some (b, s))
    (xl : Spec.NodeExact P kc.inputLen (kc.reportShares.map Prod.snd) l) (pl : l.path = [false])
    (xr : Spec.NodeExact P kc.inputLen (kc.reportShares.map Prod.snd) r) (pr : r.path = [true])
    {v : List Field128} :
    kc.flpQueryClient l r i = .ok v ↔
      Spec.verifierOf P kc.inputLen kc.serverId kc.verifyKey s = some v := by
  have hs' : (kc.reportShares.map Prod.snd)[i]? = some s := by simp [hs]
  cases s with
  | prio3 a c d =>
    obtain ⟨key, _, _, hk, -⟩ := xl.2.2 i _ hs'
    cases hk
  | mastic nonce key proof parts =>
    obtain ⟨y0, hy0, w0, l0⟩ := nodeExact_value xl (by simp [pl]) hs' rfl
    obtain ⟨y1, hy1, w1, l1⟩ := nodeExact_value xr (by simp [pr]) hs' rfl
    rw [pl] at w0; rw [pr] at w1
    unfold KeyCollection.flpQueryClient KeyCollection.flpJointRand Spec.verifierOf
    rw [idx_eq_ok.2 hy0, ok_bind, idx_eq_ok.2 hy1, ok_bind, idx_eq_ok.2 hs, ok_bind]
    dsimp only
    rw [w0, w1, queryRand_eq hs, betaShare_eq l0 l1]
    simp only [ReportShare.unwrapFlpProofShare, ok_bind, ReportShare.unwrapFlpJointRandParts,
      ReportShare.unwrapVidpfKey, ReportShare.nonce, unwrapO_eq_ok, Option.bind_eq_bind,
      Option.bind_some]
    by_cases h0 : kc.serverId = 0
    · simp only [h0, if_true]; rfl
    · simp only [h0, if_false]; rfl

/-- The decision on one client. -/
theorem flpDecision_iff {k0 k1 : KeyCollection P} {n : Nat} {l0 r0 l1 r1 : TreeNode} {i : Nat}
    {b0 b1 : Bool} {s0 s1 : ReportShare} (h0 : k0.reportShares[i]? = some (b0, s0))
    (h1 : k1.reportShares[i]? = some (b1, s1))
    (xl0 : Spec.NodeExact P k0.inputLen (k0.reportShares.map Prod.snd) l0) (pl0 : l0.path = [false])
    (xr0 : Spec.NodeExact P k0.inputLen (k0.reportShares.map Prod.snd) r0) (pr0 : r0.path = [true])
    (xl1 : Spec.NodeExact P k1.inputLen (k1.reportShares.map Prod.snd) l1) (pl1 : l1.path = [false])
    (xr1 : Spec.NodeExact P k1.inputLen (k1.reportShares.map Prod.snd) r1) (pr1 : r1.path = [true])
    {d : Bool} :
    flpDecision k0 k1 n l0 r0 l1 r1 i = .ok d ↔ ∃ v0 v1,
      Spec.verifierOf P k0.inputLen k0.serverId k0.verifyKey s0 = some v0 ∧
      Spec.verifierOf P k1.inputLen k1.serverId k1.verifyKey s1 = some v1 ∧
      P.flpDecide n (Spec.addShares v0 v1) = some d := by
  unfold flpDecision decideShares
  constructor
  · intro h
    obtain ⟨v0, e0, h⟩ := bind_eq_ok.1 h
    obtain ⟨v1, e1, h⟩ := bind_eq_ok.1 h
    exact ⟨v0, v1, (flpQueryClient_iff h0 xl0 pl0 xr0 pr0).1 e0,
      (flpQueryClient_iff h1 xl1 pl1 xr1 pr1).1 e1, unwrapO_eq_ok.1 h⟩
  · rintro ⟨v0, v1, e0, e1, h⟩
    rw [(flpQueryClient_iff h0 xl0 pl0 xr0 pr0).2 e0, ok_bind,
      (flpQueryClient_iff h1 xl1 pl1 xr1 pr1).2 e1, ok_bind]
    exact unwrapO_eq_ok.2 h

end Mastic
