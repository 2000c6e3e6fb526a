import Verif.Lemmas.Sums

/-!
# Helper lemmas: closed form of one crawl level
-/

namespace Mastic

variable {P : Prims}

/-- Value share of client `i` at a node. -/
def valOf (node : TreeNode) (i : Nat) : List Field128 := (node.keyValues[i]?).getD []

/-- Proof of client `i` at a node. -/
def prfOf (node : TreeNode) (i : Nat) : Block := ((node.keyStates[i]?).map EvalState.proof).getD Block.zero

/-- Contribution of one prefix to the check bytes. -/
def stepBytes (n level : Nat) (chk : List Byte) (c : List Field128) : List Byte :=
  if level = 0 then xorInPlace chk (encodeField (c.getD n 0))
  else (List.range n).foldl (fun k i => xorInPlace k (encodeField (c.getD i 0))) chk

/-- The check bytes of a client from its values at (prefix, left child, right child). -/
def clientCheck (n : Nat) (sid : Int) (level : Nat)
    (ts : List (List Field128 × List Field128 × List Field128)) : List Byte :=
  ts.foldl (fun chk t => stepBytes n level chk (valueCheck n sid level t.1 t.2.1 t.2.2))
    (List.replicate 8 0)

/-- XOR of a list of blocks. -/
def xorAll (l : List Block) : Block := l.foldl vxor Block.zero

/-- The combined hash of client `i`, from the frontier nodes and their children. -/
def digestOf (P : Prims) (n : Nat) (sid : Int) (level : Nat)
    (trip : List (TreeNode × (TreeNode × TreeNode))) (i : Nat) : Block :=
  vxor (xorAll (trip.flatMap fun t => [prfOf t.2.1 i, prfOf t.2.2 i]))
    (first16 (P.blake3 (clientCheck n sid level
      (trip.map fun t => (valOf t.1 i, valOf t.2.1 i, valOf t.2.2 i)))))

theorem valueCheck_length (n : Nat) (sid : Int) (level : Nat) (a b c : List Field128) :
    (valueCheck n sid level a b c).length = n + 1 := by
  unfold valueCheck
  split <;> split <;> simp

theorem idx_valOf {node : TreeNode} {i : Nat} (h : i < node.keyValues.length) :
    idx node.keyValues i = .ok (valOf node i) := by
  rw [idx_eq_ok_of_lt h]; simp [valOf, h]

theorem flatMap_pair_even {α : Type} (cs : List (α × α)) (i : Nat) :
    (cs.flatMap fun c => [c.1, c.2])[2 * i]? = (cs[i]?).map Prod.fst := by
  induction cs generalizing i with
  | nil => simp
  | cons c cs ih =>
    cases i with
    | zero => simp
    | succ i =>
      have : 2 * (i + 1) = 2 * i + 2 := by ring
      simp only [List.flatMap_cons, List.cons_append, List.nil_append, this,
        List.getElem?_cons_succ]
      exact ih i

theorem flatMap_pair_odd {α : Type} (cs : List (α × α)) (i : Nat) :
    (cs.flatMap fun c => [c.1, c.2])[2 * i + 1]? = (cs[i]?).map Prod.snd := by
  induction cs generalizing i with
  | nil => simp
  | cons c cs ih =>
    cases i with
    | zero => simp
    | succ i =>
      have : 2 * (i + 1) + 1 = 2 * i + 1 + 2 := by ring
      simp only [List.flatMap_cons, List.cons_append, List.nil_append, this,
        List.getElem?_cons_succ]
      exact ih i

theorem checksForPrefix_eq {kc : KeyCollection P} (bld : Build) (level : Nat)
    {cs : List (TreeNode × TreeNode)} {node : TreeNode} {c : TreeNode × TreeNode} {k m : Nat}
    (hc : cs[k]? = some c) (h0 : node.keyValues.length = m) (h1 : c.1.keyValues.length = m)
    (h2 : c.2.keyValues.length = m) :
    kc.checksForPrefix bld level (cs.flatMap fun c => [c.1, c.2]) (node, k)
      = .ok ((List.range m).map fun i =>
          valueCheck kc.inputLen kc.serverId level (valOf node i) (valOf c.1 i) (valOf c.2 i)) := by
  unfold KeyCollection.checksForPrefix
  have e0 : idx (cs.flatMap fun c => [c.1, c.2]) (2 * k) = .ok c.1 := by
    rw [idx_eq_ok, flatMap_pair_even, hc]; rfl
  have e1 : idx (cs.flatMap fun c => [c.1, c.2]) (2 * k + 1) = .ok c.2 := by
    rw [idx_eq_ok, flatMap_pair_odd, hc]; rfl
  simp only [e0, e1, ok_bind, h0, h1, h2, beq_self_eq_true, debugAssert_true]
  rw [mapE_ok_of_forall (g := fun yi : List Field128 × Nat =>
    valueCheck kc.inputLen kc.serverId level yi.1 (valOf c.1 yi.2) (valOf c.2 yi.2))]
  · congr 1
    apply List.ext_getElem?
    intro i
    rw [List.getElem?_map, List.getElem?_map, zipIdx_getElem?]
    by_cases hi : i < m
    · have : i < node.keyValues.length := by omega
      simp [hi, this, valOf]
    · have : ¬ i < node.keyValues.length := by omega
      simp [hi, this]
  · rintro ⟨y, i⟩ hm
    have hi : i < m := by
      have := List.mem_zipIdx hm
      omega
    simp only
    rw [idx_valOf (by omega), ok_bind, idx_valOf (by omega), ok_bind]

theorem allChecks_eq {kc : KeyCollection P} (bld : Build) (level : Nat) {m : Nat}
    {cs : List (TreeNode × TreeNode)} {fr : List TreeNode} (hl : fr.length = cs.length)
    (h0 : ∀ node ∈ fr, node.keyValues.length = m)
    (h1 : ∀ c ∈ cs, c.1.keyValues.length = m ∧ c.2.keyValues.length = m) :
    mapE (kc.checksForPrefix bld level (cs.flatMap fun c => [c.1, c.2])) fr.zipIdx
      = .ok ((fr.zip cs).map fun t => (List.range m).map fun i =>
          valueCheck kc.inputLen kc.serverId level (valOf t.1 i) (valOf t.2.1 i) (valOf t.2.2 i)) := by
  rw [mapE_eq_ok_iff_getElem]
  refine ⟨by simp [hl], ?_⟩
  rintro k ⟨node, k'⟩ hk
  rw [zipIdx_getElem?] at hk
  cases hf : fr[k]? with
  | none => simp [hf] at hk
  | some nd =>
    simp only [hf, Option.map_some, Option.some.injEq, Prod.mk.injEq] at hk
    obtain ⟨rfl, rfl⟩ := hk
    have hlt := (List.getElem?_eq_some_iff.1 hf).1
    have hc : cs[k]? = some cs[k] := List.getElem?_eq_getElem (by omega)
    have hz : (fr.zip cs)[k]? = some (nd, cs[k]) := by
      rw [List.getElem?_zip_eq_some]; exact ⟨hf, hc⟩
    refine ⟨_, by rw [List.getElem?_map, hz]; rfl, ?_⟩
    have hm := h1 cs[k] (List.getElem_mem _)
    exact checksForPrefix_eq bld level hc (h0 nd (List.mem_of_getElem? hf)) hm.1 hm.2

theorem combineProofs_eq {next : List TreeNode} {i m : Nat} (hi : i < m)
    (h : ∀ node ∈ next, node.keyStates.length = m) :
    combineProofs next i = .ok (xorAll (next.map fun node => prfOf node i)) := by
  unfold combineProofs xorAll
  rw [foldE_ok_of_forall (g := fun acc node => vxor acc (prfOf node i))]
  · rw [List.foldl_map]
  · intro s node hn
    have : i < node.keyStates.length := by rw [h node hn]; exact hi
    rw [idx_eq_ok_of_lt this, ok_bind]
    simp [prfOf, this]

theorem checkStep_eq {n level i : Nat} {cs : List (List Field128)} (chk : List Byte)
    (hi : i < cs.length) (hl : ∀ c ∈ cs, c.length = n + 1) :
    checkStep n level i chk cs = .ok (stepBytes n level chk (cs[i])) := by
  unfold checkStep stepBytes
  have hlen := hl cs[i] (List.getElem_mem _)
  rw [idx_eq_ok_of_lt hi, ok_bind]
  by_cases h0 : level = 0
  · rw [if_pos h0, if_pos h0, idx_eq_ok_of_lt (by omega), ok_bind]
    have hg : cs[i][n]'(by omega) = cs[i].getD n 0 := by
      rw [List.getD_eq_getElem]
    rw [hg]
  · rw [if_neg h0, if_neg h0]
    rw [foldE_ok_of_forall (g := fun k j => xorInPlace k (encodeField (cs[i].getD j 0)))]
    intro s j hj
    have hj' : j < n := List.mem_range.1 hj
    rw [idx_eq_ok_of_lt (by omega), ok_bind]
    have hg : cs[i][j]'(by omega) = cs[i].getD j 0 := by
      rw [List.getD_eq_getElem]
    rw [hg]

theorem combinedHash_eq {n : Nat} {sid : Int} {level i m : Nat} {cs : List (TreeNode × TreeNode)}
    {fr : List TreeNode} (hi : i < m) (hl : fr.length = cs.length)
    (hs : ∀ c ∈ cs, c.1.keyStates.length = m ∧ c.2.keyStates.length = m) :
    combinedHash P n level (cs.flatMap fun c => [c.1, c.2])
      ((fr.zip cs).map fun t => (List.range m).map fun i =>
        valueCheck n sid level (valOf t.1 i) (valOf t.2.1 i) (valOf t.2.2 i)) i
      = .ok (digestOf P n sid level (fr.zip cs) i) := by
  unfold combinedHash
  rw [combineProofs_eq hi, ok_bind]
  · rw [foldE_ok_of_forall (g := fun chk (cs : List (List Field128)) =>
        stepBytes n level chk (cs.getD i []))]
    · rw [ok_bind, List.foldl_map]
      unfold digestOf clientCheck
      rw [List.foldl_map]
      have e1 : (List.map (fun node => prfOf node i) (List.flatMap (fun c => [c.1, c.2]) cs))
          = List.flatMap (fun t : TreeNode × (TreeNode × TreeNode) =>
              [prfOf t.2.1 i, prfOf t.2.2 i]) (fr.zip cs) := by
        have : cs = (fr.zip cs).map Prod.snd := by
          rw [List.map_snd_zip]; omega
        conv_lhs => rw [this]
        rw [List.map_flatMap, List.flatMap_map]
        rfl
      rw [e1]
      congr 4
      congr 1
      funext chk t
      simp [hi]
    · intro chk c hc
      obtain ⟨t, -, rfl⟩ := List.mem_map.1 hc
      rw [checkStep_eq (hi := by simpa using hi)]
      · simp [hi]
      · intro c hc
        obtain ⟨j, -, rfl⟩ := List.mem_map.1 hc
        exact valueCheck_length ..
  · intro node hn
    obtain ⟨c, hc, hm⟩ := List.mem_flatMap.1 hn
    simp only [List.mem_cons, List.not_mem_nil, or_false] at hm
    rcases hm with rfl | rfl
    · exact (hs c hc).1
    · exact (hs c hc).2

theorem mem_includedIndices {reports : List (Bool × ReportShare)} {i : Nat} :
    i ∈ includedIndices reports ↔ ∃ r, reports[i]? = some (true, r) := by
  unfold includedIndices
  simp only [List.mem_map, List.mem_filter, Prod.exists]
  constructor
  · rintro ⟨b, r, j, ⟨hm, hb⟩, rfl⟩
    have := List.mem_zipIdx_iff_getElem?.1 hm
    simp only at hb this
    subst hb
    exact ⟨r, this⟩
  · rintro ⟨r, h⟩
    exact ⟨true, r, i, ⟨List.mem_zipIdx_iff_getElem?.2 h, rfl⟩, rfl⟩

theorem children_shape {kc : KeyCollection P} {fr : List TreeNode} {cs : List (TreeNode × TreeNode)}
    (hF : List.Forall₂ (fun node c => kc.makeTreeNode node false = .ok c.1 ∧
        kc.makeTreeNode node true = .ok c.2) fr cs) :
    ∀ c ∈ cs, (c.1.keyStates.length = kc.reportShares.length ∧
      c.2.keyStates.length = kc.reportShares.length) ∧
      c.1.keyValues.length = kc.reportShares.length ∧
      c.2.keyValues.length = kc.reportShares.length := by
  intro c hc
  obtain ⟨i, hi, rfl⟩ := List.getElem_of_mem hc
  have := (List.forall₂_iff_get.1 hF).2 i (hF.length_eq ▸ hi) hi
  obtain ⟨-, a1, a2, -⟩ := makeTreeNode_ok this.1
  obtain ⟨-, b1, b2, -⟩ := makeTreeNode_ok this.2
  exact ⟨⟨a1, b1⟩, a2, b2⟩

/-- The closed form of `crawlLevel`. -/
theorem crawlLevel_eq {kc : KeyCollection P} {bld : Build} {root : TreeNode} {rest : List TreeNode}
    {cs : List (TreeNode × TreeNode)} (hfr : kc.frontier = root :: rest)
    (ha : kc.levelAssert bld root.path.length = .ok ())
    (hn : kc.nextFrontier true = .ok (cs.flatMap fun c => [c.1, c.2]))
    (hF : List.Forall₂ (fun node c => kc.makeTreeNode node false = .ok c.1 ∧
        kc.makeTreeNode node true = .ok c.2) kc.frontier cs)
    (hv : ∀ node ∈ kc.frontier, node.keyValues.length = kc.reportShares.length) :
    kc.crawlLevel bld = .ok (cs.flatMap fun c => [c.1, c.2],
      (includedIndices kc.reportShares).map
        (digestOf P kc.inputLen kc.serverId root.path.length (kc.frontier.zip cs))) := by
  have hsh := children_shape hF
  unfold KeyCollection.crawlLevel
  have e0 : idx kc.frontier 0 = .ok root := by rw [idx_eq_ok, hfr]; rfl
  rw [e0, ok_bind]
  dsimp only
  rw [ha, ok_bind, hn, ok_bind,
    allChecks_eq bld root.path.length hF.length_eq hv (fun c hc => (hsh c hc).2), ok_bind,
    mapE_ok_of_forall (g := digestOf P kc.inputLen kc.serverId root.path.length
      (kc.frontier.zip cs)), ok_bind]
  intro i hi
  obtain ⟨r, hr⟩ := mem_includedIndices.1 hi
  exact combinedHash_eq (List.getElem?_eq_some_iff.1 hr).1 hF.length_eq (fun c hc => (hsh c hc).1)

/-! ### Progress -/

/-- All reports are Mastic reports whose keys reach below depth `d`. -/
def KeysReach (d : Nat) (reports : List (Bool × ReportShare)) : Prop :=
  ∀ br ∈ reports, ∃ key, Spec.keyOf br.2 = some key ∧ key.cs.length = key.corWords.length ∧
    d < key.corWords.length

theorem makeTreeNode_progress {kc : KeyCollection P} {node : TreeNode} (dir : Bool)
    (hk : KeysReach node.path.length kc.reportShares)
    (hx : Spec.NodeExact P kc.inputLen (kc.reportShares.map Prod.snd) node) :
    Returns (kc.makeTreeNode node dir) := by
  apply makeTreeNode_returns
  intro i b r hr
  obtain ⟨key, hkey, hcs, hlt⟩ := hk (b, r) (List.mem_of_getElem? hr)
  obtain ⟨key', st, w, hkey', hev, hst, -⟩ := hx.2.2 i r (by simp [hr])
  rw [hkey] at hkey'
  cases hkey'
  refine ⟨key, st, hkey, hst, ?_⟩
  rw [evalBit_returns_iff hcs]
  have := evalPath_level hev
  simp only at this
  omega

theorem nextFrontier_progress {kc : KeyCollection P} {chk : Bool} {d : Nat}
    (hk : KeysReach d kc.reportShares) (hd : ∀ node ∈ kc.frontier, node.path.length = d)
    (hx : ∀ node ∈ kc.frontier, Spec.NodeExact P kc.inputLen (kc.reportShares.map Prod.snd) node)
    (hdepth : chk = true → ∃ D, kc.depth = some D ∧ d ≤ D) :
    Returns (kc.nextFrontier chk) := by
  unfold KeyCollection.nextFrontier
  have : Returns (mapE (kc.children chk) kc.frontier) := by
    rw [mapE_returns_iff]
    intro node hn
    obtain ⟨c0, h0⟩ := makeTreeNode_progress false ((hd node hn).symm ▸ hk) (hx node hn)
    obtain ⟨c1, h1⟩ := makeTreeNode_progress true ((hd node hn).symm ▸ hk) (hx node hn)
    unfold KeyCollection.children
    cases chk with
    | false => exact ⟨[c0, c1], by simp [h0, h1]⟩
    | true =>
      obtain ⟨D, hD, hle⟩ := hdepth rfl
      refine ⟨[c0, c1], ?_⟩
      simp [h0, h1, hD, hd node hn, hle]
  obtain ⟨cs, hcs⟩ := this
  exact ⟨cs.flatten, by rw [hcs]; rfl⟩

theorem levelAssert_ok {kc : KeyCollection P} (bld : Build) {level D : Nat} (h : kc.depth = some D)
    (hl : level < D) : kc.levelAssert bld level = .ok () := by
  unfold KeyCollection.levelAssert
  cases bld <;> simp [h, hl]

/-- One level of a crawl succeeds when the keys reach the level and the frontier is not empty. -/
theorem crawlLevel_progress {kc : KeyCollection P} (bld : Build) {d D : Nat} (hne : kc.frontier ≠ [])
    (hk : KeysReach d kc.reportShares) (hd : ∀ node ∈ kc.frontier, node.path.length = d)
    (hx : ∀ node ∈ kc.frontier, Spec.NodeExact P kc.inputLen (kc.reportShares.map Prod.snd) node)
    (hD : kc.depth = some D) (hlt : d < D) :
    ∃ cs : List (TreeNode × TreeNode),
      List.Forall₂ (fun node c => kc.makeTreeNode node false = .ok c.1 ∧
        kc.makeTreeNode node true = .ok c.2) kc.frontier cs ∧
      kc.crawlLevel bld = .ok (cs.flatMap fun c => [c.1, c.2],
        (includedIndices kc.reportShares).map
          (digestOf P kc.inputLen kc.serverId d (kc.frontier.zip cs))) := by
  obtain ⟨next, hn⟩ := nextFrontier_progress (chk := true) hk hd hx (fun _ => ⟨D, hD, hlt.le⟩)
  obtain ⟨cs, rfl, hF⟩ := nextFrontier_ok hn
  obtain ⟨root, rest, hfr⟩ := List.exists_cons_of_ne_nil hne
  have hroot := hd root (by simp [hfr])
  refine ⟨cs, hF, ?_⟩
  rw [crawlLevel_eq hfr (levelAssert_ok bld hD (by omega)) hn hF, hroot]
  intro node hnode
  have := (hx node hnode).2.1
  simpa using this

end Mastic
