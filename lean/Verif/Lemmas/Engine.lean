import Verif.Spec.Crawl
import Verif.Lemmas.Level
import Verif.Lemmas.FlpInit
import Verif.Props.Collect

/-!
# Helper lemmas: one crawl level in terms of the specification
-/

namespace Mastic

variable {P : Prims}

theorem vecAdd_getD' {a b : List Field128} {k : Nat} (ha : a.length = k) (hb : b.length = k) (i : Nat) :
    (vecAdd a b).getD i 0 = a.getD i 0 + b.getD i 0 := by
  rw [vecAdd_eq_addShares (ha.trans hb.symm), addShares_getD ha hb]

theorem vecSub_getD' {a b : List Field128} {k : Nat} (ha : a.length = k) (hb : b.length = k) (i : Nat) :
    (vecSub a b).getD i 0 = a.getD i 0 - b.getD i 0 := by
  simp only [List.getD_eq_getElem?_getD, vecSub_getElem?]
  by_cases hi : i < k
  · rw [List.getElem?_eq_getElem (by omega), List.getElem?_eq_getElem (by omega)]; simp
  · rw [List.getElem?_eq_none (by omega), List.getElem?_eq_none (by omega)]; simp

theorem xorInPlace_eq : ∀ (a b : List Byte), a.length ≤ b.length →
    xorInPlace a b = List.zipWith (fun x y => x ^^^ y) a (b.take a.length)
  | [], _, _ => by simp [xorInPlace]
  | _ :: _, [], h => by simp at h
  | x :: xs, y :: ys, h => by
    simp only [xorInPlace, List.length_cons, List.take_succ_cons, List.zipWith_cons_cons]
    rw [xorInPlace_eq xs ys (by simpa using h)]

theorem replicate_getD' {k i : Nat} (c : Field128) (h : i < k) : (List.replicate k c).getD i 0 = c := by
  simp [List.getD_eq_getElem?_getD, h]

/-- One byte step of the specification. -/
def byteStep (acc : List Byte) (x : Field128) : List Byte :=
  List.zipWith (fun a b => a ^^^ b) acc ((encodeField x).take 8)

theorem encodeField_length' (x : Field128) : (encodeField x).length = 16 := by
  simp [encodeField, natLE]

theorem byteStep_length {acc : List Byte} (h : acc.length = 8) (x : Field128) :
    (byteStep acc x).length = 8 := by
  simp [byteStep, h, encodeField_length']

theorem xorInPlace_byteStep {acc : List Byte} (h : acc.length = 8) (x : Field128) :
    xorInPlace acc (encodeField x) = byteStep acc x := by
  rw [xorInPlace_eq _ _ (by rw [h, encodeField_length']; omega), h]; rfl

theorem foldl_byteStep_length (xs : List Field128) : ∀ {acc : List Byte}, acc.length = 8 →
    (xs.foldl byteStep acc).length = 8 := by
  induction xs with
  | nil => exact fun h => h
  | cons x xs ih => exact fun h => ih (byteStep_length h x)

theorem foldl_xorInPlace (f : Nat → Field128) (is : List Nat) : ∀ {acc : List Byte}, acc.length = 8 →
    is.foldl (fun k i => xorInPlace k (encodeField (f i))) acc = (is.map f).foldl byteStep acc := by
  induction is with
  | nil => intros; rfl
  | cons i is ih =>
    intro acc h
    simp only [List.foldl_cons, List.map_cons]
    rw [xorInPlace_byteStep h, ih (byteStep_length h _)]

/-- The check of one prefix, as bytes. -/
theorem stepBytes_spec {n : Nat} {sid : Int} {key : VidpfKey} {p : List Bool} {yp y0 y1 : List Field128}
    {chk : List Byte} (hc : chk.length = 8)
    (hp : p ≠ [] → Spec.valueAt P key n p = some yp ∧ yp.length = n + 1)
    (h0 : Spec.valueAt P key n (p ++ [false]) = some y0) (l0 : y0.length = n + 1)
    (h1 : Spec.valueAt P key n (p ++ [true]) = some y1) (l1 : y1.length = n + 1) :
    stepBytes n p.length chk (valueCheck n sid p.length yp y0 y1)
      = (Spec.prefixCheck P n (decide (sid = 0)) key p).foldl byteStep chk := by
  unfold stepBytes Spec.prefixCheck
  by_cases hnil : p = []
  · subst hnil
    simp only [List.nil_append] at h0 h1
    simp only [List.length_nil, if_true, h0, h1, Option.getD_some, List.foldl_cons, List.foldl_nil]
    rw [xorInPlace_byteStep hc]
    congr 1
    unfold valueCheck
    rw [if_pos rfl]
    by_cases hs : sid = 0
    · rw [if_pos hs, if_pos (by simpa using hs)]
      rw [vecSub_getD' (k := n + 1) (by simp) l1, vecSub_getD' (k := n + 1) (by simp) l0,
        vecAdd_getD' (k := n + 1) (by simp) (by simp), replicate_getD' _ (by omega),
        replicate_getD' _ (by omega)]
      ring
    · rw [if_neg hs, if_neg (by simpa using hs)]
      rw [vecAdd_getD' (k := n + 1) (by simp) l1, vecAdd_getD' (k := n + 1) (by simp) l0,
        replicate_getD' _ (by omega)]
      ring
  · obtain ⟨hv, lp⟩ := hp hnil
    have hl : p.length ≠ 0 := by simpa using hnil
    rw [if_neg hl, if_neg hnil, foldl_xorInPlace _ _ hc]
    congr 1
    refine List.map_congr_left fun i hi => ?_
    have hi' : i < n := List.mem_range.1 hi
    simp only [h0, h1, hv, Option.getD_some]
    unfold valueCheck
    rw [if_neg hl]
    by_cases hs : sid = 0
    · rw [if_pos hs, if_pos (by simpa using hs)]
      rw [vecSub_getD' (k := n + 1) (by simp) l1, vecSub_getD' (k := n + 1) (by simp) l0,
        vecAdd_getD' (k := n + 1) (by simp) lp, replicate_getD' _ (by omega)]
      ring
    · rw [if_neg hs, if_neg (by simpa using hs)]
      rw [vecSub_getD' (k := n + 1) (by simp) lp, vecAdd_getD' (k := n + 1) (by simp) l1,
        vecAdd_getD' (k := n + 1) (by simp) l0, replicate_getD' _ (by omega)]
      ring

/-- What an exact node holds for report number `i`. -/
theorem exact_at {n : Nat} {shares : List ReportShare} {node : TreeNode} {i : Nat} {r : ReportShare}
    {key : VidpfKey} (hx : Spec.NodeExact P n shares node) (hr : shares[i]? = some r)
    (hk : Spec.keyOf r = some key) :
    Spec.proofAt P key n node.path = some (prfOf node i) ∧
    (node.path ≠ [] → Spec.valueAt P key n node.path = some (valOf node i) ∧
      (valOf node i).length = n + 1) := by
  obtain ⟨key', st, w, hk', hev, hst, hw⟩ := hx.2.2 i r hr
  rw [hk] at hk'
  cases hk'
  refine ⟨?_, fun hne => ?_⟩
  · unfold Spec.proofAt prfOf
    rw [hev, hst]; rfl
  · obtain ⟨v, rfl, hv⟩ := (evalPath_word hev).2 hne
    unfold Spec.valueAt valOf
    rw [hev, hw]
    exact ⟨rfl, hv⟩

/-- The digest of report `i` over exact nodes is the specified one. -/
theorem digestOf_spec {n m : Nat} {sid : Int} {shares : List ReportShare} {i : Nat} {r : ReportShare}
    {key : VidpfKey} (hr : shares[i]? = some r) (hk : Spec.keyOf r = some key)
    (trip : List (TreeNode × (TreeNode × TreeNode)))
    (hx : ∀ t ∈ trip, t.1.path.length = m ∧ Spec.NodeExact P n shares t.1 ∧
      (t.2.1.path = t.1.path ++ [false] ∧ Spec.NodeExact P n shares t.2.1) ∧
      (t.2.2.path = t.1.path ++ [true] ∧ Spec.NodeExact P n shares t.2.2)) :
    digestOf P n sid m trip i
      = Spec.digestAt P n (decide (sid = 0)) (trip.map fun t => t.1.path) key := by
  unfold digestOf Spec.digestAt
  have e1 : xorAll (trip.flatMap fun t => [prfOf t.2.1 i, prfOf t.2.2 i])
      = Spec.proofsAt P n key (trip.map fun t => t.1.path) := by
    unfold Spec.proofsAt Spec.xorBlocks xorAll
    rw [List.flatMap_map]
    congr 1
    refine List.flatMap_congr fun t ht => ?_
    obtain ⟨-, -, ⟨p0, x0⟩, ⟨p1, x1⟩⟩ := hx t ht
    have a0 := (exact_at x0 hr hk).1
    have a1 := (exact_at x1 hr hk).1
    rw [p0] at a0
    rw [p1] at a1
    rw [a0, a1]; rfl
  have e2 : clientCheck n sid m (trip.map fun t => (valOf t.1 i, valOf t.2.1 i, valOf t.2.2 i))
      = Spec.foldBytes ((trip.map fun t => t.1.path).flatMap
          (Spec.prefixCheck P n (decide (sid = 0)) key)) := by
    unfold clientCheck Spec.foldBytes
    change _ = List.foldl byteStep _ _
    have : ∀ (trip : List (TreeNode × (TreeNode × TreeNode))) (acc : List Byte), acc.length = 8 →
        (∀ t ∈ trip, t.1.path.length = m ∧ Spec.NodeExact P n shares t.1 ∧
          (t.2.1.path = t.1.path ++ [false] ∧ Spec.NodeExact P n shares t.2.1) ∧
          (t.2.2.path = t.1.path ++ [true] ∧ Spec.NodeExact P n shares t.2.2)) →
        (trip.map fun t => (valOf t.1 i, valOf t.2.1 i, valOf t.2.2 i)).foldl
          (fun chk t => stepBytes n m chk (valueCheck n sid m t.1 t.2.1 t.2.2)) acc
        = ((trip.map fun t => t.1.path).flatMap
          (Spec.prefixCheck P n (decide (sid = 0)) key)).foldl byteStep acc := by
      intro trip
      induction trip with
      | nil => intros; rfl
      | cons t trip ih =>
        intro acc hacc hx
        obtain ⟨hm, x, ⟨p0, x0⟩, ⟨p1, x1⟩⟩ := hx t (by simp)
        obtain ⟨v0, l0⟩ := (exact_at x0 hr hk).2 (by rw [p0]; simp)
        obtain ⟨v1, l1⟩ := (exact_at x1 hr hk).2 (by rw [p1]; simp)
        rw [p0] at v0
        rw [p1] at v1
        simp only [List.map_cons, List.foldl_cons, List.flatMap_cons, List.foldl_append]
        have := stepBytes_spec (sid := sid) hacc (exact_at x hr hk).2 v0 l0 v1 l1
        rw [hm] at this
        rw [this]
        exact ih _ (foldl_byteStep_length _ hacc) fun t ht => hx t (by simp [ht])
    exact this trip _ (by simp) hx
  rw [e1, e2]

/-! ### The state of one server in the middle of a crawl -/

/-- A server is about to crawl the prefixes `paths` of length `m` with the given report list. -/
structure At (n d m : Nat) (first : Bool) (reports : List (Bool × ReportShare))
    (paths : List (List Bool)) (kc : KeyCollection P) : Prop where
  inputLen : kc.inputLen = n
  sid : decide (kc.serverId = 0) = first
  depth : kc.depth = some d
  rep : kc.reportShares = reports
  pth : kc.frontier.map TreeNode.path = paths
  len : ∀ p ∈ paths, p.length = m
  exact : ∀ node ∈ kc.frontier, Spec.NodeExact P n (reports.map Prod.snd) node

theorem includedIndices_eq (reports : List (Bool × ReportShare)) :
    includedIndices reports = (Spec.included reports).map Prod.fst := by
  unfold includedIndices Spec.included
  rw [List.map_filterMap]
  induction reports.zipIdx with
  | nil => rfl
  | cons x xs ih =>
    obtain ⟨⟨b, r⟩, i⟩ := x
    cases b <;> simpa using ih

theorem mem_included {reports : List (Bool × ReportShare)} {ir : Nat × ReportShare}
    (h : ir ∈ Spec.included reports) : reports[ir.1]? = some (true, ir.2) := by
  unfold Spec.included at h
  obtain ⟨⟨⟨b, r⟩, i⟩, hm, he⟩ := List.mem_filterMap.1 h
  have := List.mem_zipIdx_iff_getElem?.1 hm
  cases b with
  | false => simp at he
  | true =>
    simp only [if_true, Option.some.injEq] at he
    subst he
    exact this

theorem digests_eq {n : Nat} {first : Bool} {paths : List (List Bool)}
    {reports : List (Bool × ReportShare)} {f : Nat → Block}
    (hf : ∀ (i : Nat) (r : ReportShare), reports[i]? = some (true, r) →
      ∃ key, Spec.keyOf r = some key ∧ f i = Spec.digestAt P n first paths key) :
    (includedIndices reports).map f = Spec.digests P n first paths reports := by
  rw [includedIndices_eq, List.map_map]
  unfold Spec.digests
  rw [← List.filterMap_eq_map]
  refine List.filterMap_congr fun ir hir => ?_
  obtain ⟨key, hk, he⟩ := hf ir.1 ir.2 (mem_included hir)
  simp only [hk, Option.map_some, Function.comp, he]

theorem At.children {n d m : Nat} {first : Bool} {reports : List (Bool × ReportShare)}
    {paths : List (List Bool)} {kc : KeyCollection P} (h : At n d m first reports paths kc)
    {cs : List (TreeNode × TreeNode)}
    (hF : List.Forall₂ (fun node c => kc.makeTreeNode node false = .ok c.1 ∧
        kc.makeTreeNode node true = .ok c.2) kc.frontier cs) :
    ∀ t ∈ kc.frontier.zip cs, t.1.path.length = m ∧
      Spec.NodeExact P n (reports.map Prod.snd) t.1 ∧
      (t.2.1.path = t.1.path ++ [false] ∧ Spec.NodeExact P n (reports.map Prod.snd) t.2.1) ∧
      (t.2.2.path = t.1.path ++ [true] ∧ Spec.NodeExact P n (reports.map Prod.snd) t.2.2) := by
  intro t ht
  obtain ⟨i, hi, rfl⟩ := List.getElem_of_mem ht
  rw [List.length_zip] at hi
  simp only [List.getElem_zip]
  have hmem : kc.frontier[i]'(by omega) ∈ kc.frontier := List.getElem_mem _
  obtain ⟨h0, h1⟩ := (List.forall₂_iff_get.1 hF).2 i (by omega) (by omega)
  have hx := h.exact _ hmem
  have hx' : Spec.NodeExact P kc.inputLen
      ((kc.reportShares.map Prod.snd).take (kc.reportShares.map Prod.snd).length)
      (kc.frontier[i]'(by omega)) := by
    rw [List.take_length, h.inputLen, h.rep]; exact hx
  have e0 := makeTreeNode_exact hx' h0
  have e1 := makeTreeNode_exact hx' h1
  rw [h.inputLen, h.rep] at e0 e1
  refine ⟨?_, hx, ⟨(makeTreeNode_ok h0).1, e0⟩, (makeTreeNode_ok h1).1, e1⟩
  exact h.len _ (by rw [← h.pth]; exact List.mem_map_of_mem hmem)

/-- The prefixes of the next level. -/
def kids (paths : List (List Bool)) : List (List Bool) :=
  paths.flatMap fun p => [p ++ [false], p ++ [true]]

theorem kids_len {paths : List (List Bool)} {m : Nat} (h : ∀ p ∈ paths, p.length = m) :
    ∀ p ∈ kids paths, p.length = m + 1 := by
  intro p hp
  obtain ⟨q, hq, hp⟩ := List.mem_flatMap.1 hp
  simp only [List.mem_cons, List.not_mem_nil, or_false] at hp
  rcases hp with rfl | rfl <;> simp [h q hq]

/-- After `nextFrontier`. -/
theorem At.next {n d m : Nat} {first : Bool} {reports : List (Bool × ReportShare)}
    {paths : List (List Bool)} {kc : KeyCollection P} (h : At n d m first reports paths kc)
    {chk : Bool} {nx : List TreeNode} (hn : kc.nextFrontier chk = .ok nx) :
    nx.map TreeNode.path = kids paths ∧
    (∀ node ∈ nx, Spec.NodeExact P n (reports.map Prod.snd) node) ∧
    (∀ node ∈ nx, Spec.NodeSum P n reports node) := by
  have hx' : ∀ parent ∈ kc.frontier, Spec.NodeExact P kc.inputLen
      ((kc.reportShares.map Prod.snd).take (kc.reportShares.map Prod.snd).length) parent := by
    intro parent hp
    rw [List.take_length, h.inputLen, h.rep]; exact h.exact parent hp
  refine ⟨?_, ?_, ?_⟩
  · rw [nextFrontier_paths hn, h.pth]; rfl
  · intro node hnode
    obtain ⟨parent, hp, dir, hd⟩ := nextFrontier_mem hn hnode
    have := makeTreeNode_exact (hx' parent hp) hd
    rwa [h.inputLen, h.rep] at this
  · intro node hnode
    obtain ⟨parent, hp, dir, hd⟩ := nextFrontier_mem hn hnode
    have := makeTreeNode_sum (hx' parent hp) hd
    rwa [h.inputLen, h.rep] at this

theorem At.pathLen {n d m : Nat} {first : Bool} {reports : List (Bool × ReportShare)}
    {paths : List (List Bool)} {kc : KeyCollection P} (h : At n d m first reports paths kc) :
    ∀ node ∈ kc.frontier, node.path.length = m :=
  fun _ hn => h.len _ (by rw [← h.pth]; exact List.mem_map_of_mem hn)

/-- One crawl of the current prefixes. -/
theorem At.crawlLevel {n d m : Nat} {first : Bool} {reports : List (Bool × ReportShare)}
    {paths : List (List Bool)} {kc : KeyCollection P} (h : At n d m first reports paths kc)
    (bld : Build) (hk : KeysReach m reports) (hne : paths ≠ []) (hm : m < d) :
    ∃ nx, kc.crawlLevel bld = .ok (nx, Spec.digests P n first paths reports) ∧
      nx.map TreeNode.path = kids paths ∧
      (∀ node ∈ nx, Spec.NodeExact P n (reports.map Prod.snd) node) ∧
      (∀ node ∈ nx, Spec.NodeSum P n reports node) := by
  have hfr : kc.frontier ≠ [] := by
    intro h0
    apply hne
    rw [← h.pth, h0]; rfl
  obtain ⟨cs, hF, hc⟩ := crawlLevel_progress bld hfr (h.rep.symm ▸ hk) h.pathLen
    (by rw [h.inputLen, h.rep]; exact h.exact) h.depth hm
  have hd : (includedIndices kc.reportShares).map
      (digestOf P kc.inputLen kc.serverId m (kc.frontier.zip cs))
      = Spec.digests P n first paths reports := by
    rw [h.rep]
    refine digests_eq fun i r hr => ?_
    obtain ⟨key, hkey, -⟩ := hk _ (List.mem_of_getElem? hr)
    refine ⟨key, hkey, ?_⟩
    have hr' : (reports.map Prod.snd)[i]? = some r := by simp [hr]
    rw [h.inputLen, digestOf_spec hr' hkey _ (h.children hF), h.sid]
    congr 1
    have : (fun t : TreeNode × (TreeNode × TreeNode) => t.1.path) = TreeNode.path ∘ Prod.fst := rfl
    rw [this, ← List.map_map, List.map_fst_zip hF.length_eq.le, h.pth]
  rw [hd] at hc
  exact ⟨_, hc, h.next (crawlLevel_ok hc).2⟩

/-! ### Both servers -/

theorem keyPairs_eq : ∀ (r0 r1 : List (Bool × ReportShare)) (k : Nat),
    r0.map Prod.fst = r1.map Prod.fst →
    Spec.keyPairs r0 r1
      = ((((r0.zipIdx k).filterMap fun r => if r.1.1 then some (r.2, r.1.2) else none).zip
          ((r1.zipIdx k).filterMap fun r => if r.1.1 then some (r.2, r.1.2) else none)).filterMap
          fun ab => (Spec.keyOf ab.1.2).bind fun a => (Spec.keyOf ab.2.2).map fun b => (a, b))
  | [], [], _, _ => rfl
  | (b, x) :: r0, (c, y) :: r1, k, h => by
    simp only [List.map_cons, List.cons.injEq] at h
    obtain ⟨rfl, h⟩ := h
    have ih := keyPairs_eq r0 r1 (k + 1) h
    unfold Spec.keyPairs at ih ⊢
    cases b with
    | true =>
      simp only [List.zip_cons_cons, List.zipIdx_cons, List.filterMap_cons, if_true]
      cases Spec.keyOf x <;> cases Spec.keyOf y <;> simp [ih]
    | false => simpa [List.zipIdx_cons] using ih
  | [], _ :: _, _, h => by simp at h
  | _ :: _, [], _, h => by simp at h

/-- The reconstructed value of a node is the tally over the included pairs. -/
theorem tally_eq {n : Nat} {r0 r1 : List (Bool × ReportShare)} {node0 node1 : TreeNode}
    (hpath : node0.path = node1.path) (hne : node0.path ≠ [])
    (hflags : r0.map Prod.fst = r1.map Prod.fst)
    (h0 : Spec.NodeSum P n r0 node0) (h1 : Spec.NodeSum P n r1 node1) :
    Spec.addShares node0.value node1.value = Spec.tally P n (Spec.keyPairs r0 r1) node0.path := by
  obtain ⟨rs, hrs, -, he⟩ := C23_reconstruct n r0 r1 node0 node1 hpath hne hflags h0 h1
  rw [he, Spec.tally, keyPairs_eq r0 r1 0 hflags]
  change _ = Spec.sumVecs (n + 1) (((((Spec.included r0).zip (Spec.included r1)).filterMap _)).map _)
  congr 1
  clear he
  generalize (Spec.included r0).zip (Spec.included r1) = L at hrs ⊢
  induction hrs with
  | nil => rfl
  | cons hx _ ih =>
    obtain ⟨-, k0, k1, e0, e1, er⟩ := hx
    simp only [List.filterMap_cons, e0, e1, Option.bind_some, Option.map_some, List.map_cons, er,
      Option.getD_some, ← ih]

theorem nodeSum_length {n : Nat} {r : List (Bool × ReportShare)} {node : TreeNode}
    (hne : node.path ≠ []) (h : Spec.NodeSum P n r node) : node.value.length = n + 1 := by
  obtain ⟨vs, hv, e⟩ := h
  rw [e]
  refine (sumVecs_spec fun v hv' => ?_).1
  obtain ⟨i, hi, rfl⟩ := List.getElem_of_mem hv'
  obtain ⟨key, -, h⟩ := (List.forall₂_iff_get.1 hv).2 i (hv.length_eq ▸ hi) hi
  exact valueAt_length hne h

/-- The two servers' nodes for the same prefixes. -/
structure Nodes (n : Nat) (r0 r1 : List (Bool × ReportShare)) (paths : List (List Bool))
    (nx0 nx1 : List TreeNode) : Prop where
  flags : r0.map Prod.fst = r1.map Prod.fst
  ne : ∀ p ∈ paths, p ≠ []
  pth0 : nx0.map TreeNode.path = paths
  pth1 : nx1.map TreeNode.path = paths
  sum0 : ∀ node ∈ nx0, Spec.NodeSum P n r0 node
  sum1 : ∀ node ∈ nx1, Spec.NodeSum P n r1 node

theorem Nodes.length {n : Nat} {r0 r1 : List (Bool × ReportShare)} {paths : List (List Bool)}
    {nx0 nx1 : List TreeNode} (h : Nodes (P := P) n r0 r1 paths nx0 nx1) :
    nx0.length = paths.length ∧ nx1.length = paths.length := by
  constructor
  · rw [← h.pth0, List.length_map]
  · rw [← h.pth1, List.length_map]

theorem Nodes.at {n : Nat} {r0 r1 : List (Bool × ReportShare)} {paths : List (List Bool)}
    {nx0 nx1 : List TreeNode} (h : Nodes (P := P) n r0 r1 paths nx0 nx1) {i : Nat} {p : List Bool}
    (hp : paths[i]? = some p) : ∃ a b, nx0[i]? = some a ∧ nx1[i]? = some b ∧ a.path = p ∧ b.path = p ∧
      a.value.length = n + 1 ∧ b.value.length = n + 1 ∧
      Spec.addShares a.value b.value = Spec.tally P n (Spec.keyPairs r0 r1) p := by
  have h0 := hp
  have h1 := hp
  rw [← h.pth0, List.getElem?_map, Option.map_eq_some_iff] at h0
  rw [← h.pth1, List.getElem?_map, Option.map_eq_some_iff] at h1
  obtain ⟨a, ha, pa⟩ := h0
  obtain ⟨b, hb, pb⟩ := h1
  have hne := h.ne p (List.mem_of_getElem? hp)
  have sa := h.sum0 a (List.mem_of_getElem? ha)
  have sb := h.sum1 b (List.mem_of_getElem? hb)
  refine ⟨a, b, ha, hb, pa, pb, nodeSum_length (pa ▸ hne) sa, nodeSum_length (pb ▸ hne) sb, ?_⟩
  rw [tally_eq (pa.trans pb.symm) (pa ▸ hne) h.flags sa sb, pa]

theorem Nodes.keep {n : Nat} {r0 r1 : List (Bool × ReportShare)} {paths : List (List Bool)}
    {nx0 nx1 : List TreeNode} (h : Nodes (P := P) n r0 r1 paths nx0 nx1) (T : Nat) :
    keepValues n T (nx0.map TreeNode.value) (nx1.map TreeNode.value)
      = .ok (paths.map fun p => decide (T ≤ Spec.countAt P n (Spec.keyPairs r0 r1) p)) := by
  unfold keepValues
  rw [mapE_eq_ok_iff_getElem]
  refine ⟨by simp [h.length.1, h.length.2], ?_⟩
  rintro i ⟨v0, v1⟩ hi
  rw [List.getElem?_zip_eq_some, List.getElem?_map, List.getElem?_map] at hi
  obtain ⟨h0, h1⟩ := hi
  have hlt : i < paths.length := by
    rw [← h.length.1]
    rw [Option.map_eq_some_iff] at h0
    obtain ⟨a, ha, -⟩ := h0
    exact (List.getElem?_eq_some_iff.1 ha).1
  have hp := List.getElem?_eq_getElem hlt
  obtain ⟨a, b, ha, hb, -, -, la, lb, he⟩ := h.at hp
  rw [ha, Option.map_some, Option.some.injEq] at h0
  rw [hb, Option.map_some, Option.some.injEq] at h1
  simp only at h0 h1
  subst h0 h1
  refine ⟨_, by rw [List.getElem?_map, hp]; rfl, ?_⟩
  dsimp only
  rw [idx_eq_ok_of_lt (by omega), ok_bind, idx_eq_ok_of_lt (by omega), ok_bind]
  unfold Spec.countAt
  rw [← he, addShares_getD la lb, List.getD_eq_getElem _ _ (by omega), List.getD_eq_getElem _ _ (by omega)]

/-- Select commutes with the paths. -/
theorem select_paths (nx : List TreeNode) (f : List Bool → Bool) {paths : List (List Bool)}
    (h : nx.map TreeNode.path = paths) :
    Spec.select (paths.map f) nx = nx.filter fun node => f node.path := by
  subst h
  unfold Spec.select
  induction nx with
  | nil => rfl
  | cons a nx ih =>
    simp only [List.map_cons, List.zip_cons_cons, List.filterMap_cons, List.filter_cons]
    rw [ih]
    split <;> rename_i h <;> split <;> simp_all

theorem merkleRoots_one {combined : List Block} (h : combined ≠ []) (ms : List Nat) (last : Bool) :
    ∃ root, merkleRoots P combined 1 ms last = .ok [(root, 0)] := by
  unfold merkleRoots
  have e1 : (if last = true then 1 else 1) = 1 := by split <;> rfl
  simp only [e1, Nat.div_one, if_neg (show ¬ (1 : Nat) = 0 by omega), if_true]
  unfold chunks
  have hpos : 2 ^ P.ceilLog2 combined.length ≠ 0 := by positivity
  rw [if_neg hpos, ok_bind]
  obtain ⟨a, l, rfl⟩ := List.exists_cons_of_ne_nil h
  simp only [List.length_cons, chunksAux, idx, List.getElem?_cons_zero, ok_bind]
  obtain ⟨k, hk⟩ : ∃ k, 2 ^ P.ceilLog2 (l.length + 1) = k + 1 := ⟨_, (Nat.succ_pred hpos).symm⟩
  obtain ⟨r, hr⟩ := merkleRoot_isSome P (xs := List.take (2 ^ P.ceilLog2 (l.length + 1)) (a :: l))
    (by rw [hk]; simp)
  exact ⟨r, by rw [hr]; rfl⟩

theorem digests_length {n : Nat} {first : Bool} {paths : List (List Bool)}
    {reports : List (Bool × ReportShare)} {m : Nat} (hk : KeysReach m reports) :
    (Spec.digests P n first paths reports).length = (Spec.included reports).length := by
  unfold Spec.digests
  rw [List.length_filterMap_eq_countP, List.countP_eq_length]
  intro ir hir
  obtain ⟨key, hkey, -⟩ := hk _ (List.mem_of_getElem? (mem_included hir))
  simp only at hkey
  simp [hkey]

theorem digests_ne {n : Nat} {first : Bool} {paths : List (List Bool)}
    {reports : List (Bool × ReportShare)} {m : Nat} (hk : KeysReach m reports)
    (hi : Spec.included reports ≠ []) : Spec.digests P n first paths reports ≠ [] := by
  rw [← List.length_pos_iff, digests_length hk, List.length_pos_iff]
  exact hi

/-- Pruning. -/
theorem At.prune {n d m : Nat} {first : Bool} {reports : List (Bool × ReportShare)}
    {paths : List (List Bool)} {kc : KeyCollection P} (h : At n d m first reports paths kc)
    (f : List Bool → Bool) :
    ∃ kc', kc.treePrune (paths.map f) = .ok kc' ∧
      kc' = { kc with frontier := kc.frontier.filter fun node => f node.path } ∧
      At n d m first reports (paths.filter f) kc' := by
  refine ⟨{ kc with frontier := kc.frontier.filter fun node => f node.path }, ?_, rfl, ?_⟩
  · rw [treePrune_spec, if_pos (by rw [← h.pth]; simp), select_paths _ f h.pth]
  · refine ⟨h.inputLen, h.sid, h.depth, h.rep, ?_, ?_, ?_⟩
    · rw [← h.pth]
      show List.map TreeNode.path (kc.frontier.filter (f ∘ TreeNode.path)) = _
      rw [List.filter_map]
    · exact fun p hp => h.len p (List.mem_filter.1 hp).1
    · exact fun node hn => h.exact node (List.mem_filter.1 hn).1

/-- A first crawl request (no suspects) at the current prefixes. -/
theorem At.treeCrawl {n d m : Nat} {first : Bool} {reports : List (Bool × ReportShare)}
    {paths : List (List Bool)} {kc : KeyCollection P} (h : At n d m first reports paths kc)
    (bld : Build) (hk : KeysReach m reports) (hne : paths ≠ []) (hm : m < d) (s : Nat) (last : Bool)
    {rs : List (Block × Nat)}
    (hr : merkleRoots P (Spec.digests P n first paths reports) s [] last = .ok rs) :
    ∃ nx kc', kc.treeCrawl bld s [] last = .ok (kc',
        { cntValues := nx.map TreeNode.value, roots := rs.map Prod.fst, indices := rs.map Prod.snd }) ∧
      At n d (m + 1) first reports (kids paths) kc' ∧ kc'.frontier = nx ∧
      kc'.prevFrontier = kc.frontier ∧ (∀ node ∈ nx, Spec.NodeSum P n reports node) := by
  obtain ⟨nx, hc, hp, hx, hs⟩ := h.crawlLevel bld hk hne hm
  refine ⟨nx, { kc with prevFrontier := kc.frontier, frontier := nx }, ?_, ?_, rfl, rfl, hs⟩
  · unfold KeyCollection.treeCrawl KeyCollection.crawlPrep
    simp only [List.isEmpty_nil, if_true, ok_bind, hc, hr]
  · exact ⟨h.inputLen, h.sid, h.depth, h.rep, hp, kids_len h.len, hx⟩

theorem diffIndices_self (r0 r1 : CrawlResp) (h : r0.roots = r1.roots) : diffIndices r0 r1 = .ok [] := by
  unfold diffIndices
  rw [mapE_ok_of_forall (g := fun _ => ([] : List Nat))]
  · simp
  · intro i hi
    have hi' := List.mem_range.1 hi
    rw [idx_eq_ok_of_lt hi', ok_bind, ← h, idx_eq_ok_of_lt hi', ok_bind, if_neg (by simp)]

theorem kids_ne {paths : List (List Bool)} : ∀ p ∈ kids paths, p ≠ [] := by
  intro p hp
  obtain ⟨q, -, hp⟩ := List.mem_flatMap.1 hp
  simp only [List.mem_cons, List.not_mem_nil, or_false] at hp
  rcases hp with rfl | rfl <;> simp

/-- Both servers hold the same prefixes. -/
structure Both (n d m : Nat) (r0 r1 : List (Bool × ReportShare)) (paths : List (List Bool))
    (kcs : Pair2 P) : Prop where
  fst : At n d m true r0 paths kcs.1
  snd : At n d m false r1 paths kcs.2

/-- The prefixes that survive a level. -/
def survivors (P : Prims) (n T : Nat) (r0 r1 : List (Bool × ReportShare)) (paths : List (List Bool)) :
    List (List Bool) :=
  (kids paths).filter fun p => decide (T ≤ Spec.countAt P n (Spec.keyPairs r0 r1) p)

/-- The loop stops at once when the roots agree. -/
theorem runLevelLoop_stop {σ : Type} {crawl : σ → CrawlReq → Exec (σ × CrawlResp × CrawlResp)}
    {inputLen thr num fuel : Nat} {s s' : σ} {req : CrawlReq} {q0 q1 : CrawlResp} {keep : List Bool}
    (hc : crawl s req = .ok (s', q0, q1)) (hl : q0.cntValues.length = q1.cntValues.length)
    (hk : keepValues inputLen thr q0.cntValues q1.cntValues = .ok keep) (hr : q0.roots = q1.roots) :
    runLevelLoop crawl inputLen thr num (fuel + 1) s req = .ok (s', keep, 1) := by
  unfold runLevelLoop
  rw [hc, ok_bind]
  dsimp only
  rw [hl, beq_self_eq_true, assertE_true, ok_bind, hk, ok_bind, diffIndices_self _ _ hr, ok_bind]
  split <;> rfl

/-- One level when the roots that the servers send agree. -/
theorem runLevel_sameRoot {n d m : Nat} {r0 r1 : List (Bool × ReportShare)} {paths : List (List Bool)}
    {kcs : Pair2 P} (h : Both n d m r0 r1 paths kcs) (c0 c1 : ServerCfg) (cfg : Config) (num : Nat)
    (hn : cfg.histBuckets = n) (hne : paths ≠ []) (hm : m < d)
    (hk0 : KeysReach m r0) (hk1 : KeysReach m r1) (hf : r0.map Prod.fst = r1.map Prod.fst)
    (hi : Spec.included r0 ≠ [])
    (hq : merkleRoots P (Spec.digests P n true paths r0) 1 [] false
      = merkleRoots P (Spec.digests P n false paths r1) 1 [] false) :
    ∃ kcs', runLevel c0 c1 cfg kcs num = .ok kcs' ∧
      Both n d (m + 1) r0 r1 (survivors P n (max 1 cfg.threshold) r0 r1 paths) kcs' := by
  obtain ⟨root, hroot⟩ := merkleRoots_one (P := P) (digests_ne hk0 hi (n := n) (first := true)
    (paths := paths)) [] false
  obtain ⟨nx0, k0, e0, a0, f0, -, s0⟩ := h.fst.treeCrawl c0.build hk0 hne hm 1 false hroot
  obtain ⟨nx1, k1, e1, a1, f1, -, s1⟩ := h.snd.treeCrawl c1.build hk1 hne hm 1 false (hq.symm.trans hroot)
  have hN : Nodes (P := P) n r0 r1 (kids paths) nx0 nx1 :=
    ⟨hf, kids_ne, f0 ▸ a0.pth, f1 ▸ a1.pth, s0, s1⟩
  have hkeep := hN.keep (max 1 cfg.threshold)
  obtain ⟨k0', p0, -, b0⟩ := a0.prune fun p => decide (max 1 cfg.threshold ≤
    Spec.countAt P n (Spec.keyPairs r0 r1) p)
  obtain ⟨k1', p1, -, b1⟩ := a1.prune fun p => decide (max 1 cfg.threshold ≤
    Spec.countAt P n (Spec.keyPairs r0 r1) p)
  refine ⟨(k0', k1'), ?_, b0, b1⟩
  have hcb : crawlBoth c0 c1 kcs { splitBy := 1, malicious := [], isLast := false }
      = .ok ((k0, k1), ⟨nx0.map TreeNode.value, [root], [0]⟩, ⟨nx1.map TreeNode.value, [root], [0]⟩) := by
    unfold crawlBoth
    simp only [e0, e1, ok_bind]
    rfl
  unfold runLevel searchLevel
  rw [hn, runLevelLoop_stop hcb (by simp [hN.length.1, hN.length.2]) hkeep rfl, ok_bind]
  simp only [pruneBoth, p0, p1, ok_bind]

/-- One level when all digests agree. -/
theorem runLevel_quiet {n d m : Nat} {r0 r1 : List (Bool × ReportShare)} {paths : List (List Bool)}
    {kcs : Pair2 P} (h : Both n d m r0 r1 paths kcs) (c0 c1 : ServerCfg) (cfg : Config) (num : Nat)
    (hn : cfg.histBuckets = n) (hne : paths ≠ []) (hm : m < d)
    (hk0 : KeysReach m r0) (hk1 : KeysReach m r1) (hf : r0.map Prod.fst = r1.map Prod.fst)
    (hi : Spec.included r0 ≠ [])
    (hq : Spec.digests P n true paths r0 = Spec.digests P n false paths r1) :
    ∃ kcs', runLevel c0 c1 cfg kcs num = .ok kcs' ∧
      Both n d (m + 1) r0 r1 (survivors P n (max 1 cfg.threshold) r0 r1 paths) kcs' :=
  runLevel_sameRoot h c0 c1 cfg num hn hne hm hk0 hk1 hf hi (by rw [hq])

/-- A level on an empty frontier. -/
theorem runLevel_empty {kcs : Pair2 P} (h : kcs.1.frontier = []) (c0 c1 : ServerCfg) (cfg : Config)
    (num : Nat) : runLevel c0 c1 cfg kcs num = .error .index := by
  unfold runLevel searchLevel
  rw [show num + 3 = (num + 2) + 1 from rfl]
  rw [runLevelLoop]
  simp [crawlBoth, KeyCollection.treeCrawl, KeyCollection.crawlPrep,
    KeyCollection.crawlLevel, h, idx]

/-! ### Heavy prefixes -/

theorem heavy_snoc (n T : Nat) (pairs : List (VidpfKey × VidpfKey)) (p : List Bool) (b : Bool) :
    Spec.heavy P n T pairs (p ++ [b])
      = (Spec.heavy P n T pairs p && decide (T ≤ Spec.countAt P n pairs (p ++ [b]))) := by
  unfold Spec.heavy
  have he : (p ++ [b]).isEmpty = false := by cases p <;> rfl
  rw [List.inits_append, List.all_append]
  simp [he]

theorem survivors_heavyPaths (n T : Nat) (r0 r1 : List (Bool × ReportShare)) (m : Nat) :
    survivors P n T r0 r1 (Spec.heavyPaths P n T (Spec.keyPairs r0 r1) m)
      = Spec.heavyPaths P n T (Spec.keyPairs r0 r1) (m + 1) := by
  unfold survivors Spec.heavyPaths kids
  rw [show Spec.allPaths (m + 1) = (Spec.allPaths m).flatMap fun q => [q ++ [false], q ++ [true]] from rfl]
  generalize Spec.allPaths m = L
  induction L with
  | nil => rfl
  | cons p L ih =>
    have e : List.filter (Spec.heavy P n T (Spec.keyPairs r0 r1)) [p ++ [false], p ++ [true]]
        = if Spec.heavy P n T (Spec.keyPairs r0 r1) p then
          List.filter (fun p => decide (T ≤ Spec.countAt P n (Spec.keyPairs r0 r1) p))
            [p ++ [false], p ++ [true]] else [] := by
      simp only [List.filter_cons, List.filter_nil, heavy_snoc]
      cases Spec.heavy P n T (Spec.keyPairs r0 r1) p <;> simp
    rw [List.flatMap_cons, List.filter_append, e, ← ih, List.filter_cons]
    split
    · rw [List.flatMap_cons, List.filter_append]
    · rfl

theorem heavyPaths_nodup (n T : Nat) (pairs : List (VidpfKey × VidpfKey)) (m : Nat) :
    (Spec.heavyPaths P n T pairs m).Nodup := (allPaths_nodup m).filter _

theorem heavyPaths_len {n T : Nat} {pairs : List (VidpfKey × VidpfKey)} {m : Nat} :
    ∀ p ∈ Spec.heavyPaths P n T pairs m, p.length = m :=
  fun _ hp => mem_allPaths.1 (List.mem_filter.1 hp).1

theorem heavyPaths_zero (n T : Nat) (pairs : List (VidpfKey × VidpfKey)) :
    Spec.heavyPaths P n T pairs 0 = [[]] := by
  simp [Spec.heavyPaths, Spec.allPaths, Spec.heavy]

/-- Heavy prefixes exist on every level above a heavy one. -/
theorem heavyPaths_ne_succ {n T : Nat} {pairs : List (VidpfKey × VidpfKey)} {m : Nat}
    (h : Spec.heavyPaths P n T pairs (m + 1) ≠ []) : Spec.heavyPaths P n T pairs m ≠ [] := by
  obtain ⟨p, hp⟩ := List.exists_mem_of_ne_nil _ h
  obtain ⟨hp1, hp2⟩ := List.mem_filter.1 hp
  have hl := mem_allPaths.1 hp1
  have hne : p ≠ [] := by rintro rfl; simp at hl
  rw [← List.dropLast_append_getLast hne, heavy_snoc, Bool.and_eq_true] at hp2
  refine List.ne_nil_of_mem (List.mem_filter.2 ⟨mem_allPaths.2 ?_, hp2.1⟩)
  simp [hl]

theorem heavyPaths_ne_le {n T : Nat} {pairs : List (VidpfKey × VidpfKey)} {m k : Nat} (hmk : m ≤ k)
    (h : Spec.heavyPaths P n T pairs k ≠ []) : Spec.heavyPaths P n T pairs m ≠ [] := by
  induction k with
  | zero => obtain rfl : m = 0 := by omega
            exact h
  | succ k ih =>
    by_cases he : m = k + 1
    · rw [he]; exact h
    · exact ih (by omega) (heavyPaths_ne_succ h)

/-! ### Quiet reports -/

theorem quiet_inner {n d : Nat} {r0 r1 : List (Bool × ReportShare)}
    (hq : Spec.QuietReports P n d r0 r1) : Spec.AllPairs (Spec.QuietInner P n d) r0 r1 :=
  ⟨hq.1, fun i s0 s1 h0 h1 => by
    obtain ⟨k0, k1, e0, e1, q⟩ := hq.2 i s0 s1 h0 h1
    exact ⟨k0, k1, e0, e1, q.1⟩⟩

theorem digests_quiet {n d m : Nat} {r0 r1 : List (Bool × ReportShare)}
    (hq : Spec.AllPairs (Spec.QuietInner P n d) r0 r1) {paths : List (List Bool)} (hm : m + 1 < d)
    (hnd : paths.Nodup) (hl : ∀ p ∈ paths, p.length = m) :
    Spec.digests P n true paths r0 = Spec.digests P n false paths r1 := by
  obtain ⟨hf, hq⟩ := hq
  have key : ∀ (a b : List (Bool × ReportShare)) (k : Nat), a.map Prod.fst = b.map Prod.fst →
      (∀ (i : Nat) (s0 s1 : ReportShare), a[i]? = some (true, s0) → b[i]? = some (true, s1) →
        ∃ k0 k1, Spec.keyOf s0 = some k0 ∧ Spec.keyOf s1 = some k1 ∧ Spec.QuietInner P n d k0 k1) →
      ((a.zipIdx k).filterMap fun r => if r.1.1 then some (r.2, r.1.2) else none).filterMap
        (fun ir => (Spec.keyOf ir.2).map (Spec.digestAt P n true paths))
      = ((b.zipIdx k).filterMap fun r => if r.1.1 then some (r.2, r.1.2) else none).filterMap
        (fun ir => (Spec.keyOf ir.2).map (Spec.digestAt P n false paths)) := by
    intro a
    induction a with
    | nil => intro b k h _; cases b <;> simp at h ⊢
    | cons x a ih =>
      intro b k h hall
      cases b with
      | nil => simp at h
      | cons y b =>
        obtain ⟨f, s⟩ := x
        obtain ⟨g, t⟩ := y
        simp only [List.map_cons, List.cons.injEq] at h
        obtain ⟨rfl, h⟩ := h
        have ih' := ih b (k + 1) h fun i s0 s1 h0 h1 => hall (i + 1) s0 s1 (by simpa using h0)
          (by simpa using h1)
        cases f with
        | false => simpa [List.zipIdx_cons] using ih'
        | true =>
          obtain ⟨k0, k1, e0, e1, q⟩ := hall 0 s t (by simp) (by simp)
          simp only [List.zipIdx_cons, List.filterMap_cons, if_true, e0, e1, Option.map_some]
          rw [ih', q m paths hm hnd hl]
  exact key r0 r1 0 hf hq

/-- The levels from `m` on, `k` of them, when the included reports are quiet. -/
theorem levels_quiet {n d : Nat} {r0 r1 : List (Bool × ReportShare)} (c0 c1 : ServerCfg) (bld : Build)
    (cfg : Config) (num : Nat) (hn : cfg.histBuckets = n)
    (hq : Spec.AllPairs (Spec.QuietInner P n d) r0 r1)
    (hi : Spec.included r0 ≠ []) (hk0 : KeysReach (d - 1) r0) (hk1 : KeysReach (d - 1) r1) :
    ∀ (k m : Nat) (kcs : Pair2 P), 1 ≤ m → m + k < d →
      Both n d m r0 r1 (Spec.heavyPaths P n (max 1 cfg.threshold) (Spec.keyPairs r0 r1) m) kcs →
      ((∀ l, l < m + k → m ≤ l →
          Spec.heavyPaths P n (max 1 cfg.threshold) (Spec.keyPairs r0 r1) l ≠ []) →
        ∃ kcs', foldE (levelStep c0 c1 bld cfg num) kcs (List.range' m k) = .ok kcs' ∧
          Both n d (m + k) r0 r1
            (Spec.heavyPaths P n (max 1 cfg.threshold) (Spec.keyPairs r0 r1) (m + k)) kcs') ∧
      ((∃ l, l < m + k ∧ m ≤ l ∧
          Spec.heavyPaths P n (max 1 cfg.threshold) (Spec.keyPairs r0 r1) l = []) →
        foldE (levelStep c0 c1 bld cfg num) kcs (List.range' m k) = .error .index)
  | 0, m, kcs, _, _, h => by
    refine ⟨fun _ => ⟨kcs, rfl, h⟩, ?_⟩
    rintro ⟨l, h1, h2, -⟩
    omega
  | k + 1, m, kcs, hm1, hmk, h => by
    have hreach : ∀ {r : List (Bool × ReportShare)}, KeysReach (d - 1) r → KeysReach m r := by
      intro r hr br hbr
      obtain ⟨key, a, b, c⟩ := hr br hbr
      exact ⟨key, a, b, by omega⟩
    have hstep : ∀ x : Pair2 P, levelStep c0 c1 bld cfg num x m = runLevel c0 c1 cfg x num := by
      intro x
      unfold levelStep
      rw [if_neg (by omega), ok_bind]
    rw [List.range'_succ, foldE_cons, hstep]
    by_cases hne : Spec.heavyPaths P n (max 1 cfg.threshold) (Spec.keyPairs r0 r1) m = []
    · have hfr : kcs.1.frontier = [] := by
        have := h.fst.pth
        rw [hne] at this
        simpa using this
      rw [runLevel_empty hfr]
      refine ⟨fun hall => absurd hne (hall m (by omega) le_rfl), fun _ => rfl⟩
    · obtain ⟨k1, e1, b1⟩ := runLevel_quiet h c0 c1 cfg num hn hne (by omega) (hreach hk0) (hreach hk1)
        hq.1 hi (digests_quiet hq (m := m) (by omega) (heavyPaths_nodup ..) heavyPaths_len)
      rw [survivors_heavyPaths] at b1
      rw [e1, ok_bind]
      obtain ⟨i1, i2⟩ := levels_quiet c0 c1 bld cfg num hn hq hi hk0 hk1 k (m + 1) k1 (by omega)
        (by omega) b1
      rw [show m + 1 + k = m + (k + 1) from by omega] at i1 i2
      refine ⟨fun hall => i1 fun l h1 h2 => hall l h1 (by omega), ?_⟩
      rintro ⟨l, h1, h2, h3⟩
      refine i2 ⟨l, h1, ?_, h3⟩
      rcases Nat.lt_or_ge m l with h4 | h4
      · exact h4
      · obtain rfl : l = m := by omega
        exact absurd h3 hne

/-! ### The last level -/

theorem treeCrawlLast_at {n d m : Nat} {first : Bool} {reports : List (Bool × ReportShare)}
    {paths : List (List Bool)} {kc : KeyCollection P} (h : At n d m first reports paths kc)
    (hk : KeysReach m reports) :
    ∃ nx proofs kc', kc.treeCrawlLast = .ok (kc', nx.map TreeNode.value) ∧ kc'.finalProofs = proofs ∧
      kc'.frontier = nx ∧ At n d (m + 1) first reports (kids paths) kc' ∧
      (∀ node ∈ nx, Spec.NodeSum P n reports node) ∧
      proofs = (Spec.included reports).filterMap fun ir =>
        (Spec.keyOf ir.2).map fun key => Spec.proofsAt P n key paths := by
  obtain ⟨nx, hn⟩ := nextFrontier_progress (chk := false) (h.rep.symm ▸ hk) h.pathLen
    (by rw [h.inputLen, h.rep]; exact h.exact) (by simp)
  obtain ⟨cs, hcs, hF⟩ := nextFrontier_ok hn
  obtain ⟨hp, hx, hs⟩ := h.next hn
  have hpr : mapE (combineProofs nx) (includedIndices kc.reportShares)
      = .ok ((Spec.included reports).filterMap fun ir =>
        (Spec.keyOf ir.2).map fun key => Spec.proofsAt P n key paths) := by
    rw [h.rep, mapE_ok_of_forall (g := fun i => xorAll (nx.map fun node => prfOf node i))]
    · congr 1
      rw [includedIndices_eq, List.map_map, ← List.filterMap_eq_map]
      refine List.filterMap_congr fun ir hir => ?_
      have hr := mem_included hir
      obtain ⟨key, hkey, -⟩ := hk _ (List.mem_of_getElem? hr)
      simp only at hkey
      simp only [hkey, Option.map_some, Function.comp, Option.some.injEq]
      unfold Spec.proofsAt Spec.xorBlocks xorAll
      congr 1
      have e : ∀ node ∈ nx, prfOf node ir.1
          = (Spec.proofAt P key n node.path).getD Block.zero := by
        intro node hnode
        rw [(exact_at (i := ir.1) (hx node hnode) (by simp [hr]) hkey).1]; rfl
      have e2 : nx.map (fun node => prfOf node ir.1)
          = (nx.map TreeNode.path).map fun p => (Spec.proofAt P key n p).getD Block.zero := by
        rw [List.map_map]
        exact List.map_congr_left e
      rw [e2, hp, kids, List.map_flatMap]
      rfl
    · intro i hi
      obtain ⟨r, hr⟩ := mem_includedIndices.1 hi
      refine combineProofs_eq (m := reports.length) (List.getElem?_eq_some_iff.1 hr).1 fun node hnode => ?_
      simpa using (hx node hnode).1
  refine ⟨nx, _, { kc with finalProofs := _, frontier := nx }, ?_, rfl, rfl, ?_, hs, rfl⟩
  · unfold KeyCollection.treeCrawlLast
    rw [hn, ok_bind, hpr, ok_bind]
  · exact ⟨h.inputLen, h.sid, h.depth, h.rep, hp, kids_len h.len, hx⟩

theorem proofs_quiet {n d : Nat} {r0 r1 : List (Bool × ReportShare)}
    (hq : Spec.QuietReports P n d r0 r1) {paths : List (List Bool)}
    (hnd : paths.Nodup) (hl : ∀ p ∈ paths, p.length + 1 = d) :
    ((Spec.included r0).filterMap fun ir => (Spec.keyOf ir.2).map fun key => Spec.proofsAt P n key paths)
    = (Spec.included r1).filterMap fun ir =>
        (Spec.keyOf ir.2).map fun key => Spec.proofsAt P n key paths := by
  obtain ⟨hf, hq⟩ := hq
  have key : ∀ (a b : List (Bool × ReportShare)) (k : Nat), a.map Prod.fst = b.map Prod.fst →
      (∀ (i : Nat) (s0 s1 : ReportShare), a[i]? = some (true, s0) → b[i]? = some (true, s1) →
        ∃ k0 k1, Spec.keyOf s0 = some k0 ∧ Spec.keyOf s1 = some k1 ∧ Spec.QuietPair P n d k0 k1) →
      ((a.zipIdx k).filterMap fun r => if r.1.1 then some (r.2, r.1.2) else none).filterMap
        (fun ir => (Spec.keyOf ir.2).map fun key => Spec.proofsAt P n key paths)
      = ((b.zipIdx k).filterMap fun r => if r.1.1 then some (r.2, r.1.2) else none).filterMap
        (fun ir => (Spec.keyOf ir.2).map fun key => Spec.proofsAt P n key paths) := by
    intro a
    induction a with
    | nil => intro b k h _; cases b <;> simp at h ⊢
    | cons x a ih =>
      intro b k h hall
      cases b with
      | nil => simp at h
      | cons y b =>
        obtain ⟨f, s⟩ := x
        obtain ⟨g, t⟩ := y
        simp only [List.map_cons, List.cons.injEq] at h
        obtain ⟨rfl, h⟩ := h
        have ih' := ih b (k + 1) h fun i s0 s1 h0 h1 => hall (i + 1) s0 s1 (by simpa using h0)
          (by simpa using h1)
        cases f with
        | false => simpa [List.zipIdx_cons] using ih'
        | true =>
          obtain ⟨k0, k1, e0, e1, q⟩ := hall 0 s t (by simp) (by simp)
          simp only [List.zipIdx_cons, List.filterMap_cons, if_true, e0, e1, Option.map_some]
          rw [ih', q.2 paths hnd hl]
  exact key r0 r1 0 hf hq

/-- A range that reaches beyond the stored proofs is not compared. -/
theorem compareProofs_short {c0 c1 : ServerCfg} {kcs : Pair2 P} {range : Nat × Nat}
    (hr : range.1 < range.2) (h0 : kcs.1.finalProofs.length < range.2)
    (h1 : kcs.2.finalProofs.length < range.2) :
    compareProofs c0 c1 kcs range = .ok () := by
  unfold compareProofs KeyCollection.getProofs
  rw [if_neg (by omega), if_neg (by omega)]
  simp only [hr, decide_true, debugAssert_true, ok_bind]
  rfl

theorem compareProofs_same {c0 c1 : ServerCfg} {kcs : Pair2 P} {range : Nat × Nat}
    (hr : range.1 < range.2) (h : kcs.1.finalProofs = kcs.2.finalProofs) :
    compareProofs c0 c1 kcs range = .ok () := by
  have he : kcs.1.getProofs range.1 range.2 = kcs.2.getProofs range.1 range.2 := by
    unfold KeyCollection.getProofs
    rw [h]
  unfold compareProofs
  simp only [hr, decide_true, debugAssert_true, ok_bind, he, beq_self_eq_true, assertE_true]
  rw [show ((kcs.2.getProofs range.1 range.2).zip (kcs.2.getProofs range.1 range.2)).all
      (fun hh => hh.1 == hh.2) = true from ?_]
  · rfl
  · rw [List.all_eq_true]
    intro x hx
    have : x.1 = x.2 := by
      obtain ⟨i, hi, rfl⟩ := List.getElem_of_mem hx
      simp
    simp [this]

/-- The results of the last level. -/
def resultsOf (P : Prims) (n : Nat) (pairs : List (VidpfKey × VidpfKey)) (paths : List (List Bool)) :
    List HHResult :=
  paths.map fun p => { path := p, value := Spec.tally P n pairs p }

theorem tally_length' {n : Nat} {r0 r1 : List (Bool × ReportShare)} {paths : List (List Bool)}
    {nx0 nx1 : List TreeNode} (h : Nodes (P := P) n r0 r1 paths nx0 nx1) :
    ∀ p ∈ paths, (Spec.tally P n (Spec.keyPairs r0 r1) p).length = n + 1 := by
  intro p hp
  obtain ⟨i, hi⟩ := List.getElem?_of_mem hp
  obtain ⟨a, b, -, -, -, -, la, lb, he⟩ := h.at hi
  rw [← he, addShares_length la lb]

/-- The last level up to the comparison of the proofs, which decides between the results and a panic. -/
theorem runLevelLast_at {n d m : Nat} {r0 r1 : List (Bool × ReportShare)} {paths : List (List Bool)}
    {kcs : Pair2 P} (h : Both n d m r0 r1 paths kcs) (c0 c1 : ServerCfg) (cfg : Config) (num : Nat)
    (hn : cfg.histBuckets = n) (hn1 : 1 ≤ n) (hd : cfg.dataBits ≠ none) (hb : 1 ≤ cfg.queryBatch)
    (hk0 : KeysReach m r0) (hk1 : KeysReach m r1) (hf : r0.map Prod.fst = r1.map Prod.fst) :
    ∃ (k0 k1 : KeyCollection P) (rs : List (Nat × Nat)),
      k0.finalProofs = ((Spec.included r0).filterMap fun ir =>
        (Spec.keyOf ir.2).map fun key => Spec.proofsAt P n key paths) ∧
      k1.finalProofs = ((Spec.included r1).filterMap fun ir =>
        (Spec.keyOf ir.2).map fun key => Spec.proofsAt P n key paths) ∧
      whileRanges num cfg.queryBatch num 0 = .ok rs ∧
      (∀ us, mapE (compareProofs c0 c1 (k0, k1)) rs = .ok us →
        ∃ out, runLevelLast c0 c1 cfg kcs num = .ok out ∧
          out.kcs.1.reportShares = r0 ∧ out.kcs.2.reportShares = r1 ∧
          out.results = resultsOf P n (Spec.keyPairs r0 r1)
            (survivors P n (max 1 cfg.threshold) r0 r1 paths) ∧
          out.printed = out.results.filter fun r => decide (r.value.getD (n - 1) 0 ≠ 0)) ∧
      ∀ e, mapE (compareProofs c0 c1 (k0, k1)) rs = .error e →
        runLevelLast c0 c1 cfg kcs num = .error e := by
  obtain ⟨nx0, pf0, k0, e0, g0, f0, a0, s0, q0⟩ := treeCrawlLast_at h.fst hk0
  obtain ⟨nx1, pf1, k1, e1, g1, f1, a1, s1, q1⟩ := treeCrawlLast_at h.snd hk1
  have hN : Nodes (P := P) n r0 r1 (kids paths) nx0 nx1 :=
    ⟨hf, kids_ne, f0 ▸ a0.pth, f1 ▸ a1.pth, s0, s1⟩
  have hkeep := hN.keep (max 1 cfg.threshold)
  obtain ⟨k0', p0, w0, b0⟩ := a0.prune fun p => decide (max 1 cfg.threshold ≤
    Spec.countAt P n (Spec.keyPairs r0 r1) p)
  obtain ⟨k1', p1, w1, b1⟩ := a1.prune fun p => decide (max 1 cfg.threshold ≤
    Spec.countAt P n (Spec.keyPairs r0 r1) p)
  obtain ⟨rs, hrs, hrng, -⟩ := whileRanges_spec (n := num) hb num 0 (by omega)
  have hf0 : k0'.frontier = nx0.filter fun node => decide (max 1 cfg.threshold ≤
      Spec.countAt P n (Spec.keyPairs r0 r1) node.path) := by rw [w0, ← f0]
  have hf1 : k1'.frontier = nx1.filter fun node => decide (max 1 cfg.threshold ≤
      Spec.countAt P n (Spec.keyPairs r0 r1) node.path) := by rw [w1, ← f1]
  have hN' : Nodes (P := P) n r0 r1 (survivors P n (max 1 cfg.threshold) r0 r1 paths) k0'.frontier
      k1'.frontier :=
    ⟨hf, fun p hp => kids_ne p (List.mem_filter.1 hp).1, b0.pth, b1.pth,
      fun node hnode => s0 node (by rw [hf0] at hnode; exact (List.mem_filter.1 hnode).1),
      fun node hnode => s1 node (by rw [hf1] at hnode; exact (List.mem_filter.1 hnode).1)⟩
  have hfin : finalValues n k0'.finalShares k1'.finalShares
      = .ok (resultsOf P n (Spec.keyPairs r0 r1) (survivors P n (max 1 cfg.threshold) r0 r1 paths)) := by
    rw [(C25_final_values n _ _).2]
    · congr 1
      have hz : List.zipWith (fun a b : HHResult =>
          ({ path := a.path, value := Spec.addShares a.value b.value } : HHResult))
          k0'.finalShares k1'.finalShares
          = resultsOf P n (Spec.keyPairs r0 r1)
            (survivors P n (max 1 cfg.threshold) r0 r1 paths) := by
        refine List.ext_getElem? fun i => ?_
        unfold KeyCollection.finalShares resultsOf
        rw [List.getElem?_zipWith, List.getElem?_map, List.getElem?_map, List.getElem?_map]
        cases hp : (survivors P n (max 1 cfg.threshold) r0 r1 paths)[i]? with
        | none =>
          rw [List.getElem?_eq_none_iff] at hp
          rw [List.getElem?_eq_none (by rw [hN'.length.1]; exact hp)]; rfl
        | some p =>
          obtain ⟨a, b, ha, hb, pa, -, -, -, he⟩ := hN'.at hp
          rw [ha, hb]
          simp only [Option.map_some, Option.some.injEq]
          rw [he, pa]
      rw [hz, List.filter_eq_self]
      intro r hr
      obtain ⟨p, hp, rfl⟩ := List.mem_map.1 hr
      have hc := (List.mem_filter.1 hp).2
      have hl := tally_length' hN' p hp
      simp only [decide_eq_true_eq] at hc ⊢
      intro h0
      have : Spec.countAt P n (Spec.keyPairs r0 r1) p = 0 := by
        unfold Spec.countAt
        rw [List.getD_eq_getElem?_getD, h0]
        simp
      omega
    · intro r hr
      obtain ⟨node, hnode, rfl⟩ := List.mem_map.1 hr
      obtain ⟨i, hi⟩ := List.getElem?_of_mem hnode
      have hlt := (List.getElem?_eq_some_iff.1 hi).1
      obtain ⟨a, b, ha, -, -, -, la, -, -⟩ := hN'.at (List.getElem?_eq_getElem (hN'.length.1 ▸ hlt))
      rw [hi] at ha; cases ha
      exact la
    · intro r hr
      obtain ⟨node, hnode, rfl⟩ := List.mem_map.1 hr
      obtain ⟨i, hi⟩ := List.getElem?_of_mem hnode
      have hlt := (List.getElem?_eq_some_iff.1 hi).1
      obtain ⟨a, b, -, hb, -, -, -, lb, -⟩ := hN'.at (List.getElem?_eq_getElem (hN'.length.2 ▸ hlt))
      rw [hi] at hb; cases hb
      exact lb
    · unfold KeyCollection.finalShares
      rw [List.map_map, List.map_map]
      exact hN'.pth0.trans hN'.pth1.symm
  have hpr : printed n (resultsOf P n (Spec.keyPairs r0 r1)
      (survivors P n (max 1 cfg.threshold) r0 r1 paths))
      = .ok ((resultsOf P n (Spec.keyPairs r0 r1)
        (survivors P n (max 1 cfg.threshold) r0 r1 paths)).filter
          fun r => decide (r.value.getD (n - 1) 0 ≠ 0)) := by
    unfold printed
    rw [mapE_ok_of_forall (g := fun r : HHResult => (r, decide (r.value.getD (n - 1) 0 ≠ 0))), ok_bind]
    · congr 1
      generalize resultsOf P n (Spec.keyPairs r0 r1)
        (survivors P n (max 1 cfg.threshold) r0 r1 paths) = L
      induction L with
      | nil => rfl
      | cons r L ih =>
        simp only [List.map_cons, List.filter_cons]
        split <;> simp_all
    · intro r hr
      obtain ⟨p, hp, rfl⟩ := List.mem_map.1 hr
      have hl := tally_length' hN' p hp
      rw [if_neg (by omega)]
      simp only
      rw [idx_eq_ok_of_lt (by omega), ok_bind, List.getD_eq_getElem _ _ (by omega)]
  obtain ⟨dd, hdd⟩ := Option.ne_none_iff_exists'.1 hd
  refine ⟨k0, k1, rs, g0.trans q0, g1.trans q1, hrs, fun us hcmp => ?_, fun e hcmp => ?_⟩
  · refine ⟨⟨(k0', k1'), resultsOf P n (Spec.keyPairs r0 r1)
      (survivors P n (max 1 cfg.threshold) r0 r1 paths), (resultsOf P n (Spec.keyPairs r0 r1)
        (survivors P n (max 1 cfg.threshold) r0 r1 paths)).filter
          fun r => decide (r.value.getD (n - 1) 0 ≠ 0)⟩, ?_, b0.rep, b1.rep, rfl, rfl⟩
    unfold runLevelLast
    rw [e0, ok_bind]
    dsimp only
    rw [e1, ok_bind]
    dsimp only
    rw [List.length_map, List.length_map, hN.length.1, hN.length.2, beq_self_eq_true, assertE_true, ok_bind,
      hn, hkeep, ok_bind, hrs, ok_bind, hcmp, ok_bind]
    simp only [pruneBoth, p0, p1, ok_bind, hdd, unwrapO, hfin, hpr]
  · unfold runLevelLast
    rw [e0, ok_bind]
    dsimp only
    rw [e1, ok_bind]
    dsimp only
    rw [List.length_map, List.length_map, hN.length.1, hN.length.2, beq_self_eq_true, assertE_true, ok_bind,
      hn, hkeep, ok_bind, hrs, ok_bind, hcmp, error_bind]

theorem runLevelLast_quiet {n d m : Nat} {r0 r1 : List (Bool × ReportShare)} {paths : List (List Bool)}
    {kcs : Pair2 P} (h : Both n d m r0 r1 paths kcs) (c0 c1 : ServerCfg) (cfg : Config) (num : Nat)
    (hn : cfg.histBuckets = n) (hn1 : 1 ≤ n) (hd : cfg.dataBits ≠ none) (hb : 1 ≤ cfg.queryBatch)
    (hk0 : KeysReach m r0) (hk1 : KeysReach m r1) (hf : r0.map Prod.fst = r1.map Prod.fst)
    (hq : ((Spec.included r0).filterMap fun ir =>
        (Spec.keyOf ir.2).map fun key => Spec.proofsAt P n key paths)
      = ((Spec.included r1).filterMap fun ir =>
        (Spec.keyOf ir.2).map fun key => Spec.proofsAt P n key paths) ∨
      (Spec.included r0).length < min num cfg.queryBatch ∧
        (Spec.included r1).length < min num cfg.queryBatch) :
    ∃ out, runLevelLast c0 c1 cfg kcs num = .ok out ∧
      out.kcs.1.reportShares = r0 ∧ out.kcs.2.reportShares = r1 ∧
      out.results = resultsOf P n (Spec.keyPairs r0 r1)
        (survivors P n (max 1 cfg.threshold) r0 r1 paths) ∧
      out.printed = out.results.filter fun r => decide (r.value.getD (n - 1) 0 ≠ 0) := by
  obtain ⟨k0, k1, rs, g0, g1, hrs, hok, -⟩ := runLevelLast_at h c0 c1 cfg num hn hn1 hd hb hk0 hk1 hf
  obtain ⟨rs', hrs', hrng, -⟩ := whileRanges_spec (n := num) hb num 0 (by omega)
  rw [hrs] at hrs'
  cases hrs'
  refine hok (rs.map fun _ => ()) (mapE_ok_of_forall fun r hr => ?_)
  rcases hq with hq | ⟨l0, l1⟩
  · exact compareProofs_same (hrng r hr).1 (by
      show k0.finalProofs = k1.finalProofs
      rw [g0, g1, hq])
  · have hr2 : min num cfg.queryBatch ≤ r.2 := by
      obtain ⟨k, rfl, hk⟩ := (whileRanges_mem hb num 0 rs (by omega) hrs r).1 hr
      dsimp only
      omega
    refine compareProofs_short (hrng r hr).1 ?_ ?_
    · show k0.finalProofs.length < r.2
      rw [g0]
      exact ((List.length_filterMap_le _ _).trans_lt l0).trans_le hr2
    · show k1.finalProofs.length < r.2
      rw [g1]
      exact ((List.length_filterMap_le _ _).trans_lt l1).trans_le hr2

/-! ### The whole run -/

theorem Fresh.at {kc : KeyCollection P} {root : TreeNode} {n d : Nat} {first : Bool}
    {reports : List (Bool × ReportShare)} (h : Fresh kc root) (hn : kc.inputLen = n)
    (hs : decide (kc.serverId = 0) = first) (hd : kc.depth = some d)
    (hr : reports.map Prod.snd = kc.reportShares.map Prod.snd) :
    At n d 0 first reports [[]] { kc with reportShares := reports } := by
  refine ⟨hn, hs, hd, rfl, ?_, by simp, ?_⟩
  · simp [h.frontier, h.path]
  · intro node hnode
    simp only [h.frontier, List.mem_singleton] at hnode
    subst hnode
    rw [hr, ← hn]
    exact h.exact

theorem KeysReach.mono {a b : Nat} (hab : a ≤ b) {reports : List (Bool × ReportShare)}
    (h : KeysReach b reports) : KeysReach a reports := by
  intro br hbr
  obtain ⟨key, hk, h1, h2⟩ := h br hbr
  exact ⟨key, hk, h1, by omega⟩

/-- A run that stops because server 0 panics in the first crawl of a level. -/
def WhhStops (c0 c1 : ServerCfg) (bld : Build) (cfg : Config) (kcs0 : Pair2 P) (num : Nat) (e : Panic) : Prop :=
  ∃ (k0 : Pair2 P) (levels l : Nat) (k k' : Pair2 P), driverTreeInit kcs0 = .ok k0 ∧
    levelCount bld cfg.dataBits = .ok levels ∧ l < levels ∧
    foldE (levelStep c0 c1 bld cfg num) k0 (List.range l) = .ok k ∧
    (if l = 0 then driverFlp c0 c1 bld cfg k num else .ok k) = .ok k' ∧
    k'.1.treeCrawl c0.build 1 [] false = .error e

theorem WhhStops.run {c0 c1 : ServerCfg} {bld : Build} {cfg : Config} {kcs0 : Pair2 P} {num : Nat} {e : Panic}
    (h : WhhStops c0 c1 bld cfg kcs0 num e) : runWhh c0 c1 bld cfg kcs0 num = .error e := by
  obtain ⟨k0, levels, l, k, k', h1, h2, h3, h4, h5, h6⟩ := h
  have hl : levelStep c0 c1 bld cfg num k l = .error e := by
    unfold levelStep
    rw [h5, ok_bind]
    unfold runLevel searchLevel
    rw [show num + 3 = (num + 2) + 1 from rfl, runLevelLoop]
    unfold crawlBoth
    simp only [h6, error_bind]
  have hr : List.range levels = List.range l ++ l :: List.range' (l + 1) (levels - l - 1) := by
    rw [← List.range'_succ, List.range_eq_range', List.range_eq_range',
      show levels - l - 1 + 1 = levels - l by omega]
    have := List.range'_append (s := 0) (m := l) (n := levels - l) (step := 1)
    rw [show l + (levels - l) = levels by omega, Nat.one_mul, Nat.zero_add] at this
    exact this.symm
  unfold runWhh
  rw [h1, ok_bind, h2, ok_bind, hr, foldE_append, h4, ok_bind, foldE_cons, hl]
  rfl

/-- A run whose included reports are quiet, after the FLP verification. -/
theorem runWhh_quiet {n d : Nat} {c0 c1 : ServerCfg} {bld : Build} {cfg : Config}
    {kcs0 kcs : Pair2 P} {num : Nat} {r0 r1 : List (Bool × ReportShare)}
    (hi : driverTreeInit kcs0 = .ok kcs) (hn : cfg.histBuckets = n) (hn1 : 1 ≤ n)
    (hd : cfg.dataBits = some d) (hd2 : 2 ≤ d) (hb : 1 ≤ cfg.queryBatch)
    (i0 : kcs.1.inputLen = n) (i1 : kcs.2.inputLen = n) (h0 : kcs.1.serverId = 0)
    (h1 : kcs.2.serverId ≠ 0) (d0 : kcs.1.depth = some d) (d1 : kcs.2.depth = some d)
    (hr0 : r0.map Prod.snd = kcs.1.reportShares.map Prod.snd)
    (hr1 : r1.map Prod.snd = kcs.2.reportShares.map Prod.snd)
    (hflp : driverFlp c0 c1 bld cfg kcs num
      = .ok ({ kcs.1 with reportShares := r0 }, { kcs.2 with reportShares := r1 }))
    (hq : Spec.AllPairs (Spec.QuietInner P n d) r0 r1)
    (hlast : Spec.QuietReports P n d r0 r1 ∨
      (Spec.included r0).length < min num cfg.queryBatch ∧
        (Spec.included r1).length < min num cfg.queryBatch)
    (hne : Spec.included r0 ≠ []) (hk0 : KeysReach (d - 1) r0) (hk1 : KeysReach (d - 1) r1) :
    (Spec.heavyPaths P n (max 1 cfg.threshold) (Spec.keyPairs r0 r1) (d - 2) ≠ [] →
      ∃ out, runWhh c0 c1 bld cfg kcs0 num = .ok out ∧
        out.kcs.1.reportShares = r0 ∧ out.kcs.2.reportShares = r1 ∧
        out.results = resultsOf P n (Spec.keyPairs r0 r1)
          (Spec.heavyPaths P n (max 1 cfg.threshold) (Spec.keyPairs r0 r1) d) ∧
        out.printed = out.results.filter fun r => decide (r.value.getD (n - 1) 0 ≠ 0)) ∧
    (Spec.heavyPaths P n (max 1 cfg.threshold) (Spec.keyPairs r0 r1) (d - 2) = [] →
      WhhStops c0 c1 bld cfg kcs0 num .index) := by
  obtain ⟨t0, t1⟩ := driverTreeInit_ok hi
  obtain ⟨root0, f0, -⟩ := treeInit_fresh t0
  obtain ⟨root1, f1, -⟩ := treeInit_fresh t1
  have hB : Both n d 0 r0 r1 (Spec.heavyPaths P n (max 1 cfg.threshold) (Spec.keyPairs r0 r1) 0)
      (({ kcs.1 with reportShares := r0 }, { kcs.2 with reportShares := r1 }) : Pair2 P) := by
    rw [heavyPaths_zero]
    exact ⟨f0.at i0 (by simp [h0]) d0 hr0, f1.at i1 (by simp [h1]) d1 hr1⟩
  obtain ⟨kcs1, hl1, hB1⟩ := runLevel_quiet hB c0 c1 cfg num hn (by simp [heavyPaths_zero]) (by omega)
    (hk0.mono (by omega)) (hk1.mono (by omega)) hq.1 hne
    (digests_quiet hq (by omega) (heavyPaths_nodup _ _ _ _) heavyPaths_len)
  rw [survivors_heavyPaths] at hB1
  have hlev : levelCount bld cfg.dataBits = .ok (d - 1) := by
    simp only [levelCount, hd, unwrapO, ok_bind]
    rw [if_neg (by omega)]
  have hstep : levelStep c0 c1 bld cfg num kcs 0 = .ok kcs1 := by
    simp only [levelStep, if_true, hflp, ok_bind, hl1]
  have hrange : List.range (d - 1) = 0 :: List.range' 1 (d - 2) := by
    rw [List.range_eq_range', show d - 1 = (d - 2) + 1 by omega, List.range'_succ]
  have hq2 := levels_quiet c0 c1 bld cfg num hn hq hne hk0 hk1 (d - 2) 1 kcs1 (by omega) (by omega) hB1
  constructor
  · intro hh
    obtain ⟨kcs2, e2, hB2⟩ := hq2.1 fun l hl _ => heavyPaths_ne_le (by omega) hh
    rw [show 1 + (d - 2) = d - 1 by omega] at hB2
    obtain ⟨out, e3, g0, g1, g2, g3⟩ := runLevelLast_quiet hB2 c0 c1 cfg num hn hn1 (by simp [hd]) hb hk0
      hk1 hq.1 (hlast.imp_left fun hq => proofs_quiet hq (heavyPaths_nodup _ _ _ _)
        fun p hp => by rw [heavyPaths_len p hp]; omega)
    refine ⟨out, ?_, g0, g1, ?_, g3⟩
    · unfold runWhh
      rw [hi, ok_bind, hlev, ok_bind, hrange, foldE_cons, hstep, ok_bind, e2, ok_bind, e3]
    · rw [g2, survivors_heavyPaths, show d - 1 + 1 = d by omega]
  · intro hh
    have hd3 : d - 2 ≠ 0 := by
      intro h; rw [h, heavyPaths_zero] at hh; simp at hh
    -- the first level without heavy prefixes
    obtain ⟨l, hl, hmin⟩ : ∃ l, Spec.heavyPaths P n (max 1 cfg.threshold) (Spec.keyPairs r0 r1) l = [] ∧
        ∀ m, m < l → Spec.heavyPaths P n (max 1 cfg.threshold) (Spec.keyPairs r0 r1) m ≠ [] := by
      have hex : ∃ l, Spec.heavyPaths P n (max 1 cfg.threshold) (Spec.keyPairs r0 r1) l = [] := ⟨d - 2, hh⟩
      classical
      exact ⟨Nat.find hex, Nat.find_spec hex, fun m hm => Nat.find_min hex hm⟩
    have hl0 : l ≠ 0 := by
      rintro rfl
      rw [heavyPaths_zero] at hl
      simp at hl
    have hle : l ≤ d - 2 := by
      by_contra hlt
      exact hmin (d - 2) (by omega) hh
    obtain ⟨kcs2, e2, hB2⟩ := (levels_quiet c0 c1 bld cfg num hn hq hne hk0 hk1 (l - 1) 1 kcs1 (by omega) (by omega)
      hB1).1 fun m hm _ => hmin m (by omega)
    rw [show 1 + (l - 1) = l by omega, hl] at hB2
    have hfr : kcs2.1.frontier = [] := by simpa using hB2.fst.pth
    refine ⟨kcs, d - 1, l, kcs2, kcs2, hi, hlev, by omega, ?_, if_neg hl0, ?_⟩
    · rw [List.range_eq_range', show l = (l - 1) + 1 by omega, List.range'_succ, foldE_cons, hstep, ok_bind]
      exact e2
    · simp [KeyCollection.treeCrawl, KeyCollection.crawlPrep, KeyCollection.crawlLevel, hfr, idx]

end Mastic
