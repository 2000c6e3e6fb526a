import Verif.Lemmas.TwinDriver
import Verif.Lemmas.DeviateAbm
import Verif.Lemmas.World

/-!
# Lemmas: one server in two runs whose reports differ in the weights only
-/

namespace Mastic

variable {Q Q' : Prims} {n d : Nat}

/-- A key with its states and values at all strings. -/
structure Sheet where
  key : VidpfKey
  st : List Bool → EvalState
  val : List Bool → List Field128

/-- The states and values are those of the key, up to length `d`. -/
structure Sheet.Fits (Q : Prims) (n d : Nat) (s : Sheet) : Prop where
  init : s.st [] = s.key.evalInit
  zero : s.val [] = [0]
  step : ∀ p : List Bool, p.length < d → ∀ b, s.key.evalBit Q (s.st p) b (bitsToBitstring p ++ [bitByte b]) n
    = .ok (s.st (p ++ [b]), s.val (p ++ [b]))

/-- Two keys with the same proofs, counters and checks. -/
structure SheetTwin (n d : Nat) (s s' : Sheet) : Prop where
  proof : ∀ p : List Bool, p.length ≤ d → (s.st p).proof = (s'.st p).proof
  count : ∀ p : List Bool, p ≠ [] → p.length ≤ d → (s.val p).length = (s'.val p).length ∧ CntEq n (s.val p) (s'.val p)
  check : ∀ p : List Bool, p.length < d → ∀ sid : Int,
    CheckTwin n p.length (valueCheck n sid p.length (s.val p) (s.val (p ++ [false])) (s.val (p ++ [true])))
      (valueCheck n sid p.length (s'.val p) (s'.val (p ++ [false])) (s'.val (p ++ [true])))

/-- The reports hold the keys. -/
def HoldsKeys (C : List Sheet) (reports : List (Bool × ReportShare)) : Prop :=
  List.Forall₂ (fun s r => r.2.unwrapVidpfKey = .ok s.key) C reports

/-- A node with the states and values of its path. -/
def NodeIs (C : List Sheet) (a : TreeNode) : Prop :=
  a.keyStates = C.map (fun s => s.st a.path) ∧ a.keyValues = C.map (fun s => s.val a.path)

/-- The node of a path. -/
def sheetNode (n : Nat) (C : List Sheet) (reports : List (Bool × ReportShare)) (p : List Bool) : TreeNode :=
  { path := p, value := sumIncluded n (C.map fun s => s.val p) reports, keyStates := C.map fun s => s.st p,
    keyValues := C.map fun s => s.val p }

theorem makeTreeNode_sheet {C : List Sheet} {kc : KeyCollection Q} (hf : ∀ s ∈ C, s.Fits Q n d)
    (hh : HoldsKeys C kc.reportShares) (hn : kc.inputLen = n) {a : TreeNode} (ha : NodeIs C a) (hl : a.path.length < d)
    (dir : Bool) : kc.makeTreeNode a dir = .ok (sheetNode n C kc.reportShares (a.path ++ [dir])) := by
  unfold KeyCollection.makeTreeNode
  have : mapE (kc.evalClient a dir (bitsToBitstring a.path ++ [bitByte dir])) kc.reportShares.zipIdx
      = .ok (C.map fun s => (s.st (a.path ++ [dir]), s.val (a.path ++ [dir]))) := by
    rw [mapE_eq_ok_iff_getElem]
    refine ⟨by simp [hh.length_eq], ?_⟩
    rintro i ⟨r, j⟩ hi
    rw [List.getElem?_zipIdx] at hi
    rcases forall₂_getElem? hh i with ⟨-, h2⟩ | ⟨s, r', h1, h2, hr⟩
    · rw [h2] at hi; cases hi
    · rw [h2] at hi
      obtain ⟨rfl, rfl⟩ : r' = r ∧ i = j := by simpa using hi
      refine ⟨(s.st (a.path ++ [dir]), s.val (a.path ++ [dir])), by rw [List.getElem?_map, h1]; rfl, ?_⟩
      unfold KeyCollection.evalClient
      dsimp only
      rw [hr, ok_bind, ha.1]
      have : idx (C.map fun s => s.st a.path) i = .ok (s.st a.path) :=
        idx_eq_ok.2 (by rw [List.getElem?_map, h1]; rfl)
      rw [this, ok_bind, hn]
      exact (hf s (List.mem_of_getElem? h1)).step _ hl dir
  dsimp only
  rw [this, ok_bind, hn, List.map_map, List.map_map]
  rfl

theorem sheetNode_is (n : Nat) (C : List Sheet) (reports : List (Bool × ReportShare)) (p : List Bool) :
    NodeIs C (sheetNode n C reports p) := ⟨rfl, rfl⟩

/-- The children of the nodes of a frontier. -/
def sheetNext (n : Nat) (C : List Sheet) (reports : List (Bool × ReportShare)) (fr : List TreeNode) : List TreeNode :=
  (fr.map fun a => [sheetNode n C reports (a.path ++ [false]), sheetNode n C reports (a.path ++ [true])]).flatten

theorem nextFrontier_sheet {C : List Sheet} {kc : KeyCollection Q} (hf : ∀ s ∈ C, s.Fits Q n d)
    (hh : HoldsKeys C kc.reportShares) (hn : kc.inputLen = n) (hd : kc.depth = some d)
    (ha : ∀ a ∈ kc.frontier, NodeIs C a ∧ a.path.length < d) (chk : Bool) :
    kc.nextFrontier chk = .ok (sheetNext n C kc.reportShares kc.frontier) := by
  unfold KeyCollection.nextFrontier
  rw [mapE_ok_of_forall (g := fun a => [sheetNode n C kc.reportShares (a.path ++ [false]),
    sheetNode n C kc.reportShares (a.path ++ [true])])]
  · rfl
  · intro a hm
    obtain ⟨h1, h2⟩ := ha a hm
    unfold KeyCollection.children
    have e0 := makeTreeNode_sheet hf hh hn h1 h2 false
    have e1 := makeTreeNode_sheet hf hh hn h1 h2 true
    cases chk with
    | false =>
      simp only [Bool.false_eq_true, if_false]
      rw [e0, ok_bind, e1, ok_bind]
    | true =>
      simp only [if_true]
      rw [hd]
      simp only [unwrapO, ok_bind, assertE, decide_eq_true h2.le, if_true]
      rw [e0, ok_bind, e1, ok_bind]

/-- The parts of the states of the server that do not change. -/
structure Core (n d : Nat) (C C' : List Sheet) (kc : KeyCollection Q) (kc' : KeyCollection Q') : Prop where
  len : kc.inputLen = n
  len' : kc'.inputLen = n
  sid : kc.serverId = kc'.serverId
  depth : kc.depth = some d
  depth' : kc'.depth = some d
  holds : HoldsKeys C kc.reportShares
  holds' : HoldsKeys C' kc'.reportShares
  flags : kc.reportShares.map Prod.fst = kc'.reportShares.map Prod.fst
  final : kc.finalProofs = kc'.finalProofs

/-- Two frontiers with the same paths, of length `m`, and the same counters. -/
def Front (n m : Nat) (C C' : List Sheet) (fr fr' : List TreeNode) : Prop :=
  List.Forall₂ (fun a b => a.path = b.path ∧ a.path.length = m ∧ NodeIs C a ∧ NodeIs C' b ∧
    (m ≠ 0 → CntEq n a.value b.value)) fr fr'

theorem front_paths {m : Nat} {C C' : List Sheet} {fr fr' : List TreeNode} (h : Front n m C C' fr fr') :
    (∀ a ∈ fr, NodeIs C a ∧ a.path.length = m) ∧ (∀ a ∈ fr', NodeIs C' a ∧ a.path.length = m) ∧
      fr.map TreeNode.path = fr'.map TreeNode.path := by
  induction h with
  | nil => simp
  | cons hab _ ih =>
    obtain ⟨e1, e2, e3, e4, -⟩ := hab
    refine ⟨?_, ?_, ?_⟩
    · rintro x (_ | ⟨_, hx⟩)
      · exact ⟨e3, e2⟩
      · exact ih.1 x hx
    · rintro x (_ | ⟨_, hx⟩)
      · exact ⟨e4, e1 ▸ e2⟩
      · exact ih.2.1 x hx
    · rw [List.map_cons, List.map_cons, e1, ih.2.2]

theorem sheetValues_twin {C C' : List Sheet} (hC : List.Forall₂ (SheetTwin n d) C C')
    {reports reports' : List (Bool × ReportShare)} (hfl : reports.map Prod.fst = reports'.map Prod.fst) {p : List Bool}
    (hp : p ≠ []) (hl : p.length ≤ d) :
    CntEq n (sumIncluded n (C.map fun s => s.val p) reports) (sumIncluded n (C'.map fun s => s.val p) reports') := by
  have := sumIncluded_twin (B := fun _ i => i = n) (d := 1) le_rfl n (v := C.map fun s => s.val p)
    (v' := C'.map fun s => s.val p) (by
      rw [List.forall₂_map_left_iff, List.forall₂_map_right_iff]
      refine hC.imp fun s s' h => ⟨(h.count p hp hl).1, by omega, fun _ i hi => ?_⟩
      subst hi
      exact (h.count p hp hl).2) hfl
  exact this.2.2 le_rfl n rfl

theorem front_next {m : Nat} {C C' : List Sheet} (hC : List.Forall₂ (SheetTwin n d) C C')
    {reports reports' : List (Bool × ReportShare)} (hfl : reports.map Prod.fst = reports'.map Prod.fst)
    {fr fr' : List TreeNode} (h : Front n m C C' fr fr') (hm : m < d) :
    Front n (m + 1) C C' (sheetNext n C reports fr) (sheetNext n C' reports' fr') := by
  unfold sheetNext
  refine forall₂_flatten ?_
  rw [List.forall₂_map_left_iff, List.forall₂_map_right_iff]
  refine h.imp fun a b hab => ?_
  obtain ⟨e1, e2, -⟩ := hab
  have key : ∀ x : Bool, ((sheetNode n C reports (a.path ++ [x])).path = (sheetNode n C' reports' (b.path ++ [x])).path ∧
      (sheetNode n C reports (a.path ++ [x])).path.length = m + 1 ∧ NodeIs C (sheetNode n C reports (a.path ++ [x])) ∧
      NodeIs C' (sheetNode n C' reports' (b.path ++ [x])) ∧
      (m + 1 ≠ 0 → CntEq n (sheetNode n C reports (a.path ++ [x])).value (sheetNode n C' reports' (b.path ++ [x])).value)) := by
    intro x
    rw [← e1]
    refine ⟨rfl, by simp [sheetNode, e2], sheetNode_is .., sheetNode_is .., fun _ => ?_⟩
    exact sheetValues_twin hC hfl (by simp) (by simp [e2]; omega)
  exact .cons (key false) (.cons (key true) .nil)

/-! ### The checks -/

theorem sheetNext_getElem {C : List Sheet} {reports : List (Bool × ReportShare)} : ∀ {fr : List TreeNode} {i : Nat}
    {a : TreeNode}, fr[i]? = some a →
    (sheetNext n C reports fr)[2 * i]? = some (sheetNode n C reports (a.path ++ [false])) ∧
      (sheetNext n C reports fr)[2 * i + 1]? = some (sheetNode n C reports (a.path ++ [true]))
  | x :: fr, 0, a, h => by
    obtain rfl : x = a := by simpa using h
    exact ⟨rfl, rfl⟩
  | x :: fr, i + 1, a, h => by
    have := sheetNext_getElem (C := C) (reports := reports) (fr := fr) (i := i) (a := a) (by simpa using h)
    unfold sheetNext at this ⊢
    rw [show 2 * (i + 1) = 2 * i + 2 by ring, show 2 * i + 2 + 1 = 2 * i + 1 + 2 by ring]
    simpa using this

/-- The checks of all clients at a node. -/
def sheetChecks (n : Nat) (sid : Int) (m : Nat) (C : List Sheet) (p : List Bool) : List (List Field128) :=
  C.map fun s => valueCheck n sid m (s.val p) (s.val (p ++ [false])) (s.val (p ++ [true]))

theorem checks_sheet {C : List Sheet} {kc : KeyCollection Q} (hn : kc.inputLen = n) (bld : Build) (m : Nat)
    (hfr : ∀ a ∈ kc.frontier, NodeIs C a) :
    mapE (kc.checksForPrefix bld m (sheetNext n C kc.reportShares kc.frontier)) kc.frontier.zipIdx
      = .ok (kc.frontier.map fun a => sheetChecks n kc.serverId m C a.path) := by
  rw [mapE_eq_ok_iff_getElem]
  refine ⟨by simp, ?_⟩
  rintro i ⟨a, j⟩ hi
  rw [List.getElem?_zipIdx] at hi
  obtain ⟨a', h1, hij⟩ := Option.map_eq_some_iff.1 hi
  obtain ⟨rfl, rfl⟩ : a' = a ∧ i = j := by simpa using hij
  refine ⟨_, by rw [List.getElem?_map, h1]; rfl, ?_⟩
  obtain ⟨g0, g1⟩ := sheetNext_getElem (n := n) (C := C) (reports := kc.reportShares) h1
  unfold KeyCollection.checksForPrefix
  have hk := (hfr a' (List.mem_of_getElem? h1)).2
  dsimp only
  rw [idx_eq_ok.2 g0, ok_bind, idx_eq_ok.2 g1, ok_bind, hk]
  have hl : ∀ b, debugAssert bld ((C.map fun s => s.val a'.path).length
      == (sheetNode n C kc.reportShares (a'.path ++ [b])).keyValues.length) = .ok () := by
    intro b
    cases bld <;> simp [sheetNode, debugAssert]
  rw [hl, ok_bind, hl, ok_bind, mapE_eq_ok_iff_getElem]
  refine ⟨by simp [sheetChecks], ?_⟩
  rintro k ⟨y, l⟩ hk'
  rw [List.getElem?_zipIdx, List.getElem?_map] at hk'
  obtain ⟨y', h2, hkl⟩ := Option.map_eq_some_iff.1 hk'
  obtain ⟨s, h3, rfl⟩ := Option.map_eq_some_iff.1 h2
  obtain ⟨rfl, rfl⟩ : s.val a'.path = y ∧ k = l := by simpa using hkl
  refine ⟨_, by rw [sheetChecks, List.getElem?_map, h3]; rfl, ?_⟩
  dsimp only
  have hv : ∀ b, idx (sheetNode n C kc.reportShares (a'.path ++ [b])).keyValues k = .ok (s.val (a'.path ++ [b])) :=
    fun b => idx_eq_ok.2 (by simp [sheetNode, h3])
  rw [hv, ok_bind, hv, ok_bind, hn]

theorem combineProofs_front {m : Nat} {C C' : List Sheet} (hC : List.Forall₂ (SheetTwin n d) C C')
    {fr fr' : List TreeNode} (h : Front n m C C' fr fr') (hm : m ≤ d) (i : Nat) :
    combineProofs fr i = combineProofs fr' i := by
  unfold combineProofs
  refine (ExRel.foldE (R := Eq) h ?_ rfl).eq
  rintro s _ a b rfl ⟨e1, e2, e3, e4, -⟩
  have : List.Forall₂ (fun x y : EvalState => x.proof = y.proof) a.keyStates b.keyStates := by
    rw [e3.1, e4.1, ← e1, List.forall₂_map_left_iff, List.forall₂_map_right_iff]
    exact hC.imp fun s s' hs => hs.proof _ (by omega)
  refine (ExRel.idx this i).bind fun x y hxy => ?_
  exact exRel_ok.2 (by rw [hxy])

/-- The same digests in both runs. -/
theorem digests_front {m : Nat} {C C' : List Sheet} (hC : List.Forall₂ (SheetTwin n d) C C') (hb : Q.blake3 = Q'.blake3)
    {fr fr' nx nx' : List TreeNode} (h : Front n m C C' fr fr') (hm : m < d) (hx : Front n (m + 1) C C' nx nx')
    (sid : Int) (i : Nat) :
    combinedHash Q n m nx (fr.map fun a => sheetChecks n sid m C a.path) i
      = combinedHash Q' n m nx' (fr'.map fun a => sheetChecks n sid m C' a.path) i := by
  have hc : List.Forall₂ (List.Forall₂ (CheckTwin n m)) (fr.map fun a => sheetChecks n sid m C a.path)
      (fr'.map fun a => sheetChecks n sid m C' a.path) := by
    rw [List.forall₂_map_left_iff, List.forall₂_map_right_iff]
    refine h.imp fun a b hab => ?_
    obtain ⟨e1, e2, -⟩ := hab
    unfold sheetChecks
    rw [← e1, List.forall₂_map_left_iff, List.forall₂_map_right_iff]
    refine hC.imp fun s s' hs => ?_
    have := hs.check a.path (by omega) sid
    rwa [e2] at this
  have h1 : combinedHash Q' n m nx' (fr'.map fun a => sheetChecks n sid m C' a.path) i
      = combinedHash Q n m nx' (fr'.map fun a => sheetChecks n sid m C' a.path) i := by
    unfold combinedHash; rw [hb]
  rw [h1]
  unfold combinedHash
  rw [combineProofs_front hC hx (by omega)]
  have : foldE (checkStep n m i) (List.replicate 8 0) (fr.map fun a => sheetChecks n sid m C a.path)
      = foldE (checkStep n m i) (List.replicate 8 0) (fr'.map fun a => sheetChecks n sid m C' a.path) := by
    have := combinedHash_twin (P := Q) (B := fun _ _ => False) (next := []) (next' := []) .nil hc i
    refine (ExRel.foldE (R := Eq) hc ?_ rfl).eq
    rintro s _ a b rfl hab
    unfold checkStep
    refine (ExRel.idx hab i).bind ?_
    rintro c c' ⟨h0, h1⟩
    split
    · rename_i hm
      unfold idx
      rw [h0 hm]
      exact ExRel.refl (fun _ => rfl) _
    · rename_i hm
      refine ExRel.foldE (R := Eq) (Q := fun x y => x = y ∧ x < n) ?_ ?_ rfl
      · have : ∀ l : List Nat, (∀ x ∈ l, x < n) → List.Forall₂ (fun x y => x = y ∧ x < n) l l := by
          intro l
          induction l with
          | nil => intro _; exact .nil
          | cons x l ih => intro hl; exact .cons ⟨rfl, hl x (by simp)⟩ (ih fun y hy => hl y (by simp [hy]))
        exact this _ fun x hx => List.mem_range.1 hx
      · rintro s _ j _ rfl ⟨rfl, hj⟩
        unfold idx
        rw [h1 hm j hj]
        exact ExRel.refl (fun _ => rfl) _
  rw [this]

theorem cntEq_front {m : Nat} {C C' : List Sheet} {fr fr' : List TreeNode} (h : Front n m C C' fr fr') (hm : m ≠ 0) :
    List.Forall₂ (CntEq n) (fr.map TreeNode.value) (fr'.map TreeNode.value) := by
  rw [List.forall₂_map_left_iff, List.forall₂_map_right_iff]
  exact h.imp fun a b hab => hab.2.2.2.2 hm

/-! ### The requests -/

/-- Reports that hold the same keys, with the same flags. -/
def Flagged (C C' : List Sheet) (a b : List (Bool × ReportShare)) : Prop :=
  HoldsKeys C a ∧ HoldsKeys C' b ∧ a.map Prod.fst = b.map Prod.fst

theorem flagged_set {C C' : List Sheet} {a b : List (Bool × ReportShare)} (h : Flagged C C' a b) (i : Nat) :
    ExRel (Flagged C C') (do let r ← idx a i; .ok (a.set i (false, r.2))) (do let r ← idx b i; .ok (b.set i (false, r.2))) := by
  obtain ⟨h1, h2, h3⟩ := h
  have hl : a.length = b.length := by simpa using congrArg List.length h3
  by_cases hi : i < a.length
  · have hb : i < b.length := by omega
    rw [idx_eq_ok.2 (List.getElem?_eq_getElem hi), idx_eq_ok.2 (List.getElem?_eq_getElem hb), ok_bind, ok_bind]
    have key : ∀ {D : List Sheet} {l : List (Bool × ReportShare)} (i : Nat) (hi : i < l.length), HoldsKeys D l →
        HoldsKeys D (l.set i (false, l[i].2)) := by
      intro D l i hi h
      unfold HoldsKeys at h ⊢
      induction h generalizing i with
      | nil => exact absurd hi (by simp)
      | cons hab hs ih =>
        cases i with
        | zero => exact .cons hab hs
        | succ i => exact .cons hab (ih i (by simpa using hi))
    refine ⟨key i hi h1, key i hb h2, ?_⟩
    rw [List.map_set, List.map_set, h3]
  · have e1 : idx a i = .error .index := by unfold idx; rw [List.getElem?_eq_none (by omega)]
    have e2 : idx b i = .error .index := by unfold idx; rw [List.getElem?_eq_none (by omega)]
    rw [e1, e2]
    exact rfl

theorem crawlPrep_core {C C' : List Sheet} {kc : KeyCollection Q} {kc' : KeyCollection Q'} (h : Core n d C C' kc kc')
    (ms : List Nat) (last : Bool) :
    ExRel (fun x y => Core n d C C' x y ∧ x.frontier = (if ms = [] then kc.frontier else kc.prevFrontier) ∧
        y.frontier = if ms = [] then kc'.frontier else kc'.prevFrontier)
      (kc.crawlPrep ms last) (kc'.crawlPrep ms last) := by
  unfold KeyCollection.crawlPrep
  cases ms with
  | nil => exact ⟨h, rfl, rfl⟩
  | cons x ms =>
    simp only [List.isEmpty_cons, Bool.false_eq_true, if_false, reduceCtorEq]
    have : ExRel (Flagged C C') (if last then excludeAll kc.reportShares (x :: ms) else .ok kc.reportShares)
        (if last then excludeAll kc'.reportShares (x :: ms) else .ok kc'.reportShares) := by
      cases last with
      | true =>
        simp only [if_true]
        unfold excludeAll
        refine ExRel.foldE (R := Flagged C C') (Q := Eq) (forall₂_refl_of (fun _ => rfl) _) ?_ ⟨h.holds, h.holds', h.flags⟩
        rintro s t m _ hst rfl
        exact flagged_set hst m
      | false =>
        simp only [Bool.false_eq_true, if_false]
        exact exRel_ok.2 ⟨h.holds, h.holds', h.flags⟩
    refine this.bind fun rs rs' hrs => ?_
    exact ⟨⟨h.len, h.len', h.sid, h.depth, h.depth', hrs.1, hrs.2.1, hrs.2.2, h.final⟩, rfl, rfl⟩

/-- What the answers to a crawl have in common. -/
def SameCrawl (n : Nat) (r r' : CrawlResp) : Prop :=
  r.roots = r'.roots ∧ r.indices = r'.indices ∧ List.Forall₂ (CntEq n) r.cntValues r'.cntValues

variable {C C' : List Sheet} {kc : KeyCollection Q} {kc' : KeyCollection Q'} {m : Nat}

theorem treeCrawl_peer (hC : List.Forall₂ (SheetTwin n d) C C') (hf : ∀ s ∈ C, s.Fits Q n d) (hf' : ∀ s ∈ C', s.Fits Q' n d)
    (hb : Q.blake3 = Q'.blake3) (hmr : merkleRoots Q = merkleRoots Q') (h : Core n d C C' kc kc') (bld : Build)
    (s : Nat) (ms : List Nat) (last : Bool) (hm : m < d)
    (hfr : Front n m C C' (if ms = [] then kc.frontier else kc.prevFrontier)
      (if ms = [] then kc'.frontier else kc'.prevFrontier)) :
    ExRel (fun x y => Core n d C C' x.1 y.1 ∧ Front n (m + 1) C C' x.1.frontier y.1.frontier ∧
        Front n m C C' x.1.prevFrontier y.1.prevFrontier ∧ SameCrawl n x.2 y.2)
      (kc.treeCrawl bld s ms last) (kc'.treeCrawl bld s ms last) := by
  unfold KeyCollection.treeCrawl
  refine (crawlPrep_core h ms last).bind ?_
  rintro x y ⟨hxy, e1, e2⟩
  rw [← e1, ← e2] at hfr
  obtain ⟨p1, p2, p3⟩ := front_paths hfr
  have hnx := front_next hC hxy.flags hfr hm
  have : ExRel (fun u v => (u.1 = sheetNext n C x.reportShares x.frontier ∧
      v.1 = sheetNext n C' y.reportShares y.frontier) ∧ u.2 = v.2) (x.crawlLevel bld) (y.crawlLevel bld) := by
    unfold KeyCollection.crawlLevel
    rw [nextFrontier_sheet hf hxy.holds hxy.len hxy.depth (fun a ha => ⟨(p1 a ha).1, (p1 a ha).2 ▸ hm⟩),
      nextFrontier_sheet hf' hxy.holds' hxy.len' hxy.depth' (fun a ha => ⟨(p2 a ha).1, (p2 a ha).2 ▸ hm⟩)]
    refine (ExRel.idx hfr 0).bind ?_
    rintro a b ⟨g1, g2, -⟩
    dsimp only
    rw [← g1, g2]
    have : x.levelAssert bld m = y.levelAssert bld m := by
      unfold KeyCollection.levelAssert; rw [hxy.depth, hxy.depth']
    rw [this]
    refine ExRel.bind (R := Eq) (ExRel.refl (fun _ => rfl) _) ?_
    rintro _ _ -
    rw [ok_bind, ok_bind, checks_sheet hxy.len bld m fun a ha => (p1 a ha).1,
      checks_sheet hxy.len' bld m fun a ha => (p2 a ha).1, ok_bind, ok_bind, hxy.len, hxy.len',
      includedIndices_eq_flags, includedIndices_eq_flags, hxy.flags, ← hxy.sid]
    have : combinedHash Q n m (sheetNext n C x.reportShares x.frontier)
          (x.frontier.map fun a => sheetChecks n x.serverId m C a.path)
        = combinedHash Q' n m (sheetNext n C' y.reportShares y.frontier)
          (y.frontier.map fun a => sheetChecks n x.serverId m C' a.path) := by
      funext i
      exact digests_front hC hb hfr hm hnx _ i
    rw [this]
    refine ExRel.bind (R := Eq) (ExRel.refl (fun _ => rfl) _) ?_
    rintro c _ rfl
    exact ⟨⟨rfl, rfl⟩, rfl⟩
  refine this.bind ?_
  rintro ⟨nx, c⟩ ⟨nx', c'⟩ ⟨⟨rfl, rfl⟩, hcc⟩
  dsimp only at hcc ⊢
  subst hcc
  rw [hmr]
  refine ExRel.bind (R := Eq) (ExRel.refl (fun _ => rfl) _) ?_
  rintro rs _ rfl
  exact ⟨⟨hxy.len, hxy.len', hxy.sid, hxy.depth, hxy.depth', hxy.holds, hxy.holds', hxy.flags, hxy.final⟩, hnx, hfr,
    rfl, rfl, cntEq_front hnx (by omega)⟩

theorem treeCrawlLast_peer (hC : List.Forall₂ (SheetTwin n d) C C') (hf : ∀ s ∈ C, s.Fits Q n d)
    (hf' : ∀ s ∈ C', s.Fits Q' n d) (h : Core n d C C' kc kc') (hm : m < d) (hfr : Front n m C C' kc.frontier kc'.frontier) :
    ExRel (fun x y => Core n d C C' x.1 y.1 ∧ Front n (m + 1) C C' x.1.frontier y.1.frontier ∧
        List.Forall₂ (CntEq n) x.2 y.2) kc.treeCrawlLast kc'.treeCrawlLast := by
  unfold KeyCollection.treeCrawlLast
  obtain ⟨p1, p2, p3⟩ := front_paths hfr
  have hnx := front_next hC h.flags hfr hm
  rw [nextFrontier_sheet hf h.holds h.len h.depth (fun a ha => ⟨(p1 a ha).1, (p1 a ha).2 ▸ hm⟩),
    nextFrontier_sheet hf' h.holds' h.len' h.depth' (fun a ha => ⟨(p2 a ha).1, (p2 a ha).2 ▸ hm⟩), ok_bind, ok_bind,
    includedIndices_eq_flags, includedIndices_eq_flags, h.flags]
  rw [show combineProofs (sheetNext n C kc.reportShares kc.frontier)
    = combineProofs (sheetNext n C' kc'.reportShares kc'.frontier) from funext fun i => combineProofs_front hC hnx hm i]
  refine ExRel.bind (R := Eq) (ExRel.refl (fun _ => rfl) _) ?_
  rintro pr _ rfl
  exact ⟨⟨h.len, h.len', h.sid, h.depth, h.depth', h.holds, h.holds', h.flags, rfl⟩, hnx, cntEq_front hnx (by omega)⟩

theorem treePrune_peer (h : Core n d C C' kc kc') (hfr : Front n m C C' kc.frontier kc'.frontier) (keep : List Bool) :
    ExRel (fun x y => Core n d C C' x y ∧ Front n m C C' x.frontier y.frontier) (kc.treePrune keep) (kc'.treePrune keep) := by
  rw [treePrune_spec, treePrune_spec, hfr.length_eq]
  split
  · exact ⟨⟨h.len, h.len', h.sid, h.depth, h.depth', h.holds, h.holds', h.flags, h.final⟩, select_twin hfr keep⟩
  · exact rfl

theorem applyFlp_peer (h : Core n d C C' kc kc') (hfr : Front n m C C' kc.frontier kc'.frontier) (keep : List Bool) :
    ExRel (fun x y => Core n d C C' x y ∧ Front n m C C' x.frontier y.frontier)
      (kc.applyFlpResults keep) (kc'.applyFlpResults keep) := by
  unfold KeyCollection.applyFlpResults
  have hl : kc.reportShares.length = kc'.reportShares.length := by simpa using congrArg List.length h.flags
  rw [hl]
  refine ExRel.bind (R := Eq) (ExRel.refl (fun _ => rfl) _) ?_
  rintro _ _ -
  refine (ExRel.foldE (R := Flagged C C') (Q := Eq) (forall₂_refl_of (fun _ => rfl) _)
    ?_ ⟨h.holds, h.holds', h.flags⟩).bind ?_
  · rintro s t ⟨a, i⟩ _ hst rfl
    dsimp only
    split
    · exact hst
    · exact flagged_set hst i
  · intro rs rs' hrs
    exact ⟨⟨h.len, h.len', h.sid, h.depth, h.depth', hrs.1, hrs.2.1, hrs.2.2, h.final⟩, hfr⟩

theorem treeInit_peer (hf : ∀ s ∈ C, s.Fits Q n d) (hf' : ∀ s ∈ C', s.Fits Q' n d) (h : Core n d C C' kc kc') :
    ∃ x y, kc.treeInit = .ok x ∧ kc'.treeInit = .ok y ∧ Core n d C C' x y ∧ Front n 0 C C' x.frontier y.frontier := by
  have keys : ∀ {Q : Prims} {C : List Sheet} {reports : List (Bool × ReportShare)}, (∀ s ∈ C, s.Fits Q n d) →
      HoldsKeys C reports → mapE (fun r : Bool × ReportShare => r.2.unwrapVidpfKey) reports = .ok (C.map Sheet.key) := by
    intro Q C reports _ hh
    rw [mapE_eq_ok, List.forall₂_map_right_iff]
    exact hh.flip
  have hroot : ∀ {Q : Prims} {C : List Sheet}, (∀ s ∈ C, s.Fits Q n d) → NodeIs C
      (⟨[], [0], (C.map Sheet.key).map VidpfKey.evalInit, (C.map Sheet.key).map fun _ => [0]⟩ : TreeNode) := by
    intro Q C hf
    constructor
    · simp only [List.map_map]
      exact List.map_congr_left fun s hs => (hf s hs).init.symm
    · simp only [List.map_map]
      exact List.map_congr_left fun s hs => (hf s hs).zero.symm
  let root (C : List Sheet) : TreeNode :=
    ⟨[], [0], (C.map Sheet.key).map VidpfKey.evalInit, (C.map Sheet.key).map fun _ => [0]⟩
  refine ⟨{ kc with frontier := [root C] }, { kc' with frontier := [root C'] }, ?_, ?_, ?_, ?_⟩
  · unfold KeyCollection.treeInit
    rw [keys hf h.holds, ok_bind]
  · unfold KeyCollection.treeInit
    rw [keys hf' h.holds', ok_bind]
  · exact ⟨h.len, h.len', h.sid, h.depth, h.depth', h.holds, h.holds', h.flags, h.final⟩
  · exact .cons ⟨rfl, rfl, hroot hf, hroot hf', fun h => absurd rfl h⟩ .nil

end Mastic
