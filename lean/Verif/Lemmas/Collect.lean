import Verif.Lemmas.Tree
import Verif.Lemmas.Merkle

/-!
# Helper lemmas about the collection
-/

namespace Mastic

variable {P : Prims}

/-! ### Lists of results -/

theorem mapE_eq_ok_iff_getElem {α β : Type} {f : α → Exec β} {l : List α} {bs : List β} :
    mapE f l = .ok bs ↔ bs.length = l.length ∧
      ∀ (i : Nat) (a : α), l[i]? = some a → ∃ b, bs[i]? = some b ∧ f a = .ok b := by
  rw [mapE_eq_ok, List.forall₂_iff_get]
  constructor
  · rintro ⟨h1, h2⟩
    refine ⟨h1.symm, fun i a ha => ?_⟩
    obtain ⟨hi, rfl⟩ := List.getElem?_eq_some_iff.1 ha
    exact ⟨bs[i], List.getElem?_eq_getElem (h1 ▸ hi), h2 i hi (h1 ▸ hi)⟩
  · rintro ⟨h1, h2⟩
    refine ⟨h1.symm, fun i hi hi' => ?_⟩
    obtain ⟨b, hb, hf⟩ := h2 i l[i] (List.getElem?_eq_getElem hi)
    obtain ⟨hi'', rfl⟩ := List.getElem?_eq_some_iff.1 hb
    exact hf

theorem mapE_returns_iff {α β : Type} {f : α → Exec β} {l : List α} :
    Returns (mapE f l) ↔ ∀ a ∈ l, Returns (f a) := by
  constructor
  · rintro ⟨bs, h⟩ a ha
    by_contra hc
    obtain ⟨p, hp⟩ := mapE_error_of_mem ha (not_returns_iff.1 hc)
    rw [h] at hp; cases hp
  · intro h
    induction l with
    | nil => exact ⟨[], rfl⟩
    | cons a as ih =>
      obtain ⟨b, hb⟩ := h a (by simp)
      obtain ⟨bs, hbs⟩ := ih (fun x hx => h x (by simp [hx]))
      exact ⟨b :: bs, by rw [mapE_cons, hb, hbs]; rfl⟩

theorem zipIdx_getElem? {α : Type} (l : List α) (i : Nat) :
    l.zipIdx[i]? = (l[i]?).map fun a => (a, i) := by
  simp [List.getElem?_zipIdx]

/-! ### Pruning -/

theorem select_nil {α : Type} (keep : List Bool) : Spec.select keep ([] : List α) = [] := rfl

theorem select_append {α : Type} (k1 k2 : List Bool) (l1 l2 : List α) (h : l1.length = k1.length) :
    Spec.select (k1 ++ k2) (l1 ++ l2) = Spec.select k1 l1 ++ Spec.select k2 l2 := by
  unfold Spec.select
  rw [List.zip_append h, List.filterMap_append]

theorem pruneLoop_spec (alive : List Bool) : ∀ (fs tail : List TreeNode),
    fs.length = alive.length →
    pruneLoop alive (fs ++ tail) = .ok (Spec.select alive fs ++ tail) := by
  induction alive using List.reverseRecOn with
  | nil =>
    intro fs tail h
    have : fs = [] := List.length_eq_zero_iff.1 h
    subst this; rfl
  | append_singleton as a ih =>
    intro fs tail h
    have hne : fs ≠ [] := by rintro rfl; simp at h
    obtain ⟨gs, f, rfl⟩ : ∃ gs f, fs = gs ++ [f] :=
      ⟨fs.dropLast, fs.getLast hne, (List.dropLast_append_getLast hne).symm⟩
    have hg : gs.length = as.length := by simpa using h
    unfold pruneLoop at ih ⊢
    rw [List.zipIdx_append, List.reverse_append]
    simp only [List.zipIdx_cons, List.zipIdx_nil, List.reverse_cons, List.reverse_nil,
      List.nil_append, List.cons_append, foldE_cons, Nat.zero_add]
    rw [select_append _ _ _ _ hg]
    cases a with
    | true =>
      simp only [if_true, ok_bind]
      rw [List.append_assoc, ih gs _ hg]
      simp [Spec.select]
    | false =>
      have hr : vecRemove (gs ++ [f] ++ tail) as.length = .ok (gs ++ tail) := by
        unfold vecRemove
        rw [if_pos (by simp; omega), ← hg]
        congr 1
        rw [List.append_assoc, List.eraseIdx_append_of_length_le (by omega)]
        simp
      simp only [Bool.false_eq_true, if_false]
      rw [hr, ok_bind, ih gs _ hg]
      simp [Spec.select]

theorem treePrune_spec (kc : KeyCollection P) (alive : List Bool) :
    kc.treePrune alive = if alive.length = kc.frontier.length
      then .ok { kc with frontier := Spec.select alive kc.frontier } else .error .assertion := by
  unfold KeyCollection.treePrune
  by_cases h : alive.length = kc.frontier.length
  · rw [if_pos h]
    have := pruneLoop_spec alive kc.frontier [] h.symm
    rw [List.append_nil, List.append_nil] at this
    simp [h, this]
  · rw [if_neg h, beq_eq_false_iff_ne.2 h]
    rfl

/-! ### Paths in lexicographic order -/

theorem pathLt_irrefl (a : List Bool) : ¬ Spec.PathLt a a := by
  intro h
  unfold Spec.PathLt at h
  generalize hb : a = b at h
  have h' : List.Lex (fun x y => x = false ∧ y = true) a b := by rwa [hb]
  clear h
  induction h' with
  | nil => cases hb
  | rel h => cases hb; simp at h
  | cons h ih => exact ih (by injection hb)

theorem pathLt_snoc {a b : List Bool} (h : Spec.PathLt a b) (hl : a.length = b.length) (x y : Bool) :
    Spec.PathLt (a ++ [x]) (b ++ [y]) := by
  unfold Spec.PathLt at h ⊢
  induction h with
  | nil => simp at hl
  | rel h => exact List.Lex.rel h
  | cons h ih => exact List.Lex.cons (ih (by simpa using hl))

theorem pathLt_children (a : List Bool) : Spec.PathLt (a ++ [false]) (a ++ [true]) := by
  unfold Spec.PathLt
  induction a with
  | nil => exact List.Lex.rel ⟨rfl, rfl⟩
  | cons x a ih => exact List.Lex.cons ih

theorem pathLt_trans {a b c : List Bool} (h1 : Spec.PathLt a b) (h2 : Spec.PathLt b c) :
    Spec.PathLt a c := by
  unfold Spec.PathLt at *
  induction h1 generalizing c with
  | nil => cases h2 <;> exact List.Lex.nil
  | rel h =>
    cases h2 with
    | rel h' => rw [h.2] at h'; simp at h'
    | cons _ => exact List.Lex.rel h
  | cons h ih =>
    cases h2 with
    | rel h' => exact List.Lex.rel h'
    | cons h' => exact List.Lex.cons (ih h')

/-- Two increasing lists with the same elements are equal. -/
theorem pathLt_sorted_unique {l1 l2 : List (List Bool)} (h1 : l1.Pairwise Spec.PathLt)
    (h2 : l2.Pairwise Spec.PathLt) (h : ∀ x, x ∈ l1 ↔ x ∈ l2) : l1 = l2 := by
  have nd : ∀ {l : List (List Bool)}, l.Pairwise Spec.PathLt → l.Nodup := fun h =>
    h.imp (fun {a b} hab (e : a = b) => pathLt_irrefl a (by rw [e] at hab ⊢; exact hab))
  have hp : l1.Perm l2 := (List.perm_ext_iff_of_nodup (nd h1) (nd h2)).2 h
  refine hp.eq_of_pairwise ?_ h1 h2
  intro a b _ _ hab hba
  exact absurd (pathLt_trans hab hba) (pathLt_irrefl a)

theorem children_pairwise {ps : List (List Bool)} {d : Nat} (hl : ∀ p ∈ ps, p.length = d)
    (h : ps.Pairwise Spec.PathLt) :
    (ps.flatMap fun p => [p ++ [false], p ++ [true]]).Pairwise Spec.PathLt := by
  induction ps with
  | nil => exact List.Pairwise.nil
  | cons p ps ih =>
    rw [List.pairwise_cons] at h
    simp only [List.flatMap_cons, List.cons_append, List.nil_append]
    rw [List.pairwise_cons, List.pairwise_cons]
    have key : ∀ x, ∀ q ∈ (ps.flatMap fun p => [p ++ [false], p ++ [true]]),
        Spec.PathLt (p ++ [x]) q := by
      intro x q hq
      rw [List.mem_flatMap] at hq
      obtain ⟨p', hp', hq⟩ := hq
      have hlt := h.1 p' hp'
      have hll : p.length = p'.length := by rw [hl p (by simp), hl p' (by simp [hp'])]
      simp only [List.mem_cons, List.not_mem_nil, or_false] at hq
      rcases hq with rfl | rfl <;> exact pathLt_snoc hlt hll _ _
    refine ⟨?_, key true, ih (fun p hp => hl p (by simp [hp])) h.2⟩
    intro q hq
    rcases List.mem_cons.1 hq with rfl | hq
    · exact pathLt_children p
    · exact key false q hq

/-! ### Child nodes -/

theorem unwrapVidpfKey_eq_ok {r : ReportShare} {k : VidpfKey} :
    r.unwrapVidpfKey = .ok k ↔ Spec.keyOf r = some k := by
  cases r <;> simp [ReportShare.unwrapVidpfKey, Spec.keyOf]

theorem pathString_snoc (p : List Bool) (b : Bool) :
    Spec.pathString (p ++ [b]) = bitsToBitstring p ++ [bitByte b] := by
  rw [pathString_eq, bitsToBitstring_eq_map, bitsToBitstring_eq_map, List.map_append]; rfl

/-- What a successful `make_tree_node` did for every report. -/
theorem makeTreeNode_ok {kc : KeyCollection P} {parent node : TreeNode} {dir : Bool}
    (h : kc.makeTreeNode parent dir = .ok node) :
    node.path = parent.path ++ [dir] ∧
    node.keyStates.length = kc.reportShares.length ∧
    node.keyValues.length = kc.reportShares.length ∧
    node.value = sumIncluded kc.inputLen node.keyValues kc.reportShares ∧
    ∀ (i : Nat) (b : Bool) (r : ReportShare), kc.reportShares[i]? = some (b, r) → ∃ key st st' v, Spec.keyOf r = some key ∧
      parent.keyStates[i]? = some st ∧
      key.evalBit P st dir (Spec.pathString (parent.path ++ [dir])) kc.inputLen = .ok (st', v) ∧
      node.keyStates[i]? = some st' ∧ node.keyValues[i]? = some v := by
  unfold KeyCollection.makeTreeNode at h
  obtain ⟨evs, he, h⟩ := bind_eq_ok.1 h
  cases h
  rw [mapE_eq_ok_iff_getElem] at he
  obtain ⟨hl, he⟩ := he
  simp only [List.length_zipIdx] at hl
  refine ⟨rfl, by simp [hl], by simp [hl], rfl, ?_⟩
  intro i b r hr
  obtain ⟨⟨st', v⟩, hb, hf⟩ := he i ((b, r), i) (by rw [zipIdx_getElem?, hr]; rfl)
  unfold KeyCollection.evalClient at hf
  obtain ⟨key, hk, hf⟩ := bind_eq_ok.1 hf
  obtain ⟨st, hst, hf⟩ := bind_eq_ok.1 hf
  refine ⟨key, st, st', v, unwrapVidpfKey_eq_ok.1 hk, idx_eq_ok.1 hst, ?_, ?_, ?_⟩
  · rw [pathString_snoc]; exact hf
  · simp [hb]
  · simp [hb]

/-- `make_tree_node` succeeds when every report can be evaluated. -/
theorem makeTreeNode_returns {kc : KeyCollection P} {parent : TreeNode} {dir : Bool}
    (h : ∀ (i : Nat) (b : Bool) (r : ReportShare), kc.reportShares[i]? = some (b, r) → ∃ key st, Spec.keyOf r = some key ∧
      parent.keyStates[i]? = some st ∧
      Returns (key.evalBit P st dir (Spec.pathString (parent.path ++ [dir])) kc.inputLen)) :
    Returns (kc.makeTreeNode parent dir) := by
  unfold KeyCollection.makeTreeNode
  have : Returns (mapE (kc.evalClient parent dir (bitsToBitstring parent.path ++ [bitByte dir]))
      kc.reportShares.zipIdx) := by
    rw [mapE_returns_iff]
    rintro ⟨⟨b, r⟩, i⟩ hm
    rw [List.mem_iff_getElem?] at hm
    obtain ⟨j, hj⟩ := hm
    rw [zipIdx_getElem?] at hj
    obtain ⟨⟨b', r'⟩, hr, he⟩ := Option.map_eq_some_iff.1 hj
    cases he
    obtain ⟨key, st, hk, hst, x, hx⟩ := h _ _ _ hr
    refine ⟨x, ?_⟩
    unfold KeyCollection.evalClient
    rw [unwrapVidpfKey_eq_ok.2 hk, ok_bind, idx_eq_ok.2 hst, ok_bind, ← pathString_snoc, hx]
  obtain ⟨evs, he⟩ := this
  exact ⟨_, by dsimp only; rw [he]; rfl⟩

theorem makeTreeNode_length_le {kc : KeyCollection P} {parent node : TreeNode} {dir : Bool}
    (h : kc.makeTreeNode parent dir = .ok node) :
    kc.reportShares.length ≤ parent.keyStates.length := by
  obtain ⟨-, -, -, -, he⟩ := makeTreeNode_ok h
  by_contra hc
  have hlt : parent.keyStates.length < kc.reportShares.length := by omega
  obtain ⟨key, st, st', v, -, hst, -⟩ := he parent.keyStates.length _ _
    (List.getElem?_eq_getElem hlt)
  rw [List.getElem?_eq_none le_rfl] at hst
  cases hst

theorem makeTreeNode_exact {kc : KeyCollection P} {parent node : TreeNode} {dir : Bool} {m : Nat}
    (hp : Spec.NodeExact P kc.inputLen ((kc.reportShares.map Prod.snd).take m) parent)
    (h : kc.makeTreeNode parent dir = .ok node) :
    Spec.NodeExact P kc.inputLen (kc.reportShares.map Prod.snd) node := by
  have hle := makeTreeNode_length_le h
  obtain ⟨hpath, hs, hv, -, he⟩ := makeTreeNode_ok h
  refine ⟨by simpa using hs, by simpa using hv, ?_⟩
  intro i r hr
  rw [List.getElem?_map] at hr
  obtain ⟨⟨b, r'⟩, hr', rfl⟩ := Option.map_eq_some_iff.1 hr
  obtain ⟨key, st, st', v, hk, hst, hev, h1, h2⟩ := he i b r' hr'
  have hlm : parent.keyStates.length ≤ m := by rw [hp.1]; simp [List.length_take]
  have hi : i < m := by
    have := (List.getElem?_eq_some_iff.1 hst).1
    omega
  obtain ⟨key', st0, w, hk', hep, hst0, -⟩ := hp.2.2 i r' (by
    rw [List.getElem?_take_of_lt hi, List.getElem?_map, hr']; rfl)
  rw [hk] at hk'; cases hk'
  rw [hst] at hst0; cases hst0
  refine ⟨key, st', some v, hk, ?_, h1, by simpa using h2⟩
  rw [hpath, evalPath_snoc, hep, ok_bind, hev]
  rfl

theorem children_ok {kc : KeyCollection P} {chk : Bool} {node : TreeNode} {cs : List TreeNode}
    (h : kc.children chk node = .ok cs) :
    ∃ c0 c1, cs = [c0, c1] ∧ kc.makeTreeNode node false = .ok c0 ∧
      kc.makeTreeNode node true = .ok c1 := by
  unfold KeyCollection.children at h
  cases chk with
  | false =>
    simp only [Bool.false_eq_true, if_false, bind_eq_ok] at h
    obtain ⟨c0, h0, c1, h1, h⟩ := h
    cases h
    exact ⟨c0, c1, rfl, h0, h1⟩
  | true =>
    simp only [if_true, bind_eq_ok] at h
    obtain ⟨_, -, _, -, c0, h0, c1, h1, h⟩ := h
    cases h
    exact ⟨c0, c1, rfl, h0, h1⟩

/-- The next frontier is the list of the children of the frontier nodes. -/
theorem nextFrontier_ok {kc : KeyCollection P} {chk : Bool} {next : List TreeNode}
    (h : kc.nextFrontier chk = .ok next) :
    ∃ cs : List (TreeNode × TreeNode), next = cs.flatMap (fun c => [c.1, c.2]) ∧
      List.Forall₂ (fun node c => kc.makeTreeNode node false = .ok c.1 ∧
        kc.makeTreeNode node true = .ok c.2) kc.frontier cs := by
  unfold KeyCollection.nextFrontier at h
  obtain ⟨css, hc, h⟩ := bind_eq_ok.1 h
  cases h
  rw [mapE_eq_ok] at hc
  clear h
  generalize kc.frontier = fr at hc
  induction hc with
  | nil => exact ⟨[], rfl, List.Forall₂.nil⟩
  | cons hx _ ih =>
    obtain ⟨c0, c1, rfl, h0, h1⟩ := children_ok hx
    obtain ⟨cs, hcs, hf⟩ := ih
    exact ⟨(c0, c1) :: cs, by simp [hcs], List.Forall₂.cons ⟨h0, h1⟩ hf⟩

theorem nextFrontier_paths {kc : KeyCollection P} {chk : Bool} {next : List TreeNode}
    (h : kc.nextFrontier chk = .ok next) :
    next.map TreeNode.path
      = (kc.frontier.map TreeNode.path).flatMap fun p => [p ++ [false], p ++ [true]] := by
  obtain ⟨cs, rfl, hf⟩ := nextFrontier_ok h
  clear h
  generalize kc.frontier = fr at hf
  induction hf with
  | nil => rfl
  | cons hx _ ih =>
    simp only [List.flatMap_cons, List.map_append, List.map_cons, List.map_nil, ih]
    rw [(makeTreeNode_ok hx.1).1, (makeTreeNode_ok hx.2).1]

theorem nextFrontier_length {kc : KeyCollection P} {chk : Bool} {next : List TreeNode}
    (h : kc.nextFrontier chk = .ok next) : next.length = 2 * kc.frontier.length := by
  have := congrArg List.length (nextFrontier_paths h)
  rw [List.length_map, List.length_flatMap] at this
  rw [this]
  simp [Function.comp_def, mul_comm]

theorem nextFrontier_mem {kc : KeyCollection P} {chk : Bool} {next : List TreeNode}
    (h : kc.nextFrontier chk = .ok next) {c : TreeNode} (hc : c ∈ next) :
    ∃ node ∈ kc.frontier, ∃ dir, kc.makeTreeNode node dir = .ok c := by
  obtain ⟨cs, rfl, hf⟩ := nextFrontier_ok h
  clear h
  generalize kc.frontier = fr at hf
  induction hf with
  | nil => simp at hc
  | cons hx _ ih =>
    simp only [List.flatMap_cons, List.mem_append, List.mem_cons, List.not_mem_nil, or_false] at hc
    rcases hc with (rfl | rfl) | hc
    · exact ⟨_, by simp, false, hx.1⟩
    · exact ⟨_, by simp, true, hx.2⟩
    · obtain ⟨node, hn, dir, hd⟩ := ih hc
      exact ⟨node, by simp [hn], dir, hd⟩

theorem nextFrontier_exact {kc : KeyCollection P} {chk : Bool} {next : List TreeNode} {m : Nat}
    (hf : Spec.FrontierExact P kc.inputLen ((kc.reportShares.map Prod.snd).take m) kc.frontier)
    (h : kc.nextFrontier chk = .ok next) :
    Spec.FrontierExact P kc.inputLen (kc.reportShares.map Prod.snd) next := by
  obtain ⟨h1, ⟨d, h2⟩, h3⟩ := hf
  refine ⟨?_, ⟨d + 1, ?_⟩, ?_⟩
  · intro node hn
    obtain ⟨parent, hp, dir, hd⟩ := nextFrontier_mem h hn
    exact makeTreeNode_exact (h1 parent hp) hd
  · intro node hn
    obtain ⟨parent, hp, dir, hd⟩ := nextFrontier_mem h hn
    rw [(makeTreeNode_ok hd).1]; simp [h2 parent hp]
  · rw [nextFrontier_paths h]
    refine children_pairwise (d := d) ?_ h3
    intro p hp
    obtain ⟨node, hn, rfl⟩ := List.mem_map.1 hp
    exact h2 node hn

end Mastic
