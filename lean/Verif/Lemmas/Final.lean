import Verif.Spec.Final
import Verif.Lemmas.Engine
import Verif.Lemmas.Whh

/-!
# Helper lemmas: the last level
-/

namespace Mastic

variable {P : Prims}

/-! ### Keys that agree above a level -/

theorem evalBit_same {l : Nat} {k k' : VidpfKey} (h : Spec.SameAbove l k k') {st : EvalState}
    (hl : st.level < l) (dir : Bool) (bs : List Byte) (n : Nat) :
    k'.evalBit P st dir bs n = k.evalBit P st dir bs n := by
  obtain ⟨h1, h2, h3, h4, h5⟩ := h
  obtain ⟨hw, hc⟩ := h5 _ hl
  unfold VidpfKey.evalBit VidpfKey.correctSeed VidpfKey.correctWord VidpfKey.correctHash idx
  rw [hw, hc, h1]

theorem evalPath_same {l : Nat} {k k' : VidpfKey} (h : Spec.SameAbove l k k') (n : Nat) (p : List Bool) :
    p.length ≤ l → Spec.evalPath P k' n p = Spec.evalPath P k n p := by
  induction p using List.reverseRecOn with
  | nil =>
    intro _
    obtain ⟨h1, h2, -⟩ := h
    unfold Spec.evalPath Spec.walk VidpfKey.evalInit
    rw [h1, h2]
  | append_singleton p b ih =>
    intro hl
    rw [List.length_append, List.length_singleton] at hl
    rw [evalPath_snoc, evalPath_snoc, ih (by omega)]
    cases hp : Spec.evalPath P k n p with
    | error e => rfl
    | ok r =>
      obtain ⟨st, w⟩ := r
      simp only [ok_bind]
      rw [evalBit_same h (by rw [evalPath_level hp]; omega)]

theorem valueAt_same {l : Nat} {k k' : VidpfKey} (h : Spec.SameAbove l k k') (n : Nat) {p : List Bool}
    (hl : p.length ≤ l) : Spec.valueAt P k' n p = Spec.valueAt P k n p := by
  unfold Spec.valueAt; rw [evalPath_same h n p hl]

theorem proofAt_same {l : Nat} {k k' : VidpfKey} (h : Spec.SameAbove l k k') (n : Nat) {p : List Bool}
    (hl : p.length ≤ l) : Spec.proofAt P k' n p = Spec.proofAt P k n p := by
  unfold Spec.proofAt; rw [evalPath_same h n p hl]

theorem digestAt_same {l : Nat} {k k' : VidpfKey} (h : Spec.SameAbove l k k') (n : Nat) (first : Bool)
    {paths : List (List Bool)} (hl : ∀ p ∈ paths, p.length + 1 ≤ l) :
    Spec.digestAt P n first paths k' = Spec.digestAt P n first paths k := by
  have e1 : Spec.proofsAt P n k' paths = Spec.proofsAt P n k paths := by
    unfold Spec.proofsAt
    congr 1
    refine List.flatMap_congr fun p hp => ?_
    rw [proofAt_same h n (by simpa using hl p hp), proofAt_same h n (by simpa using hl p hp)]
  have e2 : paths.flatMap (Spec.prefixCheck P n first k') = paths.flatMap (Spec.prefixCheck P n first k) := by
    refine List.flatMap_congr fun p hp => ?_
    have hp' := hl p hp
    unfold Spec.prefixCheck
    dsimp only
    rw [valueAt_same h n (p := p) (by omega), valueAt_same h n (p := p ++ [false]) (by simpa using hp'),
      valueAt_same h n (p := p ++ [true]) (by simpa using hp'),
      valueAt_same h n (p := [false]) (by rw [List.length_singleton]; omega),
      valueAt_same h n (p := [true]) (by rw [List.length_singleton]; omega)]
  unfold Spec.digestAt
  rw [e1, e2]

theorem quietInner_same {n d : Nat} {k0 k1 k0' k1' : VidpfKey} (h0 : Spec.SameAbove (d - 1) k0 k0')
    (h1 : Spec.SameAbove (d - 1) k1 k1') (hq : Spec.QuietInner P n d k0 k1) :
    Spec.QuietInner P n d k0' k1' := by
  intro m paths hm hnd hl
  have hl' : ∀ p ∈ paths, p.length + 1 ≤ d - 1 := fun p hp => by rw [hl p hp]; omega
  rw [digestAt_same h0 n true hl', digestAt_same h1 n false hl']
  exact hq m paths hm hnd hl

theorem sameShare_key {l : Nat} {s s' : ReportShare} (h : Spec.SameShare l s s') :
    ∃ k k', Spec.keyOf s = some k ∧ Spec.keyOf s' = some k' ∧ Spec.SameAbove l k k' := by
  match s, s', h with
  | .mastic .., .mastic .., h => exact ⟨_, _, rfl, rfl, h.2.2.2⟩

theorem verifierOf_same {l : Nat} {s s' : ReportShare} (h : Spec.SameShare l s s') (hl : 1 ≤ l)
    (n : Nat) (id : Int) (vk : Block) : Spec.verifierOf P n id vk s' = Spec.verifierOf P n id vk s := by
  match s, s', h with
  | .mastic .., .mastic .., ⟨rfl, rfl, rfl, h⟩ =>
    simp only [Spec.verifierOf]
    rw [valueAt_same h n (by simpa using hl), valueAt_same h n (by simpa using hl), h.2.1]

theorem wellFormed_same {l d : Nat} {s s' : ReportShare} (h : Spec.SameShare l s s')
    (hw : Spec.WellFormed d s) : Spec.WellFormed d s' := by
  obtain ⟨k, k', e, e', hs⟩ := sameShare_key h
  obtain ⟨key, g1, g2, g3⟩ := hw
  rw [e] at g1
  cases g1
  exact ⟨k', e', by rw [hs.2.2.1, hs.2.2.2.1]; exact g2, by rw [hs.2.2.1]; exact g3⟩

theorem sameReports_masked {l : Nat} {r r' : List (Bool × ReportShare)} (h : Spec.SameReports l r r')
    (keep : List Bool) : Spec.SameReports l (Spec.masked r keep) (Spec.masked r' keep) := by
  induction h generalizing keep with
  | nil => cases keep <;> exact .nil
  | @cons a b as bs hab _ ih =>
    cases keep with
    | nil => exact .nil
    | cons x keep =>
      refine .cons ⟨?_, hab.2⟩ (ih keep)
      dsimp only
      rw [hab.1]

theorem sameReports_flags {l : Nat} {r r' : List (Bool × ReportShare)} (h : Spec.SameReports l r r') :
    r'.map Prod.fst = r.map Prod.fst := by
  induction h with
  | nil => rfl
  | cons hab _ ih => simp [ih, hab.1]

theorem sameReports_get {l : Nat} {r r' : List (Bool × ReportShare)} (h : Spec.SameReports l r r')
    {i : Nat} {b : Bool} {s' : ReportShare} (hi : r'[i]? = some (b, s')) :
    ∃ s, r[i]? = some (b, s) ∧ Spec.SameShare l s s' := by
  induction h generalizing i with
  | nil => simp at hi
  | @cons x y as bs hab _ ih =>
    cases i with
    | zero =>
      simp only [List.getElem?_cons_zero, Option.some.injEq] at hi ⊢
      obtain ⟨x1, x2⟩ := x
      subst hi
      obtain ⟨h1, h2⟩ := hab
      dsimp only at h1
      subst h1
      exact ⟨x2, rfl, h2⟩
    | succ i => exact ih (by simpa using hi)

theorem sameReports_pairs {l : Nat} {r0 r1 r0' r1' : List (Bool × ReportShare)}
    (h0 : Spec.SameReports l r0 r0') (h1 : Spec.SameReports l r1 r1') :
    List.Forall₂ (fun a b : VidpfKey × VidpfKey => Spec.SameAbove l a.1 b.1 ∧ Spec.SameAbove l a.2 b.2)
      (Spec.keyPairs r0 r1) (Spec.keyPairs r0' r1') := by
  unfold Spec.keyPairs
  induction h0 generalizing r1 r1' with
  | nil => simp
  | @cons a b as bs hab _ ih =>
    cases h1 with
    | nil => simp
    | @cons c e cs es hce h1 =>
      have ih' := ih h1
      obtain ⟨a1, a2⟩ := a
      obtain ⟨b1, b2⟩ := b
      obtain ⟨hf, hs⟩ := hab
      dsimp only at hf hs
      subst hf
      obtain ⟨ka, ka', ea, ea', sa⟩ := sameShare_key hs
      obtain ⟨kc, kc', ec, ec', sc⟩ := sameShare_key hce.2
      simp only [List.zip_cons_cons]
      cases a1 with
      | false => simpa using ih'
      | true =>
        rw [List.filterMap_cons_some (b := (ka, kc)) (by simp [ea, ec]),
          List.filterMap_cons_some (b := (ka', kc')) (by simp [ea', ec'])]
        exact .cons ⟨sa, sc⟩ ih'

theorem tally_same {l n : Nat} {X Y : List (VidpfKey × VidpfKey)}
    (h : List.Forall₂ (fun a b : VidpfKey × VidpfKey => Spec.SameAbove l a.1 b.1 ∧ Spec.SameAbove l a.2 b.2)
      X Y) {p : List Bool} (hp : p.length ≤ l) : Spec.tally P n Y p = Spec.tally P n X p := by
  unfold Spec.tally
  congr 1
  induction h with
  | nil => rfl
  | cons hab _ ih =>
    rw [List.map_cons, List.map_cons, ih]
    congr 2
    unfold Spec.reconAt
    rw [valueAt_same hab.1 n hp, valueAt_same hab.2 n hp]

/-! ### What the servers hold after the last crawl -/

/-- After a last crawl from a frontier that is exact for some prefix of the reports, the proof list has one
entry per included report: the XOR of its proofs at the new nodes. -/
theorem treeCrawlLast_proofs {kc kc' : KeyCollection P} {v : List (List Field128)} {m : Nat}
    (hx : ∀ node ∈ kc.frontier, Spec.NodeExact P kc.inputLen ((kc.reportShares.map Prod.snd).take m) node)
    (h : kc.treeCrawlLast = .ok (kc', v)) :
    kc'.finalProofs.length = (Spec.included kc.reportShares).length ∧
    ∀ (j : Nat) (ir : Nat × ReportShare) (key : VidpfKey), (Spec.included kc.reportShares)[j]? = some ir →
      Spec.keyOf ir.2 = some key →
      kc'.finalProofs[j]? = some (Spec.proofsAt P kc.inputLen key (kc.frontier.map TreeNode.path)) := by
  obtain ⟨nx, proofs, hn, hp, rfl, -⟩ := treeCrawlLast_ok h
  dsimp only
  have hxn : ∀ node ∈ nx, Spec.NodeExact P kc.inputLen (kc.reportShares.map Prod.snd) node := by
    intro node hnode
    obtain ⟨parent, hpar, dir, hd⟩ := nextFrontier_mem hn hnode
    exact makeTreeNode_exact (hx parent hpar) hd
  have hpaths := nextFrontier_paths hn
  rw [includedIndices_eq] at hp
  refine ⟨by simpa using mapE_length hp, ?_⟩
  intro j ir key hj hkey
  have hr := mem_included (List.mem_of_getElem? hj)
  have hj' : ((Spec.included kc.reportShares).map Prod.fst)[j]? = some ir.1 := by simp [hj]
  obtain ⟨-, hget⟩ := mapE_eq_ok_iff_getElem.1 hp
  have hil : ir.1 < (kc.reportShares.map Prod.snd).length := by
    simpa using (List.getElem?_eq_some_iff.1 hr).1
  have hcp := combineProofs_eq hil fun node hnode => (hxn node hnode).1
  have hval : proofs[j]? = some (xorAll (nx.map fun node => prfOf node ir.1)) := by
    obtain ⟨b, hb, hf⟩ := hget j _ hj'
    rw [hcp] at hf
    cases hf
    exact hb
  rw [hval]
  congr 1
  unfold Spec.proofsAt Spec.xorBlocks xorAll
  congr 1
  have e : ∀ node ∈ nx, prfOf node ir.1 = (Spec.proofAt P key kc.inputLen node.path).getD Block.zero := by
    intro node hnode
    rw [(exact_at (i := ir.1) (hxn node hnode) (by simp [hr]) hkey).1]; rfl
  have e2 : nx.map (fun node => prfOf node ir.1)
      = (nx.map TreeNode.path).map fun p => (Spec.proofAt P key kc.inputLen p).getD Block.zero := by
    rw [List.map_map]
    exact List.map_congr_left e
  rw [e2, hpaths, List.map_flatMap]
  rfl

/-- A successful comparison of a range both proof lists reach means that the proofs agree there. -/
theorem compareProofs_ok {c0 c1 : ServerCfg} {kcs : Pair2 P} {range : Nat × Nat}
    (h : compareProofs c0 c1 kcs range = .ok ()) (h0 : range.2 ≤ kcs.1.finalProofs.length)
    (h1 : range.2 ≤ kcs.2.finalProofs.length) {j : Nat} (hj0 : range.1 ≤ j) (hj1 : j < range.2) :
    kcs.1.finalProofs[j]? = kcs.2.finalProofs[j]? := by
  unfold compareProofs KeyCollection.getProofs at h
  obtain ⟨-, -, h⟩ := bind_eq_ok.1 h
  obtain ⟨-, -, h⟩ := bind_eq_ok.1 h
  rw [if_pos ⟨by omega, h0⟩, if_pos ⟨by omega, h1⟩] at h
  obtain ⟨-, -, h⟩ := bind_eq_ok.1 h
  have h := assertE_eq_ok.1 h
  rw [List.all_eq_true] at h
  have e0 : kcs.1.finalProofs[j]? = some kcs.1.finalProofs[j] := List.getElem?_eq_getElem (by omega)
  have e1 : kcs.2.finalProofs[j]? = some kcs.2.finalProofs[j] := List.getElem?_eq_getElem (by omega)
  have hm : (kcs.1.finalProofs[j], kcs.2.finalProofs[j]) ∈
      ((kcs.1.finalProofs.drop range.1).take (range.2 - range.1)).zip
        ((kcs.2.finalProofs.drop range.1).take (range.2 - range.1)) := by
    refine List.mem_of_getElem? (i := j - range.1) ?_
    rw [List.getElem?_zip_eq_some]
    constructor
    · rw [List.getElem?_take_of_lt (by omega), List.getElem?_drop, Nat.add_sub_cancel' hj0]; exact e0
    · rw [List.getElem?_take_of_lt (by omega), List.getElem?_drop, Nat.add_sub_cancel' hj0]; exact e1
  have := h _ hm
  rw [e0, e1, show kcs.1.finalProofs[j] = kcs.2.finalProofs[j] from beq_iff_eq.1 this]

end Mastic

namespace Mastic

variable {P : Prims}

theorem runLevelLast_reports {c0 c1 : ServerCfg} {cfg : Config} {kcs : Pair2 P} {n : Nat} {out : WhhOut P}
    (h : runLevelLast c0 c1 cfg kcs n = .ok out) :
    out.kcs.1.reportShares = kcs.1.reportShares ∧ out.kcs.2.reportShares = kcs.2.reportShares := by
  unfold runLevelLast at h
  obtain ⟨⟨k0, v0⟩, h0, h⟩ := bind_eq_ok.1 h
  dsimp only at h
  obtain ⟨⟨k1, v1⟩, h1, h⟩ := bind_eq_ok.1 h
  dsimp only at h
  obtain ⟨-, -, h⟩ := bind_eq_ok.1 h
  obtain ⟨keep, -, h⟩ := bind_eq_ok.1 h
  obtain ⟨rs, -, h⟩ := bind_eq_ok.1 h
  obtain ⟨us, -, h⟩ := bind_eq_ok.1 h
  obtain ⟨kk, hp, h⟩ := bind_eq_ok.1 h
  obtain ⟨-, -, h⟩ := bind_eq_ok.1 h
  obtain ⟨res, -, h⟩ := bind_eq_ok.1 h
  obtain ⟨pr, -, h⟩ := bind_eq_ok.1 h
  cases h
  obtain ⟨_, _, -, -, rfl, -⟩ := treeCrawlLast_ok h0
  obtain ⟨_, _, -, -, rfl, -⟩ := treeCrawlLast_ok h1
  unfold pruneBoth at hp
  obtain ⟨p0, g0, hp⟩ := bind_eq_ok.1 hp
  obtain ⟨p1, g1, hp⟩ := bind_eq_ok.1 hp
  cases hp
  rw [treePrune_spec] at g0 g1
  split at g0
  · split at g1
    · cases g0; cases g1; exact ⟨rfl, rfl⟩
    · cases g1
  · cases g0

end Mastic
