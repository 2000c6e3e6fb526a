import Verif.Spec.Attack
import Verif.Lemmas.ExRel
import Verif.Lemmas.Sim
import Verif.Lemmas.Vidpf

/-!
# Helper lemmas: a server that holds twin reports answers the same checks
-/

namespace Mastic

variable {P : Prims}

/-- Values of twin keys at a path of length `d`. -/
def ValTwin (B : Nat → Nat → Prop) (d : Nat) (v v' : List Field128) : Prop :=
  v.length = v'.length ∧ (d = 0 → v = v') ∧ (1 ≤ d → ∀ i, B (d - 1) i → v[i]? = v'[i]?)

theorem ValTwin.all {B : Nat → Nat → Prop} {d : Nat} {v v' : List Field128} (h : ValTwin B d v v')
    (hB : 1 ≤ d → ∀ i, B (d - 1) i) : v = v' := by
  by_cases hd : d = 0
  · exact h.2.1 hd
  · exact List.ext_getElem? fun i => h.2.2 (by omega) i (hB (by omega) i)

theorem evalBit_twin {B : Nat → Nat → Prop} {k k' : VidpfKey} (h : Spec.Twin B k k')
    (st : EvalState) (dir : Bool) (bs : List Byte) (n : Nat) :
    ExRel (fun x y => x.1 = y.1 ∧ x.1.level = st.level + 1 ∧ ValTwin B (st.level + 1) x.2 y.2)
      (k.evalBit P st dir bs n) (k'.evalBit P st dir bs n) := by
  unfold VidpfKey.evalBit
  refine ExRel.bind (R := Eq) ?_ ?_
  · unfold VidpfKey.correctSeed
    split
    · refine (ExRel.idx h.skeleton st.level).bind ?_
      rintro c c' ⟨h1, h2⟩
      rw [h1, h2]; exact rfl
    · exact rfl
  · rintro ⟨seed, nb⟩ _ rfl
    dsimp only
    refine ExRel.bind (R := fun w w' => w.length = w'.length ∧ ∀ i, B st.level i → w[i]? = w'[i]?) ?_ ?_
    · unfold VidpfKey.correctWord
      split
      · rcases forall₂_getElem? h.skeleton st.level with ⟨h1, h2⟩ | ⟨c, c', h1, h2, -⟩
        · unfold idx; rw [h1, h2]; exact rfl
        · unfold idx; rw [h1, h2]
          refine ⟨by simp, fun i hi => ?_⟩
          rw [vecAdd_getElem?, vecAdd_getElem?, h.payload _ _ _ h1 h2 i hi]
      · exact ⟨rfl, fun _ _ => rfl⟩
    · rintro w w' ⟨hl, hw⟩
      rw [h.keyIdx]
      refine ExRel.bind (R := Eq) ?_ ?_
      · unfold VidpfKey.correctHash
        rw [h.cs]
        exact ExRel.refl (fun _ => rfl) _
      · rintro hh _ rfl
        refine ⟨rfl, rfl, ?_⟩
        dsimp only
        split
        · refine ⟨by simp [vecNeg, hl], by omega, fun _ i hi => ?_⟩
          simp only [vecNeg, List.getElem?_map]; rw [hw i hi]
        · exact ⟨hl, by omega, fun _ i hi => hw i hi⟩

/-- Twin frontier nodes. -/
structure NodeTwin (B : Nat → Nat → Prop) (a b : TreeNode) : Prop where
  path : a.path = b.path
  states : a.keyStates = b.keyStates
  level : ∀ st ∈ a.keyStates, st.level = a.path.length
  value : ValTwin B a.path.length a.value b.value
  values : List.Forall₂ (ValTwin B a.path.length) a.keyValues b.keyValues

/-- Sums of twin values over the same included clients. -/
theorem sumIncluded_twin_aux {B : Nat → Nat → Prop} {d : Nat} (hd : 1 ≤ d)
    {v v' : List (List Field128)} (h : List.Forall₂ (ValTwin B d) v v') :
    ∀ {a b : List (Bool × ReportShare)} (_ : a.map Prod.fst = b.map Prod.fst) {w w' : List Field128}
      (_ : ValTwin B d w w'),
      ValTwin B d
        (((v.zip a).filter fun vr => vr.2.1).foldl (fun acc vr => vecAdd acc vr.1) w)
        (((v'.zip b).filter fun vr => vr.2.1).foldl (fun acc vr => vecAdd acc vr.1) w') := by
  induction h with
  | nil => intro a b _ w w' hw; simpa using hw
  | cons hx _ ih =>
    intro a b hab w w' hw
    cases a with
    | nil =>
      cases b with
      | nil => simpa using hw
      | cons y b => simp at hab
    | cons x a =>
      cases b with
      | nil => simp at hab
      | cons y b =>
        simp only [List.map_cons, List.cons.injEq] at hab
        simp only [List.zip_cons_cons, List.filter_cons, hab.1]
        split
        · refine ih hab.2 ⟨by simp [hw.1], by omega, fun h1 i hi => ?_⟩
          rw [vecAdd_getElem?, vecAdd_getElem?, hw.2.2 h1 i hi, hx.2.2 h1 i hi]
        · exact ih hab.2 hw

theorem sumIncluded_twin {B : Nat → Nat → Prop} {d : Nat} (hd : 1 ≤ d) (n : Nat)
    {v v' : List (List Field128)} (h : List.Forall₂ (ValTwin B d) v v')
    {a b : List (Bool × ReportShare)} (hf : a.map Prod.fst = b.map Prod.fst) :
    ValTwin B d (sumIncluded n v a) (sumIncluded n v' b) :=
  sumIncluded_twin_aux hd h hf ⟨rfl, fun _ => rfl, fun _ _ _ => rfl⟩

/-- Twin report lists. -/
def ReportsTwin (B : Nat → Nat → Prop) (a b : List (Bool × ReportShare)) : Prop :=
  List.Forall₂ (fun r r' => r.1 = r'.1 ∧ Spec.ReportTwin B r.2 r'.2) a b

/-- Twin server states. -/
structure KcTwin (B : Nat → Nat → Prop) (k k' : KeyCollection P) : Prop where
  inputLen : k.inputLen = k'.inputLen
  serverId : k.serverId = k'.serverId
  verifyKey : k.verifyKey = k'.verifyKey
  depth : k.depth = k'.depth
  reports : ReportsTwin B k.reportShares k'.reportShares
  frontier : List.Forall₂ (NodeTwin B) k.frontier k'.frontier
  uniform : ∃ d, ∀ node ∈ k.frontier, node.path.length = d
  prev : List.Forall₂ (NodeTwin B) k.prevFrontier k'.prevFrontier
  uniformPrev : ∃ d, ∀ node ∈ k.prevFrontier, node.path.length = d
  final : k.finalProofs = k'.finalProofs

theorem unwrapKey_twin {B : Nat → Nat → Prop} {r r' : ReportShare} (h : Spec.ReportTwin B r r') :
    ExRel (Spec.Twin B) r.unwrapVidpfKey r'.unwrapVidpfKey := by
  cases r <;> cases r' <;> simp only [Spec.ReportTwin] at h
  · exact h.2.2.2
  · exact rfl

theorem reports_flags {B : Nat → Nat → Prop} {a b : List (Bool × ReportShare)}
    (h : ReportsTwin B a b) : a.map Prod.fst = b.map Prod.fst :=
  forall₂_map_eq_map h fun _ _ hab => hab.1

theorem included_twin {B : Nat → Nat → Prop} {a b : List (Bool × ReportShare)}
    (h : ReportsTwin B a b) : includedIndices a = includedIndices b := by
  rw [includedIndices_eq_flags, includedIndices_eq_flags, reports_flags h]

theorem makeTreeNode_twin {B : Nat → Nat → Prop} {k k' : KeyCollection P} (h : KcTwin B k k')
    {a b : TreeNode} (hn : NodeTwin B a b) (dir : Bool) :
    ExRel (fun x y => NodeTwin B x y ∧ x.path.length = a.path.length + 1)
      (k.makeTreeNode a dir) (k'.makeTreeNode b dir) := by
  unfold KeyCollection.makeTreeNode
  dsimp only
  rw [← hn.path]
  refine ExRel.bind (ExRel.mapE (R := fun x y => x.1 = y.1 ∧ x.1.level = a.path.length + 1 ∧
    ValTwin B (a.path.length + 1) x.2 y.2) (forall₂_zipIdx h.reports 0) ?_) ?_
  · rintro ⟨r, i⟩ ⟨r', i'⟩ ⟨⟨-, hr⟩, hi⟩
    dsimp only at hi hr
    subst hi
    unfold KeyCollection.evalClient
    refine (unwrapKey_twin hr).bind fun key key' hk => ?_
    rw [← hn.states, ← h.inputLen]
    cases hst : idx a.keyStates i with
    | error p => exact rfl
    | ok st =>
      have hlev := hn.level st (List.mem_of_getElem? (idx_eq_ok.1 hst))
      have := evalBit_twin (P := P) hk st dir (bitsToBitstring a.path ++ [bitByte dir]) k.inputLen
      rw [hlev] at this
      exact this
  · intro evs evs' hev
    refine ⟨⟨rfl, ?_, ?_, ?_, ?_⟩, by simp⟩
    · exact forall₂_map_eq_map hev fun _ _ hx => hx.1
    · intro st hst
      obtain ⟨x, hx, rfl⟩ := List.mem_map.1 hst
      obtain ⟨y, -, hy⟩ : ∃ y, y ∈ evs' ∧ x.1 = y.1 ∧ x.1.level = a.path.length + 1 ∧
          ValTwin B (a.path.length + 1) x.2 y.2 := by
        clear hst
        induction hev with
        | nil => cases hx
        | cons hab _ ih =>
          rcases List.mem_cons.1 hx with rfl | hx
          · exact ⟨_, by simp, hab⟩
          · obtain ⟨y, h1, h2⟩ := ih hx
            exact ⟨y, by simp [h1], h2⟩
      simp [hy.2.1]
    · rw [← h.inputLen]
      refine sumIncluded_twin (by simp) _ ?_ (reports_flags h.reports)
      simp only [List.length_append, List.length_singleton]
      rw [List.forall₂_map_left_iff, List.forall₂_map_right_iff]
      exact hev.imp fun _ _ hx => hx.2.2
    · simp only [List.length_append, List.length_singleton]
      rw [List.forall₂_map_left_iff, List.forall₂_map_right_iff]
      exact hev.imp fun _ _ hx => hx.2.2

theorem children_twin {B : Nat → Nat → Prop} {k k' : KeyCollection P} (h : KcTwin B k k')
    {a b : TreeNode} (hn : NodeTwin B a b) (chk : Bool) :
    ExRel (List.Forall₂ fun x y => NodeTwin B x y ∧ x.path.length = a.path.length + 1)
      (k.children chk a) (k'.children chk b) := by
  unfold KeyCollection.children
  have rest : ExRel (List.Forall₂ fun x y => NodeTwin B x y ∧ x.path.length = a.path.length + 1)
      (do
        let c0 ← k.makeTreeNode a false
        let c1 ← k.makeTreeNode a true
        Except.ok [c0, c1])
      (do
        let c0 ← k'.makeTreeNode b false
        let c1 ← k'.makeTreeNode b true
        Except.ok [c0, c1]) := by
    refine (makeTreeNode_twin h hn false).bind fun x y hxy => ?_
    refine (makeTreeNode_twin h hn true).bind fun x' y' hxy' => ?_
    exact .cons hxy (.cons hxy' .nil)
  rw [← h.depth, ← hn.path]
  cases chk with
  | false => exact rest
  | true =>
    simp only [if_true]
    cases unwrapO k.depth with
    | error p => exact rfl
    | ok d =>
      simp only [ok_bind]
      cases assertE (decide (a.path.length ≤ d)) with
      | error p => exact rfl
      | ok u => exact rest

theorem nextFrontier_twin {B : Nat → Nat → Prop} {k k' : KeyCollection P} (h : KcTwin B k k') (chk : Bool) :
    ExRel (fun x y => List.Forall₂ (NodeTwin B) x y ∧
        ∃ d, ∀ node ∈ x, node.path.length = d)
      (k.nextFrontier chk) (k'.nextFrontier chk) := by
  obtain ⟨d, hd⟩ := h.uniform
  unfold KeyCollection.nextFrontier
  have hfr : List.Forall₂ (fun a b => NodeTwin B a b ∧ a.path.length = d)
      k.frontier k'.frontier := by
    have := h.frontier
    generalize k.frontier = fa at this hd
    generalize k'.frontier = fb at this
    induction this with
    | nil => exact .nil
    | cons hab _ ih => exact .cons ⟨hab, hd _ (by simp)⟩ (ih fun x hx => hd x (by simp [hx]))
  refine (ExRel.mapE (R := List.Forall₂ fun x y => NodeTwin B x y ∧ x.path.length = d + 1)
    hfr ?_).bind ?_
  · rintro a b ⟨hab, hl⟩
    rw [← hl]
    exact children_twin h hab chk
  · intro cs cs' hcs
    have := forall₂_flatten hcs
    refine ⟨this.imp fun _ _ hx => hx.1, d + 1, ?_⟩
    generalize cs.flatten = fa at this
    generalize cs'.flatten = fb at this
    induction this with
    | nil => simp
    | cons hab _ ih =>
      intro node hx
      rcases List.mem_cons.1 hx with rfl | hx
      · exact hab.2
      · exact ih node hx

/-- Twin value checks at level `m`. -/
def CheckTwin (n m : Nat) (c c' : List Field128) : Prop :=
  (m = 0 → c[n]? = c'[n]?) ∧ (m ≠ 0 → ∀ i < n, c[i]? = c'[i]?)

/-- What the checks of a crawl from depth `m` look at is in `B`. -/
def LevelIn (n : Nat) (B : Nat → Nat → Prop) (m : Nat) : Prop :=
  (m = 0 → B 0 n) ∧ (m ≠ 0 → ∀ i < n, B m i ∧ B (m - 1) i)

theorem valueCheck_twin {n : Nat} {B : Nat → Nat → Prop} {m : Nat} (sid : Int) (hm : LevelIn n B m)
    {yp yp' y0 y0' y1 y1' : List Field128} (h : ValTwin B m yp yp')
    (h0 : ValTwin B (m + 1) y0 y0') (h1 : ValTwin B (m + 1) y1 y1') :
    CheckTwin n m (valueCheck n sid m yp y0 y1) (valueCheck n sid m yp' y0' y1') := by
  have a0 := h0.2.2 (by omega)
  have a1 := h1.2.2 (by omega)
  rw [Nat.add_sub_cancel] at a0 a1
  refine ⟨fun hz => ?_, fun hz i hi => ?_⟩
  · have hB := hm.1 hz
    subst hz
    have b0 := a0 n hB
    have b1 := a1 n hB
    unfold valueCheck
    simp only [if_true]
    split <;> simp only [vecSub_getElem?, vecAdd_getElem?, b0, b1]
  · obtain ⟨g1, g2⟩ := hm.2 hz i hi
    have ap := h.2.2 (by omega) i g2
    unfold valueCheck
    simp only [hz, if_false]
    split <;> simp only [vecSub_getElem?, vecAdd_getElem?, a0 i g1, a1 i g1, ap]

theorem checksForPrefix_twin {B : Nat → Nat → Prop} {k k' : KeyCollection P} (h : KcTwin B k k') (bld : Build)
    {m : Nat} (hm : LevelIn k.inputLen B m) {next next' : List TreeNode}
    (hx : List.Forall₂ (NodeTwin B) next next') (hu : ∀ node ∈ next, node.path.length = m + 1)
    {a b : TreeNode} (hab : NodeTwin B a b) (hl : a.path.length = m) (i : Nat) :
    ExRel (List.Forall₂ (CheckTwin k.inputLen m)) (k.checksForPrefix bld m next (a, i))
      (k'.checksForPrefix bld m next' (b, i)) := by
  unfold KeyCollection.checksForPrefix
  have hx' : List.Forall₂ (fun x y => NodeTwin B x y ∧ x.path.length = m + 1) next next' := by
    clear hab
    induction hx with
    | nil => exact .nil
    | cons hab _ ih => exact .cons ⟨hab, hu _ (by simp)⟩ (ih fun x hx => hu x (by simp [hx]))
  refine (ExRel.idx hx' _).bind ?_
  rintro l l' ⟨hll, hl1⟩
  refine (ExRel.idx hx' _).bind ?_
  rintro r r' ⟨hrr, hr1⟩
  dsimp only
  have e0 : a.keyValues.length = b.keyValues.length := hab.values.length_eq
  have e1 : l.keyValues.length = l'.keyValues.length := hll.values.length_eq
  have e2 : r.keyValues.length = r'.keyValues.length := hrr.values.length_eq
  rw [e0, e1, e2]
  refine ExRel.bind (R := Eq) (ExRel.refl (fun _ => rfl) _) ?_
  rintro _ _ -
  refine ExRel.bind (R := Eq) (ExRel.refl (fun _ => rfl) _) ?_
  rintro _ _ -
  have hv := hab.values
  have hlv := hll.values
  have hrv := hrr.values
  rw [hl] at hv
  rw [hl1] at hlv
  rw [hr1] at hrv
  refine ExRel.mapE (forall₂_zipIdx hv 0) ?_
  rintro ⟨y, j⟩ ⟨y', j'⟩ ⟨hy, hj⟩
  dsimp only at hj hy ⊢
  subst hj
  refine (ExRel.idx hlv j).bind fun y0 y0' h0 => ?_
  refine (ExRel.idx hrv j).bind fun y1 y1' h1 => ?_
  rw [← h.inputLen, ← h.serverId]
  exact valueCheck_twin _ hm hy h0 h1

theorem combineProofs_twin {B : Nat → Nat → Prop} {next next' : List TreeNode}
    (hx : List.Forall₂ (NodeTwin B) next next') (i : Nat) :
    combineProofs next i = combineProofs next' i := by
  unfold combineProofs
  refine (ExRel.foldE (R := Eq) hx ?_ rfl).eq
  rintro s _ a b rfl hab
  rw [hab.states]
  exact ExRel.refl (fun _ => rfl) _

theorem combinedHash_twin {n m : Nat} {B : Nat → Nat → Prop} {next next' : List TreeNode}
    (hx : List.Forall₂ (NodeTwin B) next next') {ac ac' : List (List (List Field128))}
    (hc : List.Forall₂ (List.Forall₂ (CheckTwin n m)) ac ac') (i : Nat) :
    combinedHash P n m next ac i = combinedHash P n m next' ac' i := by
  unfold combinedHash
  rw [combineProofs_twin hx]
  have : foldE (checkStep n m i) (List.replicate 8 0) ac
      = foldE (checkStep n m i) (List.replicate 8 0) ac' := by
    refine (ExRel.foldE (R := Eq) hc ?_ rfl).eq
    rintro s _ a b rfl hab
    unfold checkStep
    refine (ExRel.idx hab i).bind ?_
    rintro c c' ⟨h0, h1⟩
    split
    · rename_i hm
      unfold idx
      rw [h0 hm]
      exact ExRel.refl (fun _ => rfl) _
    · rename_i hm
      refine ExRel.foldE (R := Eq) (Q := fun x y => x = y ∧ x < n) ?_ ?_ rfl
      · have : ∀ l : List Nat, (∀ x ∈ l, x < n) → List.Forall₂ (fun x y => x = y ∧ x < n) l l := by
          intro l
          induction l with
          | nil => intro _; exact .nil
          | cons x l ih => intro hl; exact .cons ⟨rfl, hl x (by simp)⟩ (ih fun y hy => hl y (by simp [hy]))
        exact this _ fun x hx => List.mem_range.1 hx
      · rintro s _ j _ rfl ⟨rfl, hj⟩
        unfold idx
        rw [h1 hm j hj]
        exact ExRel.refl (fun _ => rfl) _
  rw [this]

/-- What the checks of a crawl from this frontier look at is in `B`. -/
def CrawlIn (n : Nat) (B : Nat → Nat → Prop) (fr : List TreeNode) : Prop :=
  ∀ node ∈ fr, LevelIn n B node.path.length

theorem crawlLevel_twin {B : Nat → Nat → Prop} {k k' : KeyCollection P} (h : KcTwin B k k') (bld : Build)
    (hin : CrawlIn k.inputLen B k.frontier) :
    ExRel (fun x y => (List.Forall₂ (NodeTwin B) x.1 y.1 ∧
        ∃ d, ∀ node ∈ x.1, node.path.length = d) ∧ x.2 = y.2)
      (k.crawlLevel bld) (k'.crawlLevel bld) := by
  unfold KeyCollection.crawlLevel
  obtain ⟨d, hd⟩ := h.uniform
  cases hfr : k.frontier with
  | nil =>
    have hfr' : k'.frontier = [] := by
      have := h.frontier; rw [hfr] at this; exact List.forall₂_nil_left_iff.1 this
    rw [hfr']; exact rfl
  | cons root rest =>
    obtain ⟨root', rest', hfr'⟩ : ∃ a b, k'.frontier = a :: b := by
      have := h.frontier; rw [hfr] at this
      obtain ⟨b, u, -, -, e⟩ := List.forall₂_cons_left_iff.1 this
      exact ⟨b, u, e⟩
    have hF := h.frontier
    rw [hfr, hfr'] at hF
    have hroot : NodeTwin B root root' := by cases hF; assumption
    have hd0 : root.path.length = d := hd root (by rw [hfr]; simp)
    have hd0' : root'.path.length = d := by rw [← hroot.path]; exact hd0
    have hin0 := hin root (by rw [hfr]; simp)
    rw [hfr']
    have hla : k.levelAssert bld d = k'.levelAssert bld d := by
      unfold KeyCollection.levelAssert; rw [h.depth]
    have ei : idx (root :: rest) 0 = .ok root := rfl
    have ei' : idx (root' :: rest') 0 = .ok root' := rfl
    rw [ei, ei', ok_bind, ok_bind]
    dsimp only
    rw [hd0, hd0', hla]
    refine ExRel.bind (R := Eq) (ExRel.refl (fun _ => rfl) _) ?_
    rintro _ _ -
    have hnx := nextFrontier_twin h true
    cases hn : k.nextFrontier true with
    | error p =>
      rw [hn] at hnx
      cases hn' : k'.nextFrontier true with
      | error q => rw [hn'] at hnx; exact hnx
      | ok y => rw [hn'] at hnx; exact absurd hnx (by simp [ExRel])
    | ok next =>
      rw [hn] at hnx
      cases hn' : k'.nextFrontier true with
      | error q => rw [hn'] at hnx; exact absurd hnx (by simp [ExRel])
      | ok next' =>
        rw [hn'] at hnx
        obtain ⟨hnt, hnu⟩ := hnx
        rw [ok_bind, ok_bind]
        have hlen : ∀ node ∈ next, node.path.length = d + 1 := by
          obtain ⟨e, he⟩ := hnu
          have hshape := nextFrontier_shape hn
          intro node hnode
          have : nodeShape node ∈ next.map nodeShape := List.mem_map.2 ⟨node, hnode, rfl⟩
          rw [hshape] at this
          obtain ⟨p, hp, hq⟩ := List.mem_flatMap.1 this
          obtain ⟨q, hq1, rfl⟩ := List.mem_map.1 hp
          have := hd q hq1
          simp only [nodeShape, List.mem_cons, Prod.mk.injEq, List.not_mem_nil, or_false] at hq
          rcases hq with ⟨h1, -⟩ | ⟨h1, -⟩ <;> rw [h1] <;> simp [this]
        have hall : List.Forall₂ (fun a b => (NodeTwin B a.1 b.1 ∧ a.1.path.length = d) ∧
            a.2 = b.2) (root :: rest).zipIdx (root' :: rest').zipIdx := by
          refine forall₂_zipIdx (R := fun a b => NodeTwin B a b ∧ a.path.length = d) ?_ 0
          rw [hfr] at hd
          clear hla ei ei' hfr hfr' hroot hd0 hd0' hn hn'
          generalize root :: rest = A at hF hd
          generalize root' :: rest' = B at hF
          induction hF with
          | nil => exact .nil
          | cons hab _ ih => exact .cons ⟨hab, hd _ (by simp)⟩ (ih fun x hx => hd x (by simp [hx]))
        refine (ExRel.mapE (R := List.Forall₂ (CheckTwin k.inputLen d)) hall ?_).bind ?_
        · rintro ⟨a, i⟩ ⟨b, j⟩ ⟨⟨hab, hl⟩, hij⟩
          dsimp only at hab hl hij
          subst hij
          rw [hd0] at hin0
          exact checksForPrefix_twin h bld hin0 hnt hlen hab hl i
        · intro ac ac' hac
          rw [included_twin h.reports, ← h.inputLen]
          have : mapE (combinedHash P k.inputLen d next ac) (includedIndices k'.reportShares)
              = mapE (combinedHash P k.inputLen d next' ac') (includedIndices k'.reportShares) := by
            congr 1
            funext i
            exact combinedHash_twin hnt hac i
          rw [this]
          refine ExRel.bind (R := Eq) (ExRel.refl (fun _ => rfl) _) ?_
          rintro c _ rfl
          exact ⟨⟨hnt, hnu⟩, rfl⟩

theorem excludeAll_twin {B : Nat → Nat → Prop} {a b : List (Bool × ReportShare)}
    (h : ReportsTwin B a b) (ms : List Nat) :
    ExRel (ReportsTwin B) (excludeAll a ms) (excludeAll b ms) := by
  unfold excludeAll
  refine ExRel.foldE (Q := Eq) (forall₂_refl_of (fun _ => rfl) ms) ?_ h
  rintro s t m _ hst rfl
  refine (ExRel.idx hst m).bind ?_
  rintro r r' ⟨-, hr⟩
  show List.Forall₂ _ _ _
  clear h
  unfold ReportsTwin at hst
  induction hst generalizing m with
  | nil => exact .nil
  | cons hab hs ih =>
    cases m with
    | zero => exact .cons ⟨rfl, hr⟩ hs
    | succ m => exact .cons hab (ih m)

theorem crawlPrep_twin {B : Nat → Nat → Prop} {k k' : KeyCollection P} (h : KcTwin B k k') (ms : List Nat)
    (last : Bool) :
    ExRel (fun x y => KcTwin B x y ∧ x.inputLen = k.inputLen ∧
        x.frontier = if ms.isEmpty then k.frontier else k.prevFrontier)
      (k.crawlPrep ms last) (k'.crawlPrep ms last) := by
  unfold KeyCollection.crawlPrep
  split
  · exact ⟨h, rfl, rfl⟩
  · have : ExRel (ReportsTwin B) (if last then excludeAll k.reportShares ms else .ok k.reportShares)
        (if last then excludeAll k'.reportShares ms else .ok k'.reportShares) := by
      cases last with
      | true => exact excludeAll_twin h.reports ms
      | false => exact h.reports
    refine this.bind fun rs rs' hrs => ?_
    exact ⟨⟨h.inputLen, h.serverId, h.verifyKey, h.depth, hrs, h.prev, h.uniformPrev, h.prev,
      h.uniformPrev, h.final⟩, rfl, rfl⟩

theorem treeCrawl_twin {B : Nat → Nat → Prop} {k k' : KeyCollection P} (h : KcTwin B k k') (bld : Build)
    (s : Nat) (ms : List Nat) (last : Bool)
    (hin : CrawlIn k.inputLen B (if ms.isEmpty then k.frontier else k.prevFrontier)) :
    ExRel (fun x y => (KcTwin B x.1 y.1 ∧ x.1.inputLen = k.inputLen) ∧ x.2.roots = y.2.roots ∧ x.2.indices = y.2.indices ∧
        x.2.cntValues.length = y.2.cntValues.length)
      (k.treeCrawl bld s ms last) (k'.treeCrawl bld s ms last) := by
  unfold KeyCollection.treeCrawl
  refine (crawlPrep_twin h ms last).bind ?_
  rintro x y ⟨hxy, hil, hfr⟩
  refine (crawlLevel_twin hxy bld (by rw [hfr, hil]; exact hin)).bind ?_
  rintro ⟨nx, cx⟩ ⟨ny, cy⟩ ⟨⟨hn, hu⟩, hc⟩
  dsimp only at hn hu hc ⊢
  subst hc
  refine ExRel.bind (R := Eq) (ExRel.refl (fun _ => rfl) _) ?_
  rintro rs _ rfl
  refine ⟨⟨⟨hxy.inputLen, hxy.serverId, hxy.verifyKey, hxy.depth, hxy.reports, hn, hu, hxy.frontier,
    hxy.uniform, hxy.final⟩, hil⟩, rfl, rfl, ?_⟩
  simp [hn.length_eq]

theorem treeCrawlLast_twin {B : Nat → Nat → Prop} {k k' : KeyCollection P} (h : KcTwin B k k') :
    ExRel (fun x y => (KcTwin B x.1 y.1 ∧ x.1.inputLen = k.inputLen) ∧ x.2.length = y.2.length) k.treeCrawlLast k'.treeCrawlLast := by
  unfold KeyCollection.treeCrawlLast
  refine (nextFrontier_twin h false).bind ?_
  rintro nx ny ⟨hn, hu⟩
  rw [included_twin h.reports]
  have : (combineProofs nx) = combineProofs ny := by
    funext i
    exact combineProofs_twin hn i
  rw [this]
  refine ExRel.bind (R := Eq) (ExRel.refl (fun _ => rfl) _) ?_
  rintro pr _ rfl
  exact ⟨⟨⟨h.inputLen, h.serverId, h.verifyKey, h.depth, h.reports, hn, hu, h.prev, h.uniformPrev, rfl⟩, rfl⟩,
    by simp [hn.length_eq]⟩

theorem select_twin {α β : Type} {R : α → β → Prop} {a : List α} {b : List β}
    (h : List.Forall₂ R a b) (keep : List Bool) :
    List.Forall₂ R (Spec.select keep a) (Spec.select keep b) := by
  unfold Spec.select
  induction h generalizing keep with
  | nil => simp
  | cons hab _ ih =>
    cases keep with
    | nil => simp
    | cons x keep =>
      simp only [List.zip_cons_cons, List.filterMap_cons]
      cases x with
      | false => simpa using ih keep
      | true => simpa using ⟨hab, ih keep⟩

theorem treePrune_twin {B : Nat → Nat → Prop} {k k' : KeyCollection P} (h : KcTwin B k k') (keep : List Bool) :
    ExRel (fun x y => KcTwin B x y ∧ x.inputLen = k.inputLen) (k.treePrune keep) (k'.treePrune keep) := by
  rw [treePrune_spec, treePrune_spec, h.frontier.length_eq]
  split
  · obtain ⟨d, hd⟩ := h.uniform
    refine ⟨⟨h.inputLen, h.serverId, h.verifyKey, h.depth, h.reports, select_twin h.frontier keep,
      ⟨d, fun node hn => hd node ?_⟩, h.prev, h.uniformPrev, h.final⟩, rfl⟩
    exact (select_sublist keep k.frontier).subset hn
  · exact rfl

theorem applyFlp_twin {B : Nat → Nat → Prop} {k k' : KeyCollection P} (h : KcTwin B k k') (keep : List Bool) :
    ExRel (fun x y => KcTwin B x y ∧ x.inputLen = k.inputLen) (k.applyFlpResults keep) (k'.applyFlpResults keep) := by
  unfold KeyCollection.applyFlpResults
  rw [h.reports.length_eq]
  refine ExRel.bind (R := Eq) (ExRel.refl (fun _ => rfl) _) ?_
  rintro _ _ -
  refine (ExRel.foldE (R := ReportsTwin B) (Q := Eq) (forall₂_refl_of (fun _ => rfl) _)
    ?_ h.reports).bind ?_
  · rintro s t ⟨a, i⟩ _ hst rfl
    dsimp only
    split
    · exact hst
    · refine (ExRel.idx hst i).bind ?_
      rintro r r' ⟨-, hr⟩
      show List.Forall₂ _ _ _
      unfold ReportsTwin at hst
      induction hst generalizing i with
      | nil => exact .nil
      | cons hab hs ih =>
        cases i with
        | zero => exact .cons ⟨rfl, hr⟩ hs
        | succ m => exact .cons hab (ih m)
  · intro rs rs' hrs
    exact ⟨⟨h.inputLen, h.serverId, h.verifyKey, h.depth, hrs, h.frontier, h.uniform, h.prev, h.uniformPrev,
      h.final⟩, rfl⟩

theorem treeInit_twin {B : Nat → Nat → Prop} {k k' : KeyCollection P} (h : KcTwin B k k') :
    ExRel (fun x y => KcTwin B x y ∧ x.inputLen = k.inputLen) k.treeInit k'.treeInit := by
  unfold KeyCollection.treeInit
  refine (ExRel.mapE (R := Spec.Twin B) h.reports ?_).bind ?_
  · rintro r r' ⟨-, hr⟩
    exact unwrapKey_twin hr
  · intro ks ks' hks
    refine ⟨⟨h.inputLen, h.serverId, h.verifyKey, h.depth, h.reports, .cons ⟨rfl, ?_, ?_, ⟨rfl, fun _ => rfl, by simp⟩, ?_⟩ .nil,
      ⟨0, by simp⟩, h.prev, h.uniformPrev, h.final⟩, rfl⟩
    · exact forall₂_map_eq_map hks fun a b hab => by unfold VidpfKey.evalInit; rw [hab.rootSeed, hab.keyIdx]
    · intro st hst
      obtain ⟨x, -, rfl⟩ := List.mem_map.1 hst
      rfl
    · simp only [List.forall₂_map_left_iff, List.forall₂_map_right_iff]
      exact hks.imp fun _ _ _ => ⟨rfl, fun _ => rfl, by simp⟩

theorem betaShare_twin {B : Nat → Nat → Prop} {n : Nat} (hB : ∀ i < n, B 0 i) {y0 y0' y1 y1' : List Field128}
    (h0 : ValTwin B 1 y0 y0') (h1 : ValTwin B 1 y1 y1') :
    vecAdd (vecAdd (List.replicate n 0) y0) y1 = vecAdd (vecAdd (List.replicate n 0) y0') y1' := by
  refine List.ext_getElem? fun i => ?_
  by_cases hi : i < n
  · simp only [vecAdd_getElem?, h0.2.2 (by omega) i (hB i hi), h1.2.2 (by omega) i (hB i hi)]
  · rw [List.getElem?_eq_none (by simp; omega), List.getElem?_eq_none (by simp; omega)]

theorem runFlp_twin {B : Nat → Nat → Prop} {k k' : KeyCollection P} (h : KcTwin B k k')
    (hB : ∀ i < k.inputLen, B 0 i)
    (bld : Build) (s e : Nat) : k.runFlpQueries bld s e = k'.runFlpQueries bld s e := by
  refine ExRel.eq ?_
  unfold KeyCollection.runFlpQueries
  refine (ExRel.idx h.frontier 0).bind fun root root' hroot => ?_
  rw [← hroot.path, ← h.frontier.length_eq]
  refine ExRel.bind (R := fun _ _ => root.path.length = 0) ?_ ?_
  · by_cases h0 : root.path.length = 0
    · have : (root.path.length == 0) = true := by simpa using h0
      rw [this]; exact h0
    · have : (root.path.length == 0) = false := by simpa using h0
      rw [this]; exact rfl
  · rintro _ _ hr0
    refine ExRel.bind (R := Eq) (ExRel.refl (fun _ => rfl) _) ?_
    rintro _ _ -
    refine (makeTreeNode_twin h hroot false).bind ?_
    rintro l l' ⟨hl, hll⟩
    refine (makeTreeNode_twin h hroot true).bind ?_
    rintro r r' ⟨hr, hrl⟩
    rw [hroot.values.length_eq, hl.values.length_eq]
    refine ExRel.bind (R := Eq) (ExRel.refl (fun _ => rfl) _) ?_
    rintro _ _ -
    have : k.flpQueryClient l r = k'.flpQueryClient l' r' := by
      funext i
      refine ExRel.eq ?_
      have hlv := hl.values
      have hrv := hr.values
      rw [hll, hr0] at hlv
      rw [hrl, hr0] at hrv
      unfold KeyCollection.flpQueryClient
      refine (ExRel.idx hlv i).bind fun y0 y0' h0 => ?_
      refine (ExRel.idx hrv i).bind fun y1 y1' h1 => ?_
      rw [← h.inputLen]
      dsimp only
      rw [betaShare_twin hB h0 h1]
      unfold KeyCollection.flpQueryRand KeyCollection.flpJointRand
      rw [← h.inputLen, ← h.serverId, ← h.verifyKey]
      rcases forall₂_getElem? h.reports i with ⟨e1, e2⟩ | ⟨⟨f, x⟩, ⟨f', x'⟩, e1, e2, -, hx⟩
      · unfold idx; rw [e1, e2]; exact rfl
      · unfold idx
        rw [e1, e2]
        cases x <;> cases x' <;> simp only [Spec.ReportTwin] at hx
        · obtain ⟨rfl, rfl, rfl, hk⟩ := hx
          simp only [ok_bind, ReportShare.unwrapFlpProofShare, ReportShare.unwrapFlpJointRandParts,
            ReportShare.unwrapVidpfKey, ReportShare.nonce, VidpfKey.getRootSeed]
          rw [hk.rootSeed]
          exact ExRel.refl (fun _ => rfl) _
        · obtain ⟨rfl, rfl, rfl⟩ := hx
          exact ExRel.refl (fun _ => rfl) _
    rw [this]
    exact ExRel.refl (fun _ => rfl) _

theorem srvAdd_twin {B : Nat → Nat → Prop} {k k' : KeyCollection P} (h : KcTwin B k k')
    {a b : List ReportShare} (hab : List.Forall₂ (Spec.ReportTwin B) a b) :
    KcTwin B (srvAddReportShares k a) (srvAddReportShares k' b) := by
  rw [srvAdd_eq, srvAdd_eq]
  refine ⟨h.inputLen, h.serverId, h.verifyKey, h.depth, ?_, h.frontier, h.uniform, h.prev,
    h.uniformPrev, h.final⟩
  refine forall₂_append h.reports ?_
  simp only [List.forall₂_map_left_iff, List.forall₂_map_right_iff]
  exact hab.imp fun _ _ hx => ⟨trivial, hx⟩

theorem new_twin (B : Nat → Nat → Prop) (n : Nat) (sid : Int) (d : Option Nat) (vk : Block) :
    KcTwin B (KeyCollection.new P n sid d vk) (KeyCollection.new P n sid d vk) :=
  ⟨rfl, rfl, rfl, rfl, .nil, .nil, ⟨0, by simp [KeyCollection.new]⟩, .nil,
    ⟨0, by simp [KeyCollection.new]⟩, rfl⟩

theorem locked_twin {B : Nat → Nat → Prop} {n : Nat} (hB : ∀ m, LevelIn n B m) (hB0 : ∀ i < n, B 0 i)
    {cfg : ServerCfg} {k k' : KeyCollection P} (h : KcTwin B k k') (hn : k.inputLen = n) {q q' : Req}
    (hq : Spec.ReqTwin n B q q') :
    ExRel (fun x y => (KcTwin B x.1 y.1 ∧ x.1.inputLen = n) ∧ Spec.SameChecks q x.2 y.2)
      (locked cfg k q) (locked cfg k' q') := by
  subst hn
  cases hq with
  | upload a b hab =>
    refine ⟨⟨srvAdd_twin h hab, ?_⟩, rfl⟩
    show (srvAddReportShares k a).inputLen = k.inputLen
    rw [srvAdd_eq]
  | reset vk =>
    simp only [locked, srvReset]
    split
    · exact ⟨⟨new_twin _ _ _ _ _, rfl⟩, rfl⟩
    · exact rfl
  | treeInit =>
    simp only [locked]
    exact (treeInit_twin h).bind fun x y hxy => ⟨hxy, rfl⟩
  | treeCrawl s m l =>
    simp only [locked]
    refine (treeCrawl_twin h cfg.build s m l (fun _ _ => hB _)).bind ?_
    rintro ⟨x, r⟩ ⟨y, r'⟩ ⟨h1, h2⟩
    exact ⟨h1, h2⟩
  | runFlpQueries s e =>
    simp only [locked]
    refine ExRel.bind (R := Eq) (ExRel.refl (fun _ => rfl) _) ?_
    rintro _ _ -
    rw [runFlp_twin h hB0]
    refine ExRel.bind (R := Eq) (ExRel.refl (fun _ => rfl) _) ?_
    rintro r _ rfl
    exact ⟨⟨h, rfl⟩, rfl⟩
  | applyFlpResults keep =>
    simp only [locked]
    exact (applyFlp_twin h keep).bind fun x y hxy => ⟨hxy, rfl⟩
  | treeCrawlLast =>
    simp only [locked]
    refine (treeCrawlLast_twin h).bind ?_
    rintro ⟨x, r⟩ ⟨y, r'⟩ ⟨h1, h2⟩
    exact ⟨h1, h2⟩
  | getProofs s e =>
    simp only [locked]
    refine ExRel.bind (R := Eq) (ExRel.refl (fun _ => rfl) _) ?_
    rintro _ _ -
    refine ⟨⟨h, rfl⟩, ?_⟩
    show Resp.proofs _ = Resp.proofs _
    unfold KeyCollection.getProofs
    rw [h.final]
  | treePrune keep =>
    simp only [locked]
    exact (treePrune_twin h keep).bind fun x y hxy => ⟨hxy, rfl⟩
  | finalShares =>
    refine ⟨⟨h, rfl⟩, ?_⟩
    show List.map _ (KeyCollection.finalShares _) = List.map _ (KeyCollection.finalShares _)
    unfold KeyCollection.finalShares
    rw [List.map_map, List.map_map]
    exact forall₂_map_eq_map h.frontier fun _ _ hx => hx.path

/-- Twin servers: both poisoned or in twin states. -/
def ServerTwin (B : Nat → Nat → Prop) (n : Nat) : Server P → Server P → Prop
  | .running k, .running k' => KcTwin B k k' ∧ k.inputLen = n
  | .poisoned, .poisoned => True
  | _, _ => False

theorem handle_twin {B : Nat → Nat → Prop} {n : Nat} (hB : ∀ m, LevelIn n B m) (hB0 : ∀ i < n, B 0 i)
    {cfg : ServerCfg} {s s' : Server P} (h : ServerTwin B n s s') {q q' : Req}
    (hq : Spec.ReqTwin n B q q') :
    ServerTwin B n (s.handle cfg q).1 (s'.handle cfg q').1 ∧
      ExRel (Spec.SameChecks q) (s.handle cfg q).2 (s'.handle cfg q').2 := by
  unfold Server.handle
  have h0 : preLock cfg q = .ok () := by cases hq <;> rfl
  have h0' : preLock cfg q' = .ok () := by cases hq <;> rfl
  rw [h0, h0']
  dsimp only
  cases s with
  | poisoned =>
    cases s' with
    | poisoned => exact ⟨trivial, rfl⟩
    | running k' => exact absurd h (by simp [ServerTwin])
  | running k =>
    cases s' with
    | poisoned => exact absurd h (by simp [ServerTwin])
    | running k' =>
      have := locked_twin hB hB0 (cfg := cfg) h.1 h.2 hq
      dsimp only
      cases e : locked cfg k q with
      | error p =>
        rw [e] at this
        cases e' : locked cfg k' q' with
        | error p' => rw [e'] at this; exact ⟨trivial, this⟩
        | ok y => rw [e'] at this; exact absurd this (by simp [ExRel])
      | ok x =>
        rw [e] at this
        obtain ⟨y, e', hxy⟩ := this.ok_left rfl
        rw [e']
        exact hxy

theorem run_twin {B : Nat → Nat → Prop} {n : Nat} (hB : ∀ m, LevelIn n B m) (hB0 : ∀ i < n, B 0 i)
    {cfg : ServerCfg} {qs qs' : List Req} (hq : List.Forall₂ (Spec.ReqTwin n B) qs qs') :
    ∀ {s s' : Server P} (_ : ServerTwin B n s s'),
    ServerTwin B n (Server.run cfg s qs).1 (Server.run cfg s' qs').1 ∧
      List.Forall₂ (fun q rr => ExRel (Spec.SameChecks q) rr.1 rr.2) qs
        ((Server.run cfg s qs).2.zip (Server.run cfg s' qs').2) := by
  induction hq with
  | nil => intro s s' h; exact ⟨h, .nil⟩
  | cons hab _ ih =>
    intro s s' h
    obtain ⟨h1, h2⟩ := handle_twin hB hB0 (cfg := cfg) h hab
    obtain ⟨g1, g2⟩ := ih h1
    exact ⟨g1, .cons h2 g2⟩

end Mastic
