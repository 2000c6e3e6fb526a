import Verif.Lemmas.History

/-!
# Helper lemmas: aggregated node values
-/

namespace Mastic

variable {P : Prims}

theorem vecAdd_eq_addShares {a b : List Field128} (h : a.length = b.length) :
    vecAdd a b = Spec.addShares a b := (addShares_eq h).symm

theorem included_values_aux : ∀ (reports : List (Bool × ReportShare)) (vals : List (List Field128))
    (k : Nat), vals.length = reports.length →
    List.Forall₂ (fun (ir : Nat × ReportShare) v => ∃ j, ir.1 = k + j ∧ vals[j]? = some v ∧
        reports[j]? = some (true, ir.2))
      ((reports.zipIdx k).filterMap fun r => if r.1.1 then some (r.2, r.1.2) else none)
      (((vals.zip reports).filter fun vr => vr.2.1).map Prod.fst)
  | [], [], _, _ => List.Forall₂.nil
  | (b, r) :: reports, v :: vals, k, h => by
    have ih := included_values_aux reports vals (k + 1) (by simpa using h)
    have ih' : List.Forall₂ (fun (ir : Nat × ReportShare) w => ∃ j, ir.1 = k + j ∧
        (v :: vals)[j]? = some w ∧ ((b, r) :: reports)[j]? = some (true, ir.2))
        ((reports.zipIdx (k + 1)).filterMap fun r => if r.1.1 then some (r.2, r.1.2) else none)
        (((vals.zip reports).filter fun vr => vr.2.1).map Prod.fst) := by
      refine ih.imp ?_
      rintro ⟨i, r'⟩ w ⟨j, hj, h1, h2⟩
      exact ⟨j + 1, by simp at hj ⊢; omega, by simpa using h1, by simpa using h2⟩
    cases b with
    | true =>
      simp only [List.zipIdx_cons, List.filterMap_cons, if_true, List.zip_cons_cons,
        List.filter_cons, List.map_cons]
      exact List.Forall₂.cons ⟨0, by simp, by simp, by simp⟩ ih'
    | false =>
      simp only [List.zipIdx_cons, List.filterMap_cons, Bool.false_eq_true, if_false,
        List.zip_cons_cons, List.filter_cons]
      exact ih'
  | [], _ :: _, _, h => by simp at h
  | _ :: _, [], _, h => by simp at h

theorem sumIncluded_eq (n : Nat) (vals : List (List Field128)) (reports : List (Bool × ReportShare))
    (hl : ∀ v ∈ vals, v.length = n + 1) :
    sumIncluded n vals reports
      = Spec.sumVecs (n + 1) (((vals.zip reports).filter fun vr => vr.2.1).map Prod.fst) := by
  unfold sumIncluded Spec.sumVecs
  have hl' : ∀ x ∈ ((vals.zip reports).filter fun vr => vr.2.1), x.1.length = n + 1 := by
    intro x hx
    exact hl x.1 (List.of_mem_zip (List.mem_filter.1 hx).1).1
  generalize ((vals.zip reports).filter fun vr => vr.2.1) = L at hl'
  have : ∀ (L : List (List Field128 × (Bool × ReportShare))) (acc : List Field128),
      acc.length = n + 1 → (∀ x ∈ L, x.1.length = n + 1) →
      L.foldl (fun acc vr => vecAdd acc vr.1) acc = (L.map Prod.fst).foldl Spec.addShares acc := by
    intro L
    induction L with
    | nil => intros; rfl
    | cons x L ih =>
      intro acc ha hx
      simp only [List.foldl_cons, List.map_cons]
      rw [ih _ (by simpa using ha) (fun y hy => hx y (by simp [hy])),
        vecAdd_eq_addShares (ha.trans (hx x (by simp)).symm)]
  exact this L _ (by simp) hl'

/-- The value of a child node made from an exact parent. -/
theorem makeTreeNode_sum {kc : KeyCollection P} {parent node : TreeNode} {dir : Bool} {m : Nat}
    (hp : Spec.NodeExact P kc.inputLen ((kc.reportShares.map Prod.snd).take m) parent)
    (h : kc.makeTreeNode parent dir = .ok node) :
    Spec.NodeSum P kc.inputLen kc.reportShares node := by
  have hex := makeTreeNode_exact hp h
  obtain ⟨hpath, -, hlen, hval, -⟩ := makeTreeNode_ok h
  have hvlen : ∀ v ∈ node.keyValues, v.length = kc.inputLen + 1 := by
    intro v hv
    obtain ⟨i, hi, rfl⟩ := List.getElem_of_mem hv
    have hi' : i < kc.reportShares.length := by omega
    obtain ⟨key, st, w, -, hev, -, hw⟩ := hex.2.2 i kc.reportShares[i].2 (by simp [hi'])
    obtain ⟨w', hw', hl⟩ := (evalPath_word hev).2 (by rw [hpath]; simp)
    rw [hw', List.getElem?_eq_getElem hi] at hw
    injection hw with hw
    rw [hw]; exact hl
  refine ⟨_, ?_, hval.trans (sumIncluded_eq _ _ _ hvlen)⟩
  refine (included_values_aux kc.reportShares node.keyValues 0 hlen).imp ?_
  rintro ⟨i, r⟩ v ⟨j, -, h1, h2⟩
  obtain ⟨key, st, w, hk, hev, -, hw⟩ := hex.2.2 j r (by simp [h2])
  refine ⟨key, hk, ?_⟩
  obtain ⟨w', hw', -⟩ := (evalPath_word hev).2 (by rw [hpath]; simp)
  rw [h1, hw'] at hw
  unfold Spec.valueAt
  rw [hev]
  show w = some v
  rw [hw']
  injection hw with hw
  rw [hw]; rfl

theorem nextFrontier_sum {kc : KeyCollection P} {chk : Bool} {next : List TreeNode} {m : Nat}
    (hf : Spec.FrontierExact P kc.inputLen ((kc.reportShares.map Prod.snd).take m) kc.frontier)
    (h : kc.nextFrontier chk = .ok next) :
    ∀ node ∈ next, Spec.NodeSum P kc.inputLen kc.reportShares node := by
  intro node hn
  obtain ⟨parent, hp, dir, hd⟩ := nextFrontier_mem h hn
  exact makeTreeNode_sum (hf.1 parent hp) hd

theorem treeCrawl_sum {bld : Build} {n0 : Nat} {kc kc' : KeyCollection P} {s : Nat} {ms : List Nat}
    {last : Bool} {r : CrawlResp} (hi : SessionInv n0 kc)
    (h : kc.treeCrawl bld s ms last = .ok (kc', r)) :
    r.cntValues = kc'.frontier.map TreeNode.value ∧ kc'.inputLen = kc.inputLen ∧
    ∀ node ∈ kc'.frontier, Spec.NodeSum P kc.inputLen kc'.reportShares node := by
  obtain ⟨kc1, next, digests, rs, hp, hl, -, rfl, rfl⟩ := treeCrawl_ok h
  obtain ⟨reports, fr, rfl, hsnd, -, hfr, -⟩ := crawlPrep_ok hp
  obtain ⟨-, hn⟩ := crawlLevel_ok hl
  have hpre : ∃ m, Spec.FrontierExact P kc.inputLen ((reports.map Prod.snd).take m) fr := by
    rw [hsnd, hfr]
    split
    · exact ⟨n0, hi.frontier⟩
    · obtain ⟨m, -, hm⟩ := hi.prev; exact ⟨m, hm⟩
  obtain ⟨m, hm⟩ := hpre
  exact ⟨rfl, rfl, nextFrontier_sum (kc := { kc with reportShares := reports, frontier := fr })
    (m := m) hm hn⟩

theorem treeCrawlLast_sum {n0 : Nat} {kc kc' : KeyCollection P} {v : List (List Field128)}
    (hi : SessionInv n0 kc) (h : kc.treeCrawlLast = .ok (kc', v)) :
    v = kc'.frontier.map TreeNode.value ∧ kc'.inputLen = kc.inputLen ∧
    ∀ node ∈ kc'.frontier, Spec.NodeSum P kc.inputLen kc'.reportShares node := by
  obtain ⟨next, proofs, hn, -, rfl, rfl⟩ := treeCrawlLast_ok h
  exact ⟨rfl, rfl, nextFrontier_sum hi.frontier hn⟩

/-! ### Sums of two servers' values -/

theorem sumVecs_add {n : Nat} : ∀ {us vs : List (List Field128)}, us.length = vs.length →
    (∀ v ∈ us, v.length = n) → (∀ v ∈ vs, v.length = n) →
    Spec.addShares (Spec.sumVecs n us) (Spec.sumVecs n vs)
      = Spec.sumVecs n (List.zipWith Spec.addShares us vs) := by
  intro us vs hl hu hv
  obtain ⟨l1, s1⟩ := sumVecs_spec hu
  obtain ⟨l2, s2⟩ := sumVecs_spec hv
  have hz : ∀ w ∈ List.zipWith Spec.addShares us vs, w.length = n := by
    intro w hw
    rw [← List.map_uncurry_zip_eq_zipWith] at hw
    obtain ⟨⟨a, b⟩, hab, rfl⟩ := List.mem_map.1 hw
    exact addShares_length (hu a (List.of_mem_zip hab).1) (hv b (List.of_mem_zip hab).2)
  obtain ⟨l3, s3⟩ := sumVecs_spec hz
  refine list_ext_getD (addShares_length l1 l2) l3 fun i => ?_
  rw [addShares_getD l1 l2, s1, s2, s3]
  clear s1 s2 s3 l1 l2 l3 hz
  induction us generalizing vs with
  | nil => cases vs <;> simp at hl ⊢
  | cons a us ih =>
    cases vs with
    | nil => simp at hl
    | cons b vs =>
      simp only [List.map_cons, List.sum_cons, List.zipWith_cons_cons]
      rw [addShares_getD (hu a (by simp)) (hv b (by simp)),
        ← ih (by simpa using hl) (fun v h => hu v (by simp [h])) (fun v h => hv v (by simp [h]))]
      ring

theorem included_length_aux : ∀ (r0 r1 : List (Bool × ReportShare)) (k : Nat),
    r0.map Prod.fst = r1.map Prod.fst →
    List.Forall₂ (fun (a b : Nat × ReportShare) => a.1 = b.1)
      ((r0.zipIdx k).filterMap fun r => if r.1.1 then some (r.2, r.1.2) else none)
      ((r1.zipIdx k).filterMap fun r => if r.1.1 then some (r.2, r.1.2) else none)
  | [], [], _, _ => List.Forall₂.nil
  | (b, x) :: r0, (c, y) :: r1, k, h => by
    simp only [List.map_cons, List.cons.injEq] at h
    obtain ⟨rfl, h⟩ := h
    have ih := included_length_aux r0 r1 (k + 1) h
    cases b with
    | true => simpa [List.zipIdx_cons] using ih
    | false => simpa [List.zipIdx_cons] using ih
  | [], _ :: _, _, h => by simp at h
  | _ :: _, [], _, h => by simp at h

end Mastic
