import Verif.Lemmas.Metrics
import Verif.Lemmas.Flp

/-!
# Attribute-based metrics
-/

namespace Mastic

variable {P : Prims}

theorem mapM_of_forall₂ {α β : Type} {f : α → Option β} {as : List α} {bs : List β}
    (h : List.Forall₂ (fun a b => f a = some b) as bs) : as.mapM f = some bs := by
  induction h with
  | nil => rfl
  | cons h _ ih => rw [List.mapM_cons, h, ih]; rfl

/-- What validation stores for a report is the table of its value shares. -/
theorem abmValidate_table {kc : KeyCollection P} {a : List (List Bool)} {i : Nat}
    {x : Nat × List (List Field128) × List Field128 × Vector Byte 32}
    (h : abmValidateClient kc a i = .ok x) : ∃ b s, kc.reportShares[i]? = some (b, s) ∧
      Spec.tableOf P kc.inputLen a s = some x.2.1 := by
  unfold abmValidateClient at h
  obtain ⟨⟨b, s⟩, h1, h⟩ := bind_eq_ok.1 h
  obtain ⟨key, h2, h⟩ := bind_eq_ok.1 h
  obtain ⟨⟨vs, bs, t⟩, h3, h⟩ := bind_eq_ok.1 h
  obtain ⟨_, -, h⟩ := bind_eq_ok.1 h
  obtain ⟨_, -, h⟩ := bind_eq_ok.1 h
  obtain ⟨_, -, h⟩ := bind_eq_ok.1 h
  obtain ⟨_, -, h⟩ := bind_eq_ok.1 h
  cases h
  refine ⟨b, s, idx_eq_ok.1 h1, ?_⟩
  have hk : Spec.keyOf s = some key := by
    cases s with
    | mastic => cases h2; rfl
    | prio3 => cases h2
  unfold Spec.tableOf
  rw [hk]
  exact mapM_of_forall₂ ((evalTree_spec h3).1.imp fun _ _ h => h.1)

/-- The state after validating a range, as a function of the client number. -/
theorem abmValidate_cover {kc kc' : KeyCollection P} {a : List (List Bool)} {s e : Nat}
    {r : List (List Field128 × Vector Byte 32)} (h : srvAbmValidate kc a s e = .ok (kc', r)) :
    (∀ k, kc'.abmState.lookup k = if s ≤ k ∧ k < e then
        (kc.reportShares[k]?).bind fun br => Spec.tableOf P kc.inputLen a br.2
      else kc.abmState.lookup k) ∧
    kc' = { kc with abmState := kc'.abmState } ∧
    (∀ k, s ≤ k → k < e → ∃ b s t, kc.reportShares[k]? = some (b, s) ∧
      Spec.tableOf P kc.inputLen a s = some t) := by
  have hin : ∀ k, s ≤ k → k < e → ∃ b s t, kc.reportShares[k]? = some (b, s) ∧
      Spec.tableOf P kc.inputLen a s = some t ∧ kc'.abmState.lookup k = some t := by
    intro k h1 h2
    obtain ⟨x, h3, h4⟩ := (srvAbmValidate_lookup h k).2.1 h1 h2
    obtain ⟨b, s, h5, h6⟩ := abmValidate_table h3
    exact ⟨b, s, _, h5, h6, h4⟩
  refine ⟨fun k => ?_, ?_, fun k h1 h2 => ?_⟩
  · split
    · rename_i hk
      obtain ⟨b, s, t, h5, h6, h7⟩ := hin k hk.1 hk.2
      rw [h7, h5]
      exact h6.symm
    · rename_i hk
      exact (srvAbmValidate_lookup h k).2.2 hk
  · obtain ⟨results, -, -, -, rfl, -⟩ := srvAbmValidate_ok h
    rfl
  · obtain ⟨b, s, t, h5, h6, -⟩ := hin k h1 h2
    exact ⟨b, s, t, h5, h6⟩

theorem abmReject_error {bld : Build} {rej : List Nat} {p : Panic} :
    ∀ {st : List (Nat × List (List Field128))}, abmReject bld st rej = .error p →
      p = .debugAssertion ∧ bld = .debug := by
  cases bld with
  | release => intro st h; cases h
  | debug =>
    unfold abmReject
    dsimp only
    induction rej with
    | nil => intro st h; cases h
    | cons k rej ih =>
      intro st h
      rw [foldE_cons] at h
      rcases hm : mapRemove st k with ⟨_ | v, m'⟩
      · rw [hm] at h; cases h; exact ⟨rfl, rfl⟩
      · rw [hm] at h; exact ih h

/-- `attribute_based_metrics_result`, as a function of the stored tables only. -/
theorem srvAbmResult_spec {cfg : ServerCfg} {kc kc' : KeyCollection P} (hd : Spec.DistinctKeys kc.abmState)
    {rej : List Nat} {m : Nat} {rows : List (List Field128)}
    (h : srvAbmResult cfg kc rej m = .ok (kc', rows)) :
    kc' = { kc with abmState := kc'.abmState } ∧
    kc'.abmState = (if cfg.build = .debug then kc.abmState.filter fun e => e.1 ∉ rej else kc.abmState) ∧
    Spec.IsSum m kc.inputLen (kc'.abmState.map Prod.snd) rows := by
  unfold srvAbmResult at h
  obtain ⟨st, hst, h⟩ := bind_eq_ok.1 h
  cases h
  refine ⟨rfl, ?_, ?_⟩
  · show st = _
    cases hb : cfg.build with
    | release => rw [hb] at hst; cases hst; simp
    | debug =>
      rw [hb] at hst
      have := (abmReject_debug_iff hd rej).1 ⟨_, hst⟩
      rw [abmReject_debug hd rej this] at hst
      cases hst; simp
  · have h1 := abmAggregate_isSum kc.inputLen m (cfg.iter st)
    refine ⟨h1.1, fun j hj c hc => ?_⟩
    rw [h1.2 j hj c hc]
    exact (((cfg.iter_perm st).map Prod.snd).map _).sum_eq

/-- When it returns. -/
theorem srvAbmResult_returns {cfg : ServerCfg} {kc : KeyCollection P} (hd : Spec.DistinctKeys kc.abmState)
    {rej : List Nat} {m : Nat} : Returns (srvAbmResult cfg kc rej m) ↔
      (cfg.build = .debug → rej.Nodup ∧ ∀ k ∈ rej, k ∈ kc.abmState.map Prod.fst) := by
  have : Returns (srvAbmResult cfg kc rej m) ↔ Returns (abmReject cfg.build kc.abmState rej) := by
    unfold srvAbmResult
    constructor
    · rintro ⟨r, h⟩
      obtain ⟨st, hst, -⟩ := bind_eq_ok.1 h
      exact ⟨st, hst⟩
    · rintro ⟨st, hst⟩
      exact ⟨_, by rw [hst]; rfl⟩
  rw [this]
  cases hb : cfg.build with
  | release => simp [abmReject, Returns]
  | debug => rw [abmReject_debug_iff hd]; simp

/-- The result request only depends on the stored tables, not on their order. -/
theorem srvAbmResult_perm {c c' : ServerCfg} (hb : c.build = c'.build) {k1 k2 : KeyCollection P}
    (hn : k1.inputLen = k2.inputLen) (d1 : Spec.DistinctKeys k1.abmState)
    (d2 : Spec.DistinctKeys k2.abmState) (hp : k1.abmState.Perm k2.abmState) (rej : List Nat) (m : Nat) :
    (srvAbmResult c k1 rej m).map Prod.snd = (srvAbmResult c' k2 rej m).map Prod.snd := by
  have hret : Returns (srvAbmResult c k1 rej m) ↔ Returns (srvAbmResult c' k2 rej m) := by
    rw [srvAbmResult_returns d1, srvAbmResult_returns d2, hb]
    have : ∀ k, k ∈ k1.abmState.map Prod.fst ↔ k ∈ k2.abmState.map Prod.fst := fun k =>
      (hp.map Prod.fst).mem_iff
    simp only [this]
  have herr : ∀ (c : ServerCfg) (k : KeyCollection P), ¬ Returns (srvAbmResult c k rej m) →
      srvAbmResult c k rej m = .error .debugAssertion := by
    intro c k hn
    unfold srvAbmResult
    cases hst : abmReject c.build k.abmState rej with
    | error p => rw [(abmReject_error hst).1]; rfl
    | ok st => exact absurd ⟨_, by unfold srvAbmResult; rw [hst]; rfl⟩ hn
  by_cases h1 : Returns (srvAbmResult c k1 rej m)
  · obtain ⟨⟨a, x⟩, e1⟩ := h1
    obtain ⟨⟨b, y⟩, e2⟩ := hret.1 ⟨_, e1⟩
    rw [e1, e2]
    obtain ⟨-, s1, t1⟩ := srvAbmResult_spec d1 e1
    obtain ⟨-, s2, t2⟩ := srvAbmResult_spec d2 e2
    have : a.abmState.Perm b.abmState := by
      rw [s1, s2, hb]
      split
      · exact hp.filter _
      · exact hp
    rw [hn] at t1
    exact congrArg Except.ok (isSum_unique t1 t2 (this.map Prod.snd))
  · rw [herr _ _ h1, herr _ _ (fun h => h1 (hret.2 h))]

/-- The result request as a whole. -/
theorem handle_abmResult (c : ServerCfg) (k : KeyCollection P) (rej : List Nat) (m s e : Nat) :
    ((Server.running k).handle c (.abmResult rej m s e)).2 =
      debugAssert c.build (decide (s < e)) >>= fun _ =>
        ((srvAbmResult c k rej m).map Prod.snd).map Resp.fieldVecs := by
  unfold Server.handle
  simp only [preLock, locked]
  cases debugAssert c.build (decide (s < e)) with
  | error p => rfl
  | ok u => cases srvAbmResult c k rej m <;> rfl

/-! ### Honest reports -/

/-- Both servers' validation of an honest report. -/
theorem abm_honest {n : Nat} {c0 c1 : KeyCollection P} (hn0 : c0.inputLen = n) (hn1 : c1.inputLen = n)
    (h0 : c0.serverId = 0) (h1 : c1.serverId ≠ 0) (hvk : c0.verifyKey = c1.verifyKey)
    {i bucket : Nat} {b0 b1 : Bool} {alpha : List Bool} {s0 s1 : ReportShare} (ha : alpha ≠ [])
    (hh : Spec.HonestPair P n alpha bucket s0 s1)
    (hc : Spec.FlpCompleteAt P n (P.xofField c0.verifyKey s0.nonce.toList (P.queryRandLen n)))
    (hr0 : c0.reportShares[i]? = some (b0, s0)) (hr1 : c1.reportShares[i]? = some (b1, s1))
    (attrs : List (List Bool)) (hp : ∀ p ∈ attrs, p ≠ [] ∧ p.length ≤ alpha.length) :
    ∃ beta v0 v1 q0 q1 dg, encodeMeasurement n bucket = some beta ∧
      abmValidateClient c0 attrs i = .ok (i, v0, q0, dg) ∧
      abmValidateClient c1 attrs i = .ok (i, v1, q1, dg) ∧
      v0.length = attrs.length ∧ v1.length = attrs.length ∧
      List.zipWith Spec.addShares v0 v1 = attrs.map (Spec.pointValue alpha beta) ∧
      P.flpDecide n (vecAdd q0 q1) = some true := by
  obtain ⟨nonce, rs, beta, pr, proof, rand, hb, hpf, e0, e1⟩ := honestPair_parts hh
  obtain ⟨hbl, hbn⟩ := encodeMeasurement_length hb
  subst hbl
  obtain ⟨v0, x0, v1, x1, bytes, t0, t1, l0, l1, hv, hx⟩ := honest_evalTree P rs alpha beta attrs ha hp
  subst e0 e1
  obtain ⟨j0, j1⟩ := jointRand_honest hn0 hn1 h0 h1 hr0 hr1
  have g0 := queryRand_eq hr0
  have g1 := queryRand_eq hr1
  rw [hn0] at g0
  rw [hn1, ← hvk] at g1
  obtain ⟨sl0, sl1⟩ := shareProof_length proof rand
  have xl : x0.length = beta.length ∧ x1.length = beta.length := by
    obtain ⟨-, -, a0, b0', c0', -, -, la0, lb0, -, hb0, -⟩ := evalTree_spec t0
    obtain ⟨-, -, a1, b1', c1', -, -, la1, lb1, -, hb1, -⟩ := evalTree_spec t1
    rw [hb0, hb1]
    simp [addShares_length la0 lb0, addShares_length la1 lb1]
  obtain ⟨w0, w1, q0, q1, hl, hd⟩ := hc bucket beta pr _ proof x0 x1 _ _ hb hpf xl.1 xl.2 hx sl0 sl1
    (shareProof_add proof rand)
  refine ⟨beta, v0, v1, w0, w1, P.blake3 bytes, hb, ?_, ?_, l0, l1, hv, ?_⟩
  · unfold abmValidateClient
    rw [idx_eq_ok.2 hr0]
    simp only [ok_bind, ReportShare.unwrapVidpfKey, hn0]
    rw [t0]
    simp only [ok_bind, j0, g0, ReportShare.unwrapFlpProofShare]
    simp only [ReportShare.nonce] at q0 ⊢
    rw [q0]; rfl
  · unfold abmValidateClient
    rw [idx_eq_ok.2 hr1]
    simp only [ok_bind, ReportShare.unwrapVidpfKey, hn1]
    rw [t1]
    simp only [ok_bind, j1, g1, ReportShare.unwrapFlpProofShare]
    simp only [ReportShare.nonce] at q1 ⊢
    rw [q1]; rfl
  · rw [vecAdd_eq_zipWith hl.le]; exact hd

/-- The server has validated exactly the clients below `s`. -/
def Covers (kc : KeyCollection P) (attrs : List (List Bool)) (s : Nat) : Prop :=
  Spec.DistinctKeys kc.abmState ∧ ∀ k, kc.abmState.lookup k = if k < s then
    (kc.reportShares[k]?).bind fun br => Spec.tableOf P kc.inputLen attrs br.2 else none

/-- The table of client `k`. -/
def tableD (kc : KeyCollection P) (attrs : List (List Bool)) (k : Nat) : List (List Field128) :=
  ((kc.reportShares[k]?).bind fun br => Spec.tableOf P kc.inputLen attrs br.2).getD []

theorem Covers.perm {kc : KeyCollection P} {attrs : List (List Bool)} {s : Nat} (h : Covers kc attrs s)
    (ht : ∀ k < s, ((kc.reportShares[k]?).bind fun br => Spec.tableOf P kc.inputLen attrs br.2)
      = some (tableD kc attrs k)) :
    (kc.abmState.map Prod.snd).Perm ((List.range s).map (tableD kc attrs)) := by
  have hk : Spec.DistinctKeys ((List.range s).map fun k => (k, tableD kc attrs k)) := by
    unfold Spec.DistinctKeys
    rw [List.map_map]
    have : (Prod.fst ∘ fun k => (k, tableD kc attrs k)) = (id : Nat → Nat) := rfl
    rw [this, List.map_id]
    exact List.nodup_range
  have := perm_of_lookup h.1 hk fun k => by
    rw [h.2 k]
    split
    · rename_i hks
      rw [ht k hks]
      symm
      rw [← mem_iff_lookup hk]
      exact List.mem_map.2 ⟨k, List.mem_range.2 hks, rfl⟩
    · rename_i hks
      symm
      rw [Option.eq_none_iff_forall_ne_some]
      intro v hv
      rw [← mem_iff_lookup hk] at hv
      obtain ⟨k', h1, h2⟩ := List.mem_map.1 hv
      cases h2
      exact hks (List.mem_range.1 h1)
  have h2 := this.map Prod.snd
  rwa [List.map_map] at h2

theorem sum_ite_countP {α : Type} (p : α → Bool) : ∀ l : List α,
    (l.map fun x => if p x then (1 : Field128) else 0).sum = ((l.countP p : Nat) : Field128)
  | [] => by simp
  | x :: l => by
    rw [List.map_cons, List.sum_cons, sum_ite_countP p l, List.countP_cons]
    split <;> simp [add_comm]

theorem pointValue_cell {n bucket : Nat} {alpha p : List Bool} {beta : List Field128}
    (hb : encodeMeasurement n bucket = some beta) {c : Nat} (hc : c < n) :
    (Spec.pointValue alpha beta p)[c]? =
      some (if p.isPrefixOf alpha && bucket == c then (1 : Field128) else 0) := by
  obtain ⟨hbl, hbn⟩ := encodeMeasurement_length hb
  unfold Spec.pointValue
  by_cases hp : p <+: alpha
  · have hp' : p.isPrefixOf alpha = true := List.isPrefixOf_iff_prefix.2 hp
    rw [if_pos hp, hp', List.getElem?_append_left (by omega)]
    unfold encodeMeasurement at hb
    rw [if_pos hbn] at hb
    cases hb
    rw [List.getElem?_set]
    by_cases he : bucket = c
    · simp [he, hc]
    · simp [he, hc]
  · have hp' : p.isPrefixOf alpha = false := by
      cases h : p.isPrefixOf alpha with
      | false => rfl
      | true => exact absurd (List.isPrefixOf_iff_prefix.1 h) hp
    rw [if_neg hp, hp', List.getElem?_replicate, if_pos (by omega)]
    simp

/-- Sum of two reconstructed rows. -/
theorem cell_add {attrs : List (List Bool)} {v0 v1 : List (List Field128)} {f : List Bool → List Field128}
    (h : List.zipWith Spec.addShares v0 v1 = attrs.map f) {j c : Nat} {p : List Bool}
    (hj : attrs[j]? = some p) {x : Field128} (hx : (f p)[c]? = some x) :
    Spec.cell v0 j c + Spec.cell v1 j c = x := by
  have h1 := congrArg (fun l => l[j]?) h
  simp only [List.getElem?_zipWith, List.getElem?_map, hj, Option.map_some] at h1
  cases e0 : v0[j]? with
  | none => rw [e0] at h1; cases h1
  | some r0 =>
    cases e1 : v1[j]? with
    | none => rw [e0, e1] at h1; cases h1
    | some r1 =>
      rw [e0, e1] at h1
      simp only [Option.some.injEq] at h1
      rw [← h1] at hx
      unfold Spec.addShares at hx
      rw [List.getElem?_zipWith] at hx
      unfold Spec.cell
      rw [e0, e1]
      simp only [Option.bind_some]
      cases a0 : r0[c]? with
      | none => rw [a0] at hx; cases hx
      | some a =>
        cases a1 : r1[c]? with
        | none => rw [a0, a1] at hx; cases hx
        | some b => rw [a0, a1] at hx; simpa using hx

theorem isTable_ext {m n : Nat} {x y : List (List Field128)} (hx : Spec.IsTable m n x)
    (hy : Spec.IsTable m n y) (h : ∀ j < m, ∀ c < n, Spec.cell x j c = Spec.cell y j c) : x = y := by
  refine List.ext_getElem (by rw [hx.1, hy.1]) fun j h1 h2 => ?_
  have lx := hx.2 _ (List.getElem_mem h1)
  have ly := hy.2 _ (List.getElem_mem h2)
  refine List.ext_getElem (by rw [lx, ly]) fun c h3 h4 => ?_
  have e1 := h j (by rw [← hx.1]; exact h1) c (by rw [← lx]; exact h3)
  simpa [Spec.cell, List.getElem?_eq_getElem h1, List.getElem?_eq_getElem h2,
    List.getElem?_eq_getElem h3, List.getElem?_eq_getElem h4] using e1

/-- The two aggregate shares of honest reports add up to the histograms. -/
theorem honest_aggregate {n s : Nat} {attrs : List (List Bool)} {clients : List (List Bool × Nat)}
    (hs : s ≤ clients.length) {V0 V1 : Nat → List (List Field128)}
    (hv : ∀ i c, i < s → clients[i]? = some c → ∃ beta, encodeMeasurement n c.2 = some beta ∧
      List.zipWith Spec.addShares (V0 i) (V1 i) = attrs.map (Spec.pointValue c.1 beta))
    {a0 a1 : List (List Field128)}
    (h0 : Spec.IsSum attrs.length n ((List.range s).map V0) a0)
    (h1 : Spec.IsSum attrs.length n ((List.range s).map V1) a1) :
    addRows a0 a1 = Spec.attributeHistograms n attrs (clients.take s) := by
  obtain ⟨t0, t1⟩ := cell_addRows h0.1 a1
  refine isTable_ext t0 ⟨by simp [Spec.attributeHistograms], ?_⟩ fun j hj c hc => ?_
  · intro r hr
    simp only [Spec.attributeHistograms, List.mem_map] at hr
    obtain ⟨p, -, rfl⟩ := hr
    simp [Spec.histogram]
  · rw [t1 j hj c hc, h0.2 j hj c hc, h1.2 j hj c hc]
    obtain ⟨p, hp⟩ : ∃ p, attrs[j]? = some p := ⟨_, List.getElem?_eq_getElem hj⟩
    have rhs : Spec.cell (Spec.attributeHistograms n attrs (clients.take s)) j c =
        (((clients.take s).countP fun cl => p.isPrefixOf cl.1 && cl.2 == c : Nat) : Field128) := by
      simp only [Spec.cell, Spec.attributeHistograms, List.getElem?_map, hp, Option.map_some,
        Option.bind_some, Spec.histogram, List.getElem?_range hc, Option.getD_some, List.countP_map,
        List.countP_filter]
      congr 2
      funext cl
      simp [Bool.and_comm]
    rw [rhs, ← sum_ite_countP, List.map_map, List.map_map]
    have hmap : ((clients.take s).map fun x =>
        if (p.isPrefixOf x.1 && x.2 == c) = true then (1 : Field128) else 0) =
        (List.range s).map fun i => Spec.cell (V0 i) j c + Spec.cell (V1 i) j c := by
      refine List.ext_getElem (by simp [hs]) fun i g1 g2 => ?_
      have his : i < s := by simpa using g2
      have hcl : clients[i]? = some (clients[i]'(by omega)) := List.getElem?_eq_getElem _
      obtain ⟨beta, hb, hz⟩ := hv i _ his hcl
      simp only [List.getElem_map, List.getElem_take, List.getElem_range]
      exact (cell_add hz hp (pointValue_cell hb hc)).symm
    rw [hmap]
    have hadd : ∀ (l : List Nat) (f g : Nat → Field128),
        (l.map f).sum + (l.map g).sum = (l.map fun i => f i + g i).sum := by
      intro l f g
      induction l with
      | nil => simp
      | cons x l ih => simp only [List.map_cons, List.sum_cons]; rw [← ih]; ring
    exact hadd _ _ _

/-! ### Honest batches -/

/-- Both servers hold honest reports and agree on the session. -/
structure HonestAbm (kcs : Pair2 P) (n : Nat) (clients : List (List Bool × Nat))
    (attrs : List (List Bool)) : Prop where
  len0 : kcs.1.inputLen = n
  len1 : kcs.2.inputLen = n
  id0 : kcs.1.serverId = 0
  id1 : kcs.2.serverId ≠ 0
  vk : kcs.1.verifyKey = kcs.2.verifyKey
  honest : Spec.HonestReports P n clients kcs.1.reportShares kcs.2.reportShares
  flp : Spec.FlpCompleteFor P n kcs.1.verifyKey kcs.1.reportShares
  attr : ∀ c ∈ clients, c.1 ≠ [] ∧ ∀ p ∈ attrs, p ≠ [] ∧ p.length ≤ c.1.length

theorem HonestAbm.client {kcs : Pair2 P} {n : Nat} {clients : List (List Bool × Nat)}
    {attrs : List (List Bool)} (h : HonestAbm kcs n clients attrs) {i : Nat} (hi : i < clients.length) :
    ∃ c beta v0 v1 q0 q1 dg, clients[i]? = some c ∧ encodeMeasurement n c.2 = some beta ∧
      abmValidateClient kcs.1 attrs i = .ok (i, v0, q0, dg) ∧
      abmValidateClient kcs.2 attrs i = .ok (i, v1, q1, dg) ∧
      List.zipWith Spec.addShares v0 v1 = attrs.map (Spec.pointValue c.1 beta) ∧
      P.flpDecide n (vecAdd q0 q1) = some true := by
  obtain ⟨c, hc⟩ : ∃ c, clients[i]? = some c := ⟨_, List.getElem?_eq_getElem hi⟩
  obtain ⟨⟨b0, s0⟩, h0⟩ : ∃ r, kcs.1.reportShares[i]? = some r :=
    ⟨_, List.getElem?_eq_getElem (by rw [h.honest.1]; exact hi)⟩
  obtain ⟨⟨b1, s1⟩, h1⟩ : ∃ r, kcs.2.reportShares[i]? = some r :=
    ⟨_, List.getElem?_eq_getElem (by rw [h.honest.2.1]; exact hi)⟩
  have hcl := h.attr c (List.mem_of_getElem? hc)
  obtain ⟨beta, v0, v1, q0, q1, dg, hb, e0, e1, -, -, hz, hd⟩ := abm_honest h.len0 h.len1 h.id0 h.id1 h.vk
    hcl.1 (h.honest.2.2 i c _ _ hc h0 h1) (h.flp _ (List.mem_of_getElem? h0)) h0 h1 attrs hcl.2
  exact ⟨c, beta, v0, v1, q0, q1, dg, hc, hb, e0, e1, hz, hd⟩

theorem HonestAbm.frame {kcs : Pair2 P} {n : Nat} {clients : List (List Bool × Nat)}
    {attrs : List (List Bool)} (h : HonestAbm kcs n clients attrs)
    (m0 m1 : List (Nat × List (List Field128))) :
    HonestAbm ({ kcs.1 with abmState := m0 }, { kcs.2 with abmState := m1 }) n clients attrs :=
  ⟨h.len0, h.len1, h.id0, h.id1, h.vk, h.honest, h.flp, h.attr⟩

theorem covers_step {kc kc' : KeyCollection P} {attrs : List (List Bool)} {s e : Nat} (hs : s ≤ e)
    {r : List (List Field128 × Vector Byte 32)} (hc : Covers kc attrs s)
    (h : srvAbmValidate kc attrs s e = .ok (kc', r)) : Covers kc' attrs e := by
  obtain ⟨h1, h2, -⟩ := abmValidate_cover h
  have hd : Spec.DistinctKeys kc'.abmState := by
    obtain ⟨results, -, -, -, rfl, -⟩ := srvAbmValidate_ok h
    exact foldl_mapInsert_distinct (fun r : Nat × List (List Field128) × List Field128 × Vector Byte 32
      => (r.1, r.2.1)) _ _ hc.1
  refine ⟨hd, fun k => ?_⟩
  have hsh : kc'.reportShares = kc.reportShares ∧ kc'.inputLen = kc.inputLen := by
    rw [h2]; exact ⟨rfl, rfl⟩
  rw [h1 k, hc.2 k, hsh.1, hsh.2]
  by_cases a : s ≤ k <;> by_cases b : k < e <;> by_cases c : k < s <;> simp [a, b, c] <;> omega

theorem honest_validate {kc : KeyCollection P} {attrs : List (List Bool)} {s e : Nat} (hs : s ≤ e)
    {x : Nat → List (List Field128)} {q : Nat → List Field128} {dg : Nat → Vector Byte 32}
    (h : ∀ i, s ≤ i → i < e → abmValidateClient kc attrs i = .ok (i, x i, q i, dg i)) :
    ∃ m, srvAbmValidate kc attrs s e = .ok ({ kc with abmState := m },
      (rangeFrom s e).map fun i => (q i, dg i)) := by
  unfold srvAbmValidate withCapacity
  rw [if_pos hs, ok_bind]
  have : mapE (abmValidateClient kc attrs) (rangeFrom s e) =
      .ok ((rangeFrom s e).map fun i => (i, x i, q i, dg i)) := by
    rw [mapE_eq_ok_iff_getElem]
    refine ⟨by simp, fun j i hj => ⟨_, ?_, h i ?_ ?_⟩⟩
    · rw [List.getElem?_map, hj]; rfl
    · exact (rangeFrom_mem.1 (List.mem_of_getElem? hj)).1
    · exact (rangeFrom_mem.1 (List.mem_of_getElem? hj)).2
  rw [this]
  refine ⟨((rangeFrom s e).map fun i => (i, x i, q i, dg i)).foldl
      (fun m r => mapInsert m r.1 r.2.1) kc.abmState, ?_⟩
  simp only [ok_bind, List.map_map]; rfl

theorem rangeFrom_length (s e : Nat) : (rangeFrom s e).length = e - s := by simp [rangeFrom]

theorem abmReject_nil (bld : Build) (st : List (Nat × List (List Field128))) :
    abmReject bld st [] = .ok st := by cases bld <;> rfl

theorem honest_abmBatch {c0 c1 : ServerCfg} {cfg : Config} {kcs : Pair2 P} {n : Nat}
    {clients : List (List Bool × Nat)} {attrs : List (List Bool)} (hh : HonestAbm kcs n clients attrs)
    (hn : cfg.histBuckets = n) {s e : Nat} (hse : s < e) (he : e ≤ clients.length)
    (v0 : Covers kcs.1 attrs s) (v1 : Covers kcs.2 attrs s) :
    ∃ m0 m1, abmBatch c0 c1 cfg attrs kcs (s, e) =
      .ok (({ kcs.1 with abmState := m0 }, { kcs.2 with abmState := m1 }),
        ⟨[], Spec.attributeHistograms n attrs (clients.take e)⟩) ∧
      Covers { kcs.1 with abmState := m0 } attrs e ∧ Covers { kcs.2 with abmState := m1 } attrs e := by
  classical
  have hcl : ∀ i, ∃ c beta w0 w1 q0 q1 dg, i < e → (clients[i]? = some c ∧
      encodeMeasurement n c.2 = some beta ∧
      abmValidateClient kcs.1 attrs i = .ok (i, w0, q0, dg) ∧
      abmValidateClient kcs.2 attrs i = .ok (i, w1, q1, dg) ∧
      List.zipWith Spec.addShares w0 w1 = attrs.map (Spec.pointValue c.1 beta) ∧
      P.flpDecide n (vecAdd q0 q1) = some true) := by
    intro i
    by_cases hi : i < e
    · obtain ⟨c, beta, v0, v1, q0, q1, dg, h⟩ := hh.client (i := i) (by omega)
      exact ⟨c, beta, v0, v1, q0, q1, dg, fun _ => h⟩
    · exact ⟨([], 0), [], [], [], [], [], P.blake3 [], fun h => absurd h hi⟩
  choose C B W0 W1 Q0 Q1 D hcl using hcl
  obtain ⟨m0, e0⟩ := honest_validate (kc := kcs.1) (attrs := attrs) (s := s) (e := e) hse.le
    (x := W0) (q := Q0) (dg := D) fun i _ h => (hcl i h).2.2.1
  obtain ⟨m1, e1⟩ := honest_validate (kc := kcs.2) (attrs := attrs) (s := s) (e := e) hse.le
    (x := W1) (q := Q1) (dg := D) fun i _ h => (hcl i h).2.2.2.1
  have k0 := covers_step hse.le v0 e0
  have k1 := covers_step hse.le v1 e1
  refine ⟨m0, m1, ?_, k0, k1⟩
  have hrej : mapE (rejectEntries P cfg.histBuckets) ((rangeFrom s e).zip
      (((rangeFrom s e).map fun i => (Q0 i, D i)).zip ((rangeFrom s e).map fun i => (Q1 i, D i)))) =
      .ok ((rangeFrom s e).map fun _ => []) := by
    rw [mapE_eq_ok_iff_getElem]
    refine ⟨by simp, fun j x hj => ⟨[], ?_, ?_⟩⟩
    · have : j < (rangeFrom s e).length := by
        have := (List.getElem?_eq_some_iff.1 hj).1
        rw [List.length_zip] at this; omega
      rw [List.getElem?_map, List.getElem?_eq_getElem this]; rfl
    · rw [List.getElem?_zip_eq_some] at hj
      obtain ⟨h1, h2⟩ := hj
      rw [List.getElem?_zip_eq_some, List.getElem?_map, List.getElem?_map, h1] at h2
      obtain ⟨h2, h3⟩ := h2
      simp only [Option.map_some, Option.some.injEq] at h2 h3
      have hd := (hcl x.1 (rangeFrom_mem.1 (List.mem_of_getElem? h1)).2).2.2.2.2.2
      unfold rejectEntries
      rw [← h2, ← h3, hn]
      simp only
      rw [hd]
      simp [unwrapO]
  have hflat : ((rangeFrom s e).map fun _ => ([] : List Nat)).flatten = [] := by
    rw [List.flatten_eq_nil_iff]
    intro l hl
    obtain ⟨_, -, rfl⟩ := List.mem_map.1 hl
    rfl
  have hlen : ∀ {α : Type} (f : Nat → α), (((rangeFrom s e).map f).length == e - s) = true := by
    intro α f; rw [List.length_map, rangeFrom_length]; simp
  unfold abmBatch
  simp only [hse, decide_true, debugAssert_true, ok_bind]
  rw [e0]
  simp only [ok_bind]
  rw [e1]
  simp only [ok_bind, hlen, assertE_true, hrej, hflat]
  unfold srvAbmResult
  simp only [abmReject_nil, ok_bind]
  congr 3
  have t0 : ∀ k < e, (kcs.1.reportShares[k]?.bind fun br => Spec.tableOf P kcs.1.inputLen attrs br.2)
      = some (W0 k) := by
    intro k hk
    obtain ⟨b, s', h5, h6⟩ := abmValidate_table (hcl k hk).2.2.1
    rw [h5]; exact h6
  have t1 : ∀ k < e, (kcs.2.reportShares[k]?.bind fun br => Spec.tableOf P kcs.2.inputLen attrs br.2)
      = some (W1 k) := by
    intro k hk
    obtain ⟨b, s', h5, h6⟩ := abmValidate_table (hcl k hk).2.2.2.1
    rw [h5]; exact h6
  have p0 := k0.perm fun k hk => by
    unfold tableD
    have := t0 k hk
    dsimp only at this ⊢
    rw [this]; rfl
  have p1 := k1.perm fun k hk => by
    unfold tableD
    have := t1 k hk
    dsimp only at this ⊢
    rw [this]; rfl
  have sum0 := abmAggregate_isSum n attrs.length (c0.iter m0)
  have sum1 := abmAggregate_isSum n attrs.length (c1.iter m1)
  rw [hh.len0, hh.len1]
  refine honest_aggregate he (V0 := W0) (V1 := W1) ?_ ⟨sum0.1, ?_⟩ ⟨sum1.1, ?_⟩
  · intro i c hi hc
    obtain ⟨h1, h2, -, -, h3, -⟩ := hcl i hi
    rw [h1] at hc; cases hc
    exact ⟨_, h2, h3⟩
  · intro j hj c hc
    rw [sum0.2 j hj c hc]
    refine ((((c0.iter_perm m0).map Prod.snd).trans p0).map _).sum_eq.trans ?_
    rw [List.map_map, List.map_map]
    refine congrArg List.sum (List.map_congr_left fun k hk => ?_)
    show Spec.cell (tableD _ attrs k) j c = Spec.cell (W0 k) j c
    unfold tableD
    have := t0 k (List.mem_range.1 hk)
    dsimp only at this ⊢
    rw [this]; rfl
  · intro j hj c hc
    rw [sum1.2 j hj c hc]
    refine ((((c1.iter_perm m1).map Prod.snd).trans p1).map _).sum_eq.trans ?_
    rw [List.map_map, List.map_map]
    refine congrArg List.sum (List.map_congr_left fun k hk => ?_)
    show Spec.cell (tableD _ attrs k) j c = Spec.cell (W1 k) j c
    unfold tableD
    have := t1 k (List.mem_range.1 hk)
    dsimp only at this ⊢
    rw [this]; rfl

theorem honest_abmLoop {c0 c1 : ServerCfg} {cfg : Config} {n : Nat} {clients : List (List Bool × Nat)}
    {attrs : List (List Bool)} (hn : cfg.histBuckets = n) :
    ∀ (rs : List (Nat × Nat)) {kcs : Pair2 P} {s : Nat}, HonestAbm kcs n clients attrs →
      Covers kcs.1 attrs s → Covers kcs.2 attrs s → s ≤ clients.length →
      (∀ r ∈ rs, r.1 < r.2 ∧ r.2 ≤ clients.length) →
      (rs.flatMap fun r => List.range' r.1 (r.2 - r.1)) = List.range' s (clients.length - s) →
      ∃ kcs', abmLoop c0 c1 cfg attrs rs kcs = .ok (kcs', rs.map fun r =>
        ⟨[], Spec.attributeHistograms n attrs (clients.take r.2)⟩)
  | [], kcs, _, _, _, _, _, _, _ => ⟨kcs, rfl⟩
  | r :: rs, kcs, s, hh, v0, v1, hs, hr, hf => by
    obtain ⟨h1, h2⟩ := hr r (by simp)
    rw [List.flatMap_cons] at hf
    have hr1 : r.1 = s := by
      have := congrArg List.head? hf
      rw [List.head?_append] at this
      rcases hd : r.2 - r.1 with _ | d
      · omega
      · rw [hd, List.range'_succ] at this
        rcases hd' : clients.length - s with _ | d'
        · rw [hd'] at this; simp at this
        · rw [hd', List.range'_succ] at this; simpa using this
    obtain ⟨m0, m1, hb, w0, w1⟩ := honest_abmBatch (c0 := c0) (c1 := c1) (cfg := cfg) hh hn h1 h2
      (hr1 ▸ v0) (hr1 ▸ v1)
    have hf' : (rs.flatMap fun r => List.range' r.1 (r.2 - r.1))
        = List.range' r.2 (clients.length - r.2) := by
      have hsplit : List.range' s (clients.length - s) =
          List.range' r.1 (r.2 - r.1) ++ List.range' r.2 (clients.length - r.2) := by
        have := List.range'_append (s := s) (m := r.2 - r.1) (n := clients.length - r.2) (step := 1)
        rw [show s + 1 * (r.2 - r.1) = r.2 by omega,
          show r.2 - r.1 + (clients.length - r.2) = clients.length - s by omega] at this
        rw [hr1] at this ⊢
        exact this.symm
      rw [hsplit] at hf
      exact List.append_cancel_left hf
    obtain ⟨kcs', hl⟩ := honest_abmLoop hn rs (hh.frame m0 m1) w0 w1 h2
      (fun x hx => hr x (by simp [hx])) hf'
    exact ⟨kcs', by unfold abmLoop; rw [hb]; simp only [ok_bind]; rw [hl]; rfl⟩

end Mastic
