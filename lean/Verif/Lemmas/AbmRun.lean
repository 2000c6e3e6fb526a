import Verif.Spec.Abm
import Verif.Lemmas.Abm
import Verif.Lemmas.FlpInit

/-!
# Whole attribute-based-metrics runs on arbitrary reports
-/

namespace Mastic

variable {P : Prims}

theorem mapM_eq_some_forall₂ {α β : Type} {f : α → Option β} : ∀ {as : List α} {bs : List β},
    as.mapM f = some bs → List.Forall₂ (fun a b => f a = some b) as bs
  | [], bs, h => by
    simp only [List.mapM_nil, Option.pure_def, Option.some.injEq] at h
    subst h; exact .nil
  | a :: as, bs, h => by
    rw [List.mapM_cons] at h
    cases ha : f a with
    | none => rw [ha] at h; cases h
    | some b =>
      rw [ha] at h
      cases has : as.mapM f with
      | none => rw [has] at h; cases h
      | some bs' =>
        rw [has] at h
        cases h
        exact .cons ha (mapM_eq_some_forall₂ has)

/-- A server's answer for one report, in terms of the specification. -/
theorem judged_validate {kc : KeyCollection P} {attrs : List (List Bool)} {i d : Nat} {b : Bool}
    {s : ReportShare} {t : List (List Field128)} {q : List Field128} {dg : Vector Byte 32}
    (hr : kc.reportShares[i]? = some (b, s)) (hw : Spec.WellFormed d s) (hd : 1 ≤ d)
    (ha : ∀ p ∈ attrs, p ≠ [] ∧ p.length ≤ d) (ht : Spec.tableOf P kc.inputLen attrs s = some t)
    (hq : Spec.verifierOf P kc.inputLen kc.serverId kc.verifyKey s = some q)
    (hg : Spec.digestOf P kc.inputLen attrs s = some dg) :
    abmValidateClient kc attrs i = .ok (i, t, q, dg) := by
  obtain ⟨key, hk, hcs, hlen⟩ := hw
  cases s with
  | prio3 => cases hk
  | mastic nonce key' proof parts =>
    cases hk
    obtain ⟨⟨vs, beta, bytes⟩, e⟩ := evalTree_returns (P := P) hcs (by omega) kc.inputLen attrs
      fun p hp => ⟨(ha p hp).1, (ha p hp).2.trans hlen⟩
    obtain ⟨g1, -, y0, y1, cnt, w0, w1, -, -, hc, hbeta, hbytes⟩ := evalTree_spec e
    have hvt : vs = t := by
      have h1 : attrs.mapM (fun p => Spec.valueAt P key kc.inputLen p) = some vs :=
        mapM_of_forall₂ (g1.imp fun _ _ h => h.1)
      have h2 : attrs.mapM (fun p => Spec.valueAt P key kc.inputLen p) = some t := ht
      rw [h1] at h2
      exact Option.some.inj h2
    have hdg : P.blake3 bytes = dg := by
      simp only [Spec.digestOf, w0, w1, Option.bind_eq_bind, Option.bind_some, hc, Option.some.injEq] at hg
      rw [← hg, hbytes]
      congr 2
      cases key.keyIdx
      · rfl
      · simp only [if_true]; congr 1; ring
    unfold abmValidateClient KeyCollection.flpJointRand
    rw [idx_eq_ok.2 hr]
    simp only [ok_bind, ReportShare.unwrapVidpfKey, e, queryRand_eq hr, ReportShare.unwrapFlpProofShare,
      ReportShare.unwrapFlpJointRandParts, ReportShare.nonce]
    simp only [Spec.verifierOf, w0, w1, Option.bind_eq_bind, Option.bind_some] at hq
    rw [← hbeta] at hq
    by_cases h0 : kc.serverId = 0
    · simp only [h0, if_true] at hq ⊢
      have hq' : P.flpQuery kc.inputLen beta proof
          (P.xofField kc.verifyKey nonce.toList (P.queryRandLen kc.inputLen))
          (P.xofField (P.xofBlock key.getRootSeed Block.zero.toList (0#8 :: nonce.toList)) parts.2.toList
            (P.jointRandLen kc.inputLen)) = some q := hq
      rw [hq', hvt, hdg]; rfl
    · simp only [h0, if_false] at hq ⊢
      have hq' : P.flpQuery kc.inputLen beta proof
          (P.xofField kc.verifyKey nonce.toList (P.queryRandLen kc.inputLen))
          (P.xofField parts.1 (P.xofBlock key.getRootSeed Block.zero.toList (1#8 :: nonce.toList)).toList
            (P.jointRandLen kc.inputLen)) = some q := hq
      rw [hq', hvt, hdg]; rfl

/-- Both servers hold reports that are judged as listed. -/
structure JudgedAbm (kcs : Pair2 P) (n d : Nat) (clients : List Spec.AbmClient)
    (attrs : List (List Bool)) : Prop where
  len0 : kcs.1.inputLen = n
  len1 : kcs.2.inputLen = n
  vk : kcs.1.verifyKey = kcs.2.verifyKey
  depth : 1 ≤ d
  attr : ∀ p ∈ attrs, p ≠ [] ∧ p.length ≤ d
  size0 : kcs.1.reportShares.length = clients.length
  size1 : kcs.2.reportShares.length = clients.length
  judged : ∀ (i : Nat) (c : Spec.AbmClient) (r0 r1 : Bool × ReportShare), clients[i]? = some c →
    kcs.1.reportShares[i]? = some r0 → kcs.2.reportShares[i]? = some r1 →
    Spec.WellFormed d r0.2 ∧ Spec.WellFormed d r1.2 ∧
    Spec.Judged P n attrs kcs.1.serverId kcs.2.serverId kcs.1.verifyKey r0.2 r1.2 c.verdict c.table0 c.table1

theorem JudgedAbm.frame {kcs : Pair2 P} {n d : Nat} {clients : List Spec.AbmClient}
    {attrs : List (List Bool)} (h : JudgedAbm kcs n d clients attrs)
    (m0 m1 : List (Nat × List (List Field128))) :
    JudgedAbm ({ kcs.1 with abmState := m0 }, { kcs.2 with abmState := m1 }) n d clients attrs :=
  ⟨h.len0, h.len1, h.vk, h.depth, h.attr, h.size0, h.size1, h.judged⟩

theorem JudgedAbm.client {kcs : Pair2 P} {n d : Nat} {clients : List Spec.AbmClient}
    {attrs : List (List Bool)} (h : JudgedAbm kcs n d clients attrs) {i : Nat} (hi : i < clients.length) :
    ∃ c q0 q1 d0 d1, clients[i]? = some c ∧
      abmValidateClient kcs.1 attrs i = .ok (i, c.table0, q0, d0) ∧
      abmValidateClient kcs.2 attrs i = .ok (i, c.table1, q1, d1) ∧
      P.flpDecide n (vecAdd q0 q1) = some c.verdict.flp ∧ c.verdict.proof = decide (d0 = d1) := by
  obtain ⟨c, hc⟩ : ∃ c, clients[i]? = some c := ⟨_, List.getElem?_eq_getElem hi⟩
  obtain ⟨⟨b0, s0⟩, h0⟩ : ∃ r, kcs.1.reportShares[i]? = some r :=
    ⟨_, List.getElem?_eq_getElem (by rw [h.size0]; exact hi)⟩
  obtain ⟨⟨b1, s1⟩, h1⟩ : ∃ r, kcs.2.reportShares[i]? = some r :=
    ⟨_, List.getElem?_eq_getElem (by rw [h.size1]; exact hi)⟩
  obtain ⟨w0, w1, ⟨q0, q1, e0, e1, hl, hf⟩, ⟨d0, d1, g0, g1, hv⟩, t0, t1⟩ := h.judged i c _ _ hc h0 h1
  refine ⟨c, q0, q1, d0, d1, hc, ?_, ?_, by rw [vecAdd_eq_zipWith hl]; exact hf, hv⟩
  · exact judged_validate h0 w0 h.depth h.attr (by rw [h.len0]; exact t0) (by rw [h.len0]; exact e0)
      (by rw [h.len0]; exact g0)
  · exact judged_validate h1 w1 h.depth h.attr (by rw [h.len1]; exact t1) (by rw [h.len1, ← h.vk]; exact e1)
      (by rw [h.len1]; exact g1)

/-- The stored tables are those of the counted clients below `s`. -/
def Holds (bld : Build) (tbl : Spec.AbmClient → List (List Field128)) (clients : List Spec.AbmClient)
    (st : List (Nat × List (List Field128))) (s : Nat) : Prop :=
  Spec.DistinctKeys st ∧ ∀ k, st.lookup k = if k < s then
    (clients[k]?).bind fun c => if Spec.counts bld c then some (tbl c) else none else none

theorem Holds.perm {bld : Build} {tbl : Spec.AbmClient → List (List Field128)} {clients : List Spec.AbmClient}
    {st : List (Nat × List (List Field128))} {s : Nat} (h : Holds bld tbl clients st s) :
    (st.map Prod.snd).Perm (((clients.take s).filter (Spec.counts bld)).map tbl) := by
  set L : List (Nat × List (List Field128)) :=
    ((clients.take s).zipIdx.filter fun x => Spec.counts bld x.1).map fun x => (x.2, tbl x.1) with hL
  have hk : Spec.DistinctKeys L := by
    unfold Spec.DistinctKeys
    rw [hL, List.map_map]
    have h1 : (Prod.fst ∘ fun x : Spec.AbmClient × Nat => (x.2, tbl x.1)) = Prod.snd := rfl
    rw [h1]
    refine List.Nodup.sublist (List.filter_sublist.map _) ?_
    rw [List.zipIdx_map_snd]
    exact List.nodup_range'
  have hp : st.Perm L := by
    refine (List.perm_ext_iff_of_nodup (List.Nodup.of_map _ h.1) (List.Nodup.of_map _ hk)).2 ?_
    rintro ⟨k, v⟩
    rw [mem_iff_lookup h.1, h.2 k, hL, List.mem_map]
    constructor
    · intro hv
      split at hv
      · rename_i hks
        cases hc : clients[k]? with
        | none => rw [hc] at hv; cases hv
        | some c =>
          rw [hc] at hv
          simp only [Option.bind_some] at hv
          split at hv
          · rename_i hcc
            cases hv
            refine ⟨(c, k), List.mem_filter.2 ⟨?_, hcc⟩, rfl⟩
            rw [List.mem_zipIdx_iff_getElem?, List.getElem?_take, if_pos hks]
            exact hc
          · cases hv
      · cases hv
    · rintro ⟨⟨c, k'⟩, hm, he⟩
      cases he
      obtain ⟨h1, h2⟩ := List.mem_filter.1 hm
      rw [List.mem_zipIdx_iff_getElem?, List.getElem?_take] at h1
      split at h1
      · rename_i hks
        dsimp only at hks h1
        rw [if_pos hks, h1]
        simp only [Option.bind_some]
        rw [if_pos h2]
      · cases h1
  have h2 := hp.map Prod.snd
  have h3 : L.map Prod.snd = ((clients.take s).filter (Spec.counts bld)).map tbl := by
    rw [hL, List.map_map]
    have h4 : (Prod.snd ∘ fun x : Spec.AbmClient × Nat => (x.2, tbl x.1)) = tbl ∘ Prod.fst := rfl
    rw [h4, ← List.map_map]
    congr 1
    conv_rhs => rw [← List.zipIdx_map_fst 0 (clients.take s)]
    rw [List.filter_map]
    rfl
  rwa [h3] at h2

theorem cell_sumTables {m n : Nat} (ts : List (List (List Field128))) :
    Spec.IsSum m n ts (Spec.sumTables m n ts) := by
  refine ⟨⟨by simp [Spec.sumTables], ?_⟩, fun j hj c hc => ?_⟩
  · intro r hr
    obtain ⟨j, -, rfl⟩ := List.mem_map.1 hr
    simp
  · simp [Spec.cell, Spec.sumTables, List.getElem?_range hj, List.getElem?_range hc]

/-- Two aggregates added. -/
theorem addRows_sum {m n : Nat} {t0 t1 : List (List (List Field128))} {a0 a1 : List (List Field128)}
    (h0 : Spec.IsSum m n t0 a0) (h1 : Spec.IsSum m n t1 a1) :
    addRows a0 a1 = Spec.sumTables m n (t0 ++ t1) := by
  obtain ⟨g0, g1⟩ := cell_addRows h0.1 a1
  have h := cell_sumTables (m := m) (n := n) (t0 ++ t1)
  refine isTable_ext g0 h.1 fun j hj c hc => ?_
  rw [g1 j hj c hc, h0.2 j hj c hc, h1.2 j hj c hc, h.2 j hj c hc, List.map_append, List.sum_append]

/-! ### Rejections -/

theorem rejections_mem {clients : List Spec.AbmClient} {s e k : Nat} :
    k ∈ Spec.rejections clients s e ↔ s ≤ k ∧ k < e ∧ ∃ c, clients[k]? = some c ∧
      (c.verdict.flp = false ∨ c.verdict.proof = false) := by
  simp only [Spec.rejections, List.mem_flatMap]
  constructor
  · rintro ⟨i, hi, hk⟩
    have hr := rangeFrom_mem.1 (show i ∈ rangeFrom s e from hi)
    cases hc : clients[i]? with
    | none => rw [hc] at hk; simp at hk
    | some c =>
      rw [hc] at hk
      rcases c with ⟨⟨f, p⟩, t0, t1⟩
      cases f <;> cases p <;> simp at hk <;> subst hk <;> exact ⟨hr.1, hr.2, _, hc, by simp⟩
  · rintro ⟨h1, h2, c, hc, hv⟩
    refine ⟨k, rangeFrom_mem.2 ⟨h1, h2⟩, ?_⟩
    rw [hc]
    rcases c with ⟨⟨f, p⟩, t0, t1⟩
    cases f <;> cases p <;> simp at hv ⊢

theorem rejections_nodup {clients : List Spec.AbmClient} {s e : Nat} :
    (Spec.rejections clients s e).Nodup ↔ ∀ k c, s ≤ k → k < e → clients[k]? = some c →
      ¬ (c.verdict.flp = false ∧ c.verdict.proof = false) := by
  unfold Spec.rejections
  rw [List.nodup_flatMap]
  constructor
  · rintro ⟨h, -⟩ k c h1 h2 hc ⟨e1, e2⟩
    have := h k (rangeFrom_mem.2 ⟨h1, h2⟩ : k ∈ rangeFrom s e)
    rw [hc] at this
    simp [e1, e2] at this
  · intro h
    constructor
    · intro k hk
      have hr := rangeFrom_mem.1 (show k ∈ rangeFrom s e from hk)
      cases hc : clients[k]? with
      | none => simp
      | some c =>
        have := h k c hr.1 hr.2 hc
        rcases c with ⟨⟨f, p⟩, t0, t1⟩
        cases f <;> cases p <;> simp at this ⊢
    · have : (List.range' s (e - s)).Pairwise (· ≠ ·) := List.nodup_range'
      refine this.imp fun {a b} hab => ?_
      intro x hx hy
      have hin : ∀ i, x ∈ (match clients[i]? with
          | none => []
          | some c => (if c.verdict.flp then [] else [i]) ++ (if c.verdict.proof then [] else [i])) → x = i := by
        intro i hi
        cases hc : clients[i]? with
        | none => rw [hc] at hi; simp at hi
        | some c =>
          rw [hc] at hi
          rcases c with ⟨⟨f, p⟩, t0, t1⟩
          cases f <;> cases p <;> simp at hi <;> exact hi
      exact hab ((hin a hx).symm.trans (hin b hy))

/-- One server's part of a batch after validation. -/
theorem judged_result {c : ServerCfg} {kc : KeyCollection P} {tbl : Spec.AbmClient → List (List Field128)}
    {clients : List Spec.AbmClient} {s e m : Nat} (hs : s ≤ e)
    (hd : Spec.DistinctKeys kc.abmState)
    (hl : ∀ k, kc.abmState.lookup k = if s ≤ k ∧ k < e then (clients[k]?).map tbl else
      if k < s then (clients[k]?).bind fun x => if Spec.counts c.build x then some (tbl x) else none else none) :
    ((c.build = .debug ∧ ∃ k x, s ≤ k ∧ k < e ∧ clients[k]? = some x ∧ x.verdict.flp = false ∧
        x.verdict.proof = false) →
      srvAbmResult c kc (Spec.rejections clients s e) m = .error .debugAssertion) ∧
    (¬ (c.build = .debug ∧ ∃ k x, s ≤ k ∧ k < e ∧ clients[k]? = some x ∧ x.verdict.flp = false ∧
        x.verdict.proof = false) →
      ∃ st rows, srvAbmResult c kc (Spec.rejections clients s e) m = .ok ({ kc with abmState := st }, rows) ∧
        Holds c.build tbl clients st e ∧
        Spec.IsSum m kc.inputLen (((clients.take e).filter (Spec.counts c.build)).map tbl) rows) := by
  have hret := srvAbmResult_returns (cfg := c) hd (rej := Spec.rejections clients s e) (m := m)
  have hkey : ∀ k ∈ Spec.rejections clients s e, k ∈ kc.abmState.map Prod.fst := by
    intro k hk
    obtain ⟨h1, h2, x, hx, -⟩ := rejections_mem.1 hk
    have := hl k
    rw [if_pos ⟨h1, h2⟩, hx, Option.map_some, ← mem_iff_lookup hd] at this
    exact List.mem_map.2 ⟨_, this, rfl⟩
  constructor
  · rintro ⟨hb, k, x, h1, h2, h3, h4, h5⟩
    cases hr : srvAbmResult c kc (Spec.rejections clients s e) m with
    | error p =>
      unfold srvAbmResult at hr
      cases ha : abmReject c.build kc.abmState (Spec.rejections clients s e) with
      | error p' => rw [ha] at hr; cases hr; rw [(abmReject_error ha).1]
      | ok st => rw [ha] at hr; cases hr
    | ok r =>
      have := (hret.1 ⟨_, hr⟩ hb).1
      exact absurd ⟨h4, h5⟩ (rejections_nodup.1 this k x h1 h2 h3)
  · intro hn
    obtain ⟨⟨kc', rows⟩, hr⟩ := hret.2 fun hb => ⟨rejections_nodup.2 fun k x h1 h2 h3 h4 =>
      hn ⟨hb, k, x, h1, h2, h3, h4.1, h4.2⟩, hkey⟩
    obtain ⟨g1, g2, g3⟩ := srvAbmResult_spec hd hr
    have hH : Holds c.build tbl clients kc'.abmState e := by
      constructor
      · rw [g2]; split
        · exact distinct_filter hd _
        · exact hd
      · intro k
        rw [g2]
        cases hb : c.build with
        | release =>
          rw [if_neg (by simp), hl k, hb]
          have hc : ∀ o : Option Spec.AbmClient, (o.bind fun x => if Spec.counts .release x then some (tbl x) else none)
              = o.map tbl := by
            intro o; cases o <;> rfl
          rw [hc]
          by_cases a : s ≤ k <;> by_cases b : k < e <;> by_cases d : k < s <;> simp [a, b, d] <;> omega
        | debug =>
          rw [if_pos rfl]
          have hf := lookup_filter_ne kc.abmState (fun k => decide (k ∉ Spec.rejections clients s e)) k
          rw [hf, hl k, hb]
          by_cases hk : k ∈ Spec.rejections clients s e
          · obtain ⟨h1, h2, x, hx, hv⟩ := rejections_mem.1 hk
            have : Spec.counts .debug x = false := by
              rcases hv with hv | hv <;> simp [Spec.counts, hv]
            rw [if_neg (by simpa using hk), if_pos h2, hx]
            simp [this]
          · rw [if_pos (by simpa using hk)]
            by_cases hin : s ≤ k ∧ k < e
            · rw [if_pos hin, if_pos hin.2]
              cases hx : clients[k]? with
              | none => rfl
              | some x =>
                have : Spec.counts .debug x = true := by
                  by_contra hcn
                  refine hk (rejections_mem.2 ⟨hin.1, hin.2, x, hx, ?_⟩)
                  rcases x with ⟨⟨f, p⟩, t0, t1⟩
                  cases f <;> cases p <;> simp [Spec.counts] at hcn ⊢
                simp [this]
            · rw [if_neg hin]
              by_cases a : k < s
              · rw [if_pos a, if_pos (by omega)]
              · rw [if_neg a, if_neg (by omega)]
    refine ⟨kc'.abmState, rows, by rw [hr, ← g1], hH, g3.1, fun j hj c' hc' => ?_⟩
    rw [g3.2 j hj c' hc']
    exact (hH.perm.map _).sum_eq

/-- The state after validating a batch. -/
theorem holds_validate {bld : Build} {kc kc' : KeyCollection P} {attrs : List (List Bool)}
    {tbl : Spec.AbmClient → List (List Field128)} {clients : List Spec.AbmClient} {s e : Nat}
    {q : Nat → List Field128} {dg : Nat → Vector Byte 32} {r : List (List Field128 × Vector Byte 32)}
    (hH : Holds bld tbl clients kc.abmState s) (h : srvAbmValidate kc attrs s e = .ok (kc', r))
    (hv : ∀ k, s ≤ k → k < e → ∃ x, clients[k]? = some x ∧
      abmValidateClient kc attrs k = .ok (k, tbl x, q k, dg k)) :
    Spec.DistinctKeys kc'.abmState ∧ ∀ k, kc'.abmState.lookup k = if s ≤ k ∧ k < e then (clients[k]?).map tbl else
      if k < s then (clients[k]?).bind fun x => if Spec.counts bld x then some (tbl x) else none else none := by
  obtain ⟨h1, -, -⟩ := abmValidate_cover h
  refine ⟨?_, fun k => ?_⟩
  · obtain ⟨results, -, -, -, rfl, -⟩ := srvAbmValidate_ok h
    exact foldl_mapInsert_distinct (fun r : Nat × List (List Field128) × List Field128 × Vector Byte 32
      => (r.1, r.2.1)) _ _ hH.1
  · rw [h1 k, hH.2 k]
    split
    · rename_i hk
      obtain ⟨x, hx, hv⟩ := hv k hk.1 hk.2
      obtain ⟨b, s', h5, h6⟩ := abmValidate_table hv
      rw [h5, hx]
      exact h6
    · rfl

/-- Some client of the range fails both checks. -/
def FailsBoth (clients : List Spec.AbmClient) (s e : Nat) : Prop :=
  ∃ k x, s ≤ k ∧ k < e ∧ clients[k]? = some x ∧ x.verdict.flp = false ∧ x.verdict.proof = false

/-- One batch. -/
theorem judged_abmBatch {c0 c1 : ServerCfg} {cfg : Config} {kcs : Pair2 P} {n d : Nat}
    {clients : List Spec.AbmClient} {attrs : List (List Bool)} (hh : JudgedAbm kcs n d clients attrs)
    (hn : cfg.histBuckets = n) {s e : Nat} (hse : s < e) (he : e ≤ clients.length)
    (v0 : Holds c0.build Spec.AbmClient.table0 clients kcs.1.abmState s)
    (v1 : Holds c1.build Spec.AbmClient.table1 clients kcs.2.abmState s) :
    (((c0.build = .debug ∨ c1.build = .debug) ∧ FailsBoth clients s e) →
      abmBatch c0 c1 cfg attrs kcs (s, e) = .error .debugAssertion) ∧
    (¬ ((c0.build = .debug ∨ c1.build = .debug) ∧ FailsBoth clients s e) →
      ∃ m0 m1, abmBatch c0 c1 cfg attrs kcs (s, e) =
        .ok (({ kcs.1 with abmState := m0 }, { kcs.2 with abmState := m1 }),
          Spec.abmBatchOut c0.build c1.build attrs.length n clients (s, e)) ∧
        Holds c0.build Spec.AbmClient.table0 clients m0 e ∧
        Holds c1.build Spec.AbmClient.table1 clients m1 e) := by
  classical
  have hcl : ∀ i, ∃ c q0 q1 d0 d1, i < e → (clients[i]? = some c ∧
      abmValidateClient kcs.1 attrs i = .ok (i, c.table0, q0, d0) ∧
      abmValidateClient kcs.2 attrs i = .ok (i, c.table1, q1, d1) ∧
      P.flpDecide n (vecAdd q0 q1) = some c.verdict.flp ∧ c.verdict.proof = decide (d0 = d1)) := by
    intro i
    by_cases hi : i < e
    · obtain ⟨c, q0, q1, d0, d1, h⟩ := hh.client (i := i) (by omega)
      exact ⟨c, q0, q1, d0, d1, fun _ => h⟩
    · exact ⟨⟨⟨true, true⟩, [], []⟩, [], [], P.blake3 [], P.blake3 [], fun h => absurd h hi⟩
  choose C Q0 Q1 D0 D1 hcl using hcl
  obtain ⟨m0, e0⟩ := honest_validate (kc := kcs.1) (attrs := attrs) (s := s) (e := e) hse.le
    (x := fun i => (C i).table0) (q := Q0) (dg := D0) fun i _ h => (hcl i h).2.1
  obtain ⟨m1, e1⟩ := honest_validate (kc := kcs.2) (attrs := attrs) (s := s) (e := e) hse.le
    (x := fun i => (C i).table1) (q := Q1) (dg := D1) fun i _ h => (hcl i h).2.2.1
  obtain ⟨i0, l0⟩ := holds_validate v0 e0 (q := Q0) (dg := D0) fun k _ h => ⟨_, (hcl k h).1, (hcl k h).2.1⟩
  obtain ⟨i1, l1⟩ := holds_validate v1 e1 (q := Q1) (dg := D1) fun k _ h => ⟨_, (hcl k h).1, (hcl k h).2.2.1⟩
  have r0 := judged_result (c := c0) (m := attrs.length) hse.le i0 l0
  have r1 := judged_result (c := c1) (m := attrs.length) hse.le i1 l1
  have hrej : mapE (rejectEntries P cfg.histBuckets) ((rangeFrom s e).zip
      (((rangeFrom s e).map fun i => (Q0 i, D0 i)).zip ((rangeFrom s e).map fun i => (Q1 i, D1 i)))) =
      .ok ((rangeFrom s e).map fun i => match clients[i]? with
        | none => []
        | some c => (if c.verdict.flp then [] else [i]) ++ (if c.verdict.proof then [] else [i])) := by
    rw [mapE_eq_ok_iff_getElem]
    refine ⟨by simp, fun j x hj => ⟨(if (C x.1).verdict.flp then [] else [x.1]) ++
      (if (C x.1).verdict.proof then [] else [x.1]), ?_⟩⟩
    rw [List.getElem?_zip_eq_some] at hj
    obtain ⟨h1, h2⟩ := hj
    rw [List.getElem?_zip_eq_some, List.getElem?_map, List.getElem?_map, h1] at h2
    obtain ⟨h2, h3⟩ := h2
    simp only [Option.map_some, Option.some.injEq] at h2 h3
    obtain ⟨hc, -, -, hd, hp⟩ := hcl x.1 (rangeFrom_mem.1 (List.mem_of_getElem? h1)).2
    constructor
    · rw [List.getElem?_map, h1, Option.map_some, hc]
    · unfold rejectEntries
      rw [← h2, ← h3, hn]
      simp only
      rw [hd, hp]
      simp only [unwrapO, ok_bind, ne_eq, decide_eq_true_eq, ite_not]
  have hflat : ((rangeFrom s e).map fun i => match clients[i]? with
        | none => []
        | some c => (if c.verdict.flp then [] else [i]) ++ (if c.verdict.proof then [] else [i])).flatten =
      Spec.rejections clients s e := by
    rw [Spec.rejections, List.flatMap_def]; rfl
  have hlen : ∀ {α : Type} (f : Nat → α), (((rangeFrom s e).map f).length == e - s) = true := by
    intro α f; rw [List.length_map, rangeFrom_length]; simp
  have hB : abmBatch c0 c1 cfg attrs kcs (s, e) = (do
      let (k0, a0) ← srvAbmResult c0 { kcs.1 with abmState := m0 } (Spec.rejections clients s e) attrs.length
      let (k1, a1) ← srvAbmResult c1 { kcs.2 with abmState := m1 } (Spec.rejections clients s e) attrs.length
      .ok ((k0, k1), { rejected := Spec.rejections clients s e, results := addRows a0 a1 })) := by
    unfold abmBatch
    simp only [hse, decide_true, debugAssert_true, ok_bind]
    rw [e0]
    simp only [ok_bind]
    rw [e1]
    simp only [ok_bind, hlen, assertE_true, hrej, hflat]
  rw [hB]
  constructor
  · rintro ⟨hb, hf⟩
    by_cases h0 : c0.build = .debug
    · rw [r0.1 ⟨h0, hf⟩]; rfl
    · obtain ⟨st, rows, g, -⟩ := r0.2 fun h => h0 h.1
      rw [g, ok_bind]
      dsimp only
      rw [r1.1 ⟨hb.resolve_left h0, hf⟩]; rfl
  · intro hneg
    obtain ⟨st0, rows0, g0, hH0, hs0⟩ := r0.2 fun h => hneg ⟨.inl h.1, h.2⟩
    obtain ⟨st1, rows1, g1, hH1, hs1⟩ := r1.2 fun h => hneg ⟨.inr h.1, h.2⟩
    refine ⟨st0, st1, ?_, hH0, hH1⟩
    rw [g0, ok_bind]
    dsimp only
    rw [g1, ok_bind]
    dsimp only
    rw [addRows_sum (m := attrs.length) (n := n) (by simpa [hh.len0] using hs0) (by simpa [hh.len1] using hs1)]
    rfl

/-- All batches. -/
theorem judged_abmLoop {c0 c1 : ServerCfg} {cfg : Config} {n d : Nat} {clients : List Spec.AbmClient}
    {attrs : List (List Bool)} (hn : cfg.histBuckets = n) :
    ∀ (rs : List (Nat × Nat)) {kcs : Pair2 P} {s : Nat}, JudgedAbm kcs n d clients attrs →
      Holds c0.build Spec.AbmClient.table0 clients kcs.1.abmState s →
      Holds c1.build Spec.AbmClient.table1 clients kcs.2.abmState s → s ≤ clients.length →
      (∀ r ∈ rs, r.1 < r.2 ∧ r.2 ≤ clients.length) →
      (rs.flatMap fun r => List.range' r.1 (r.2 - r.1)) = List.range' s (clients.length - s) →
      (((c0.build = .debug ∨ c1.build = .debug) ∧ FailsBoth clients s clients.length) →
        abmLoop c0 c1 cfg attrs rs kcs = .error .debugAssertion) ∧
      (¬ ((c0.build = .debug ∨ c1.build = .debug) ∧ FailsBoth clients s clients.length) →
        ∃ kcs', abmLoop c0 c1 cfg attrs rs kcs = .ok (kcs', rs.map
          (Spec.abmBatchOut c0.build c1.build attrs.length n clients)))
  | [], kcs, s, _, _, _, _, _, hf => by
    refine ⟨?_, fun _ => ⟨kcs, rfl⟩⟩
    rintro ⟨-, k, x, h1, h2, -⟩
    have := congrArg List.length hf
    simp at this
    omega
  | r :: rs, kcs, s, hh, v0, v1, hs, hr, hf => by
    obtain ⟨h1, h2⟩ := hr r (by simp)
    rw [List.flatMap_cons] at hf
    have hr1 : r.1 = s := by
      have := congrArg List.head? hf
      rw [List.head?_append] at this
      rcases hd : r.2 - r.1 with _ | d
      · omega
      · rw [hd, List.range'_succ] at this
        rcases hd' : clients.length - s with _ | d'
        · rw [hd'] at this; simp at this
        · rw [hd', List.range'_succ] at this; simpa using this
    have hf' : (rs.flatMap fun r => List.range' r.1 (r.2 - r.1))
        = List.range' r.2 (clients.length - r.2) := by
      have hsplit : List.range' s (clients.length - s) =
          List.range' r.1 (r.2 - r.1) ++ List.range' r.2 (clients.length - r.2) := by
        have := List.range'_append (s := s) (m := r.2 - r.1) (n := clients.length - r.2) (step := 1)
        rw [show s + 1 * (r.2 - r.1) = r.2 by omega,
          show r.2 - r.1 + (clients.length - r.2) = clients.length - s by omega] at this
        rw [hr1] at this ⊢
        exact this.symm
      rw [hsplit] at hf
      exact List.append_cancel_left hf
    obtain ⟨b1, b2⟩ := judged_abmBatch (c0 := c0) (c1 := c1) (cfg := cfg) hh hn (s := r.1) (e := r.2) h1 h2
      (hr1 ▸ v0) (hr1 ▸ v1)
    have hsplitF : FailsBoth clients s clients.length ↔
        FailsBoth clients r.1 r.2 ∨ FailsBoth clients r.2 clients.length := by
      constructor
      · rintro ⟨k, x, a, b, c⟩
        by_cases hk : k < r.2
        · exact .inl ⟨k, x, by omega, hk, c⟩
        · exact .inr ⟨k, x, by omega, b, c⟩
      · rintro (⟨k, x, a, b, c⟩ | ⟨k, x, a, b, c⟩)
        · exact ⟨k, x, by omega, by omega, c⟩
        · exact ⟨k, x, by omega, b, c⟩
    by_cases hbad : (c0.build = .debug ∨ c1.build = .debug) ∧ FailsBoth clients r.1 r.2
    · refine ⟨fun _ => ?_, fun h => absurd ⟨hbad.1, hsplitF.2 (.inl hbad.2)⟩ h⟩
      unfold abmLoop
      have := b1 hbad
      rw [Prod.mk.eta] at this
      rw [this]; rfl
    · obtain ⟨m0, m1, hb, w0, w1⟩ := b2 hbad
      rw [Prod.mk.eta] at hb
      obtain ⟨l1, l2⟩ := judged_abmLoop hn rs (hh.frame m0 m1) w0 w1 h2 (fun x hx => hr x (by simp [hx])) hf'
      unfold abmLoop
      rw [hb]
      simp only [ok_bind]
      constructor
      · rintro ⟨hd, hF⟩
        rw [l1 ⟨hd, (hsplitF.1 hF).resolve_left fun h => hbad ⟨hd, h⟩⟩]; rfl
      · intro hno
        obtain ⟨kcs', hl⟩ := l2 fun h => hno ⟨h.1, hsplitF.2 (.inr h.2)⟩
        exact ⟨kcs', by rw [hl]; rfl⟩

/-! ### Honest keys -/

/-- What the evaluation of an honest tree says about table and digest. -/
theorem evalTree_judged {n : Nat} {attrs : List (List Bool)} {key : VidpfKey} {vs : List (List Field128)}
    {beta : List Field128} {bytes : List Byte} (e : key.evalTree P attrs n = .ok (vs, beta, bytes))
    (nonce : Block) (proof : List Field128) (parts : Block × Block) :
    Spec.tableOf P n attrs (.mastic nonce key proof parts) = some vs ∧
    Spec.digestOf P n attrs (.mastic nonce key proof parts) = some (P.blake3 bytes) := by
  obtain ⟨g1, -, y0, y1, cnt, w0, w1, -, -, hc, -, hbytes⟩ := evalTree_spec e
  constructor
  · exact mapM_of_forall₂ (g1.imp fun _ _ h => h.1)
  · simp only [Spec.digestOf, w0, w1, Option.bind_eq_bind, Option.bind_some, hc, Option.some.injEq]
    rw [hbytes]
    congr 2
    cases key.keyIdx
    · rfl
    · simp only [if_true]; congr 1; ring

/-- Tables and digests of a report with honest keys. -/
theorem honestKeys_tables {n : Nat} {alpha : List Bool} {bucket : Nat} {s0 s1 : ReportShare} (ha : alpha ≠ [])
    (hh : Spec.HonestPair P n alpha bucket s0 s1) (attrs : List (List Bool))
    (hp : ∀ p ∈ attrs, p ≠ [] ∧ p.length ≤ alpha.length) :
    ∃ beta t0 t1 dg, encodeMeasurement n bucket = some beta ∧
      Spec.tableOf P n attrs s0 = some t0 ∧ Spec.tableOf P n attrs s1 = some t1 ∧
      Spec.digestOf P n attrs s0 = some dg ∧ Spec.digestOf P n attrs s1 = some dg ∧
      List.zipWith Spec.addShares t0 t1 = attrs.map (Spec.pointValue alpha beta) := by
  obtain ⟨nonce, rs, beta, pr, proof, rand, hb, -, e0, e1⟩ := honestPair_parts hh
  obtain ⟨hbl, -⟩ := encodeMeasurement_length hb
  subst hbl
  obtain ⟨v0, x0, v1, x1, bytes, t0, t1, -, -, hv, -⟩ := honest_evalTree P rs alpha beta attrs ha hp
  subst e0 e1
  exact ⟨beta, v0, v1, P.blake3 bytes, hb, (evalTree_judged t0 _ _ _).1, (evalTree_judged t1 _ _ _).1,
    (evalTree_judged t0 _ _ _).2, (evalTree_judged t1 _ _ _).2, hv⟩

theorem honestKeys_verifiers {n : Nat} {id0 id1 : Int} {vk : Block} (h0 : id0 = 0) (h1 : id1 ≠ 0)
    {alpha : List Bool} {bucket : Nat} {s0 s1 : ReportShare} (ha : alpha ≠ [])
    (hh : Spec.HonestPair P n alpha bucket s0 s1)
    (hc : Spec.FlpCompleteAt P n (P.xofField vk s0.nonce.toList (P.queryRandLen n))) :
    ∃ q0 q1, Spec.verifierOf P n id0 vk s0 = some q0 ∧ Spec.verifierOf P n id1 vk s1 = some q1 ∧
      q0.length ≤ q1.length ∧ P.flpDecide n (Spec.addShares q0 q1) = some true := by
  obtain ⟨nonce, rs, beta, pr, proof, rand, hb, hpf, e0, e1⟩ := honestPair_parts hh
  obtain ⟨hbl, hbn⟩ := encodeMeasurement_length hb
  subst hbl
  obtain ⟨v0, x0, v1, x1, bytes, t0, t1, -, -, -, hx⟩ := honest_evalTree P rs alpha beta [] ha (by simp)
  subst e0 e1
  obtain ⟨sl0, sl1⟩ := shareProof_length proof rand
  obtain ⟨-, -, a0, b0, c0, y0, z0, la0, lb0, -, hb0, -⟩ := evalTree_spec t0
  obtain ⟨-, -, a1, b1, c1, y1, z1, la1, lb1, -, hb1, -⟩ := evalTree_spec t1
  have xl : x0.length = beta.length ∧ x1.length = beta.length := by
    rw [hb0, hb1]
    simp [addShares_length la0 lb0, addShares_length la1 lb1]
  obtain ⟨w0, w1, q0, q1, hl, hd⟩ := hc bucket beta pr _ proof x0 x1 _ _ hb hpf xl.1 xl.2 hx sl0 sl1
    (shareProof_add proof rand)
  refine ⟨w0, w1, ?_, ?_, hl.le, hd⟩
  · simp only [Spec.verifierOf, y0, z0, Option.bind_eq_bind, Option.bind_some, h0, if_true]
    rw [← hb0]
    exact q0
  · simp only [Spec.verifierOf, y1, z1, Option.bind_eq_bind, Option.bind_some, h1, if_false]
    rw [← hb1]
    exact q1

/-- An honest report passes both checks. -/
theorem honest_judged {n : Nat} {id0 id1 : Int} {vk : Block} (h0 : id0 = 0) (h1 : id1 ≠ 0)
    {alpha : List Bool} {bucket : Nat} {s0 s1 : ReportShare} (ha : alpha ≠ [])
    (hh : Spec.HonestPair P n alpha bucket s0 s1)
    (hc : Spec.FlpCompleteAt P n (P.xofField vk s0.nonce.toList (P.queryRandLen n)))
    (attrs : List (List Bool)) (hp : ∀ p ∈ attrs, p ≠ [] ∧ p.length ≤ alpha.length) :
    ∃ beta t0 t1, encodeMeasurement n bucket = some beta ∧
      Spec.Judged P n attrs id0 id1 vk s0 s1 ⟨true, true⟩ t0 t1 ∧
      List.zipWith Spec.addShares t0 t1 = attrs.map (Spec.pointValue alpha beta) := by
  obtain ⟨beta, t0, t1, dg, hb, g0, g1, g2, g3, hz⟩ := honestKeys_tables ha hh attrs hp
  exact ⟨beta, t0, t1, hb, ⟨honestKeys_verifiers h0 h1 ha hh hc, ⟨dg, dg, g2, g3, by simp⟩, g0, g1⟩, hz⟩

/-- A report with honest keys but a rejected proof fails the FLP check only. -/
theorem tampered_judged {n L : Nat} {id0 id1 : Int} {vk : Block} {alpha : List Bool} {bucket : Nat}
    {s0 s1 s : ReportShare} (ha : alpha ≠ []) (hL : Spec.VerifierLen P n L)
    (hh : Spec.HonestPair P n alpha bucket s0 s) (hs : Spec.SameButProof s s1)
    (hr : Spec.FlpRejected P n id0 id1 vk s0 s1)
    (attrs : List (List Bool)) (hp : ∀ p ∈ attrs, p ≠ [] ∧ p.length ≤ alpha.length) :
    ∃ beta t0 t1, encodeMeasurement n bucket = some beta ∧
      Spec.Judged P n attrs id0 id1 vk s0 s1 ⟨false, true⟩ t0 t1 ∧
      List.zipWith Spec.addShares t0 t1 = attrs.map (Spec.pointValue alpha beta) := by
  obtain ⟨beta, t0, t1, dg, hb, g0, g1, g2, g3, hz⟩ := honestKeys_tables ha hh attrs hp
  obtain ⟨q0, q1, e0, e1, hd⟩ := hr
  have hlen : ∀ (id : Int) (x : ReportShare) (q : List Field128), Spec.verifierOf P n id vk x = some q →
      q.length = L := by
    intro id x q hq
    cases x with
    | prio3 => cases hq
    | mastic nonce key proof parts =>
      simp only [Spec.verifierOf, Option.bind_eq_bind, Option.bind_eq_some_iff] at hq
      obtain ⟨_, -, _, -, hq⟩ := hq
      exact hL _ _ _ _ _ hq
  have hsame : Spec.tableOf P n attrs s1 = Spec.tableOf P n attrs s ∧
      Spec.digestOf P n attrs s1 = Spec.digestOf P n attrs s := by
    cases s with
    | prio3 => exact hs.elim
    | mastic nonce key proof parts =>
      cases s1 with
      | prio3 => exact hs.elim
      | mastic nonce' key' proof' parts' =>
        obtain ⟨rfl, rfl, rfl⟩ := hs
        exact ⟨rfl, rfl⟩
  refine ⟨beta, t0, t1, hb, ⟨⟨q0, q1, e0, e1, ?_, hd⟩, ⟨dg, dg, g2, ?_, by simp⟩, g0, ?_⟩, hz⟩
  · rw [hlen _ _ _ e0, hlen _ _ _ e1]
  · rw [hsame.2]; exact g3
  · rw [hsame.1]; exact g1

/-- The sum of the tables of reports with honest keys. -/
theorem sumTables_honest {n : Nat} {attrs : List (List Bool)} {xs : List Spec.AbmClient}
    {cl : List (List Bool × Nat)}
    (h : List.Forall₂ (fun (x : Spec.AbmClient) (c : List Bool × Nat) => ∃ beta, encodeMeasurement n c.2 = some beta ∧
      List.zipWith Spec.addShares x.table0 x.table1 = attrs.map (Spec.pointValue c.1 beta)) xs cl) :
    Spec.sumTables attrs.length n (xs.map Spec.AbmClient.table0 ++ xs.map Spec.AbmClient.table1) =
      Spec.attributeHistograms n attrs cl := by
  have hlen := h.length_eq
  have hr : ∀ f : Spec.AbmClient → List (List Field128),
      (List.range cl.length).map (fun i => ((xs[i]?).map f).getD []) = xs.map f := by
    intro f
    refine List.ext_getElem (by simp [hlen]) fun i h1 h2 => ?_
    have : i < xs.length := by simpa using h2
    simp [List.getElem?_eq_getElem this]
  have := honest_aggregate (n := n) (s := cl.length) (attrs := attrs) (clients := cl) le_rfl
    (V0 := fun i => ((xs[i]?).map Spec.AbmClient.table0).getD [])
    (V1 := fun i => ((xs[i]?).map Spec.AbmClient.table1).getD [])
    (fun i c hi hc => by
      rw [List.forall₂_iff_get] at h
      have h2 := h.2 i (by omega) hi
      rw [List.getElem?_eq_getElem hi] at hc
      cases hc
      simpa [List.getElem?_eq_getElem (show i < xs.length by omega)] using h2)
    (cell_sumTables _) (cell_sumTables _)
  rw [hr, hr, List.take_length] at this
  rw [← this]
  exact (addRows_sum (cell_sumTables _) (cell_sumTables _)).symm

end Mastic
