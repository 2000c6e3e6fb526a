import Verif.Lemmas.AbmRun
import Verif.Lemmas.Whh
import Verif.Lemmas.ToySearch

/-!
# C63: whole attribute-based-metrics runs with misbehaving clients
-/

namespace Mastic

variable {P : Prims}

/-- **C63.**  A whole run on arbitrary well-formed reports, whatever they hold.  If a server is a debug build and some
report fails both checks, the run panics; otherwise it completes, and for every batch it prints the failed checks of
the batch and the sum, over all clients below the end of the batch, of the value tables of each server that counts the
client: debug builds leave out those who failed a check, release builds nobody. -/
theorem C63_runs {c0 c1 : ServerCfg} {cfg : Config} {kcs : Pair2 P} {d : Nat} {clients : List Spec.AbmClient}
    {attrs : List (List Bool)} (hb : 1 ≤ cfg.queryBatch) (hd : 1 ≤ d)
    (hn0 : kcs.1.inputLen = cfg.histBuckets) (hn1 : kcs.2.inputLen = cfg.histBuckets)
    (hvk : kcs.1.verifyKey = kcs.2.verifyKey) (ha : ∀ p ∈ attrs, p ≠ [] ∧ p.length ≤ d)
    (hl0 : kcs.1.reportShares.length = clients.length) (hl1 : kcs.2.reportShares.length = clients.length)
    (hj : ∀ (i : Nat) (c : Spec.AbmClient) (r0 r1 : Bool × ReportShare), clients[i]? = some c →
      kcs.1.reportShares[i]? = some r0 → kcs.2.reportShares[i]? = some r1 →
      Spec.WellFormed d r0.2 ∧ Spec.WellFormed d r1.2 ∧ Spec.Judged P cfg.histBuckets attrs kcs.1.serverId
        kcs.2.serverId kcs.1.verifyKey r0.2 r1.2 c.verdict c.table0 c.table1)
    (e0 : kcs.1.abmState = []) (e1 : kcs.2.abmState = []) :
    ((c0.build = .debug ∨ c1.build = .debug) ∧ (∃ c ∈ clients, c.verdict.flp = false ∧ c.verdict.proof = false) →
      runAbm c0 c1 cfg kcs attrs clients.length = .error .debugAssertion) ∧
    (¬ ((c0.build = .debug ∨ c1.build = .debug) ∧
        ∃ c ∈ clients, c.verdict.flp = false ∧ c.verdict.proof = false) →
      ∃ kcs' ranges, runAbm c0 c1 cfg kcs attrs clients.length =
          .ok (kcs', ranges.map (Spec.abmBatchOut c0.build c1.build attrs.length cfg.histBuckets clients)) ∧
        Spec.Partitions clients.length ranges ∧ ∀ r ∈ ranges, r.2 ≤ r.1 + cfg.queryBatch) := by
  obtain ⟨rs, hrs, ⟨hp1, hp2⟩, hp3⟩ := stepByRanges_spec (n := clients.length) hb
  have hol : ∀ (bld : Build) (tbl : Spec.AbmClient → List (List Field128)) (kc : KeyCollection P),
      kc.abmState = [] → Holds bld tbl clients kc.abmState 0 := by
    intro bld tbl kc h
    refine ⟨by rw [h]; exact List.nodup_nil, fun k => ?_⟩
    rw [h, if_neg (by omega)]; rfl
  obtain ⟨l1, l2⟩ := judged_abmLoop (c0 := c0) (c1 := c1) (cfg := cfg) rfl rs
    ⟨hn0, hn1, hvk, hd, ha, hl0, hl1, hj⟩ (hol _ _ _ e0) (hol _ _ _ e1) (Nat.zero_le _) hp1
    (by rw [Nat.sub_zero, ← List.range_eq_range']; exact hp2)
  have hF : FailsBoth clients 0 clients.length ↔
      ∃ c ∈ clients, c.verdict.flp = false ∧ c.verdict.proof = false := by
    constructor
    · rintro ⟨k, x, -, -, h, hv⟩; exact ⟨x, List.mem_of_getElem? h, hv⟩
    · rintro ⟨x, hx, hv⟩
      obtain ⟨k, hk⟩ := List.mem_iff_getElem?.1 hx
      exact ⟨k, x, Nat.zero_le _, (List.getElem?_eq_some_iff.1 hk).1, hk, hv⟩
  rw [hF] at l1 l2
  unfold runAbm
  rw [hrs]
  simp only [ok_bind]
  refine ⟨l1, fun h => ?_⟩
  obtain ⟨kcs', hk⟩ := l2 h
  exact ⟨kcs', rs, hk, ⟨hp1, hp2⟩, hp3⟩

theorem flatMap_eq_filter {f : Nat → List Nat} {p : Nat → Bool} : ∀ {l : List Nat},
    (∀ i ∈ l, f i = if p i then [i] else []) → l.flatMap f = l.filter p
  | [], _ => rfl
  | i :: l, h => by
    rw [List.flatMap_cons, h i (by simp), flatMap_eq_filter fun j hj => h j (by simp [hj]), List.filter_cons]
    split <;> rfl

/-- Choosing a judged client for every description in a list. -/
theorem exists_judged_idx {α : Type} {R : Nat → α → Spec.AbmClient → Prop} {as : List α}
    (h : ∀ (i : Nat) (a : α), as[i]? = some a → ∃ x, R i a x) :
    ∃ xs : List Spec.AbmClient, xs.length = as.length ∧
      ∀ (i : Nat) (a : α) (x : Spec.AbmClient), as[i]? = some a → xs[i]? = some x → R i a x := by
  induction as generalizing R with
  | nil => exact ⟨[], rfl, by simp⟩
  | cons a as ih =>
    obtain ⟨x, hx⟩ := h 0 a rfl
    obtain ⟨xs, hl, hxs⟩ := ih (R := fun i => R (i + 1)) fun i a hi => h (i + 1) a (by simpa using hi)
    refine ⟨x :: xs, by simp [hl], fun i a' x' h1 h2 => ?_⟩
    cases i with
    | zero => simp at h1 h2; subst h1; subst h2; exact hx
    | succ i => exact hxs i a' x' (by simpa using h1) (by simpa using h2)

/-- **C63, debug builds.**  If all reports are honest or fail exactly one of the two checks, debug servers print for
every batch the positions of those who fail and, for every attribute, the histogram of the weights of the honest
clients below the end of the batch that hold it.  (Everybody below the end of the batch, not only the batch: C45.) -/
theorem C63_debug_exact {c0 c1 : ServerCfg} {cfg : Config} {kcs : Pair2 P} {d : Nat}
    {clients : List (Option (List Bool × Nat))} {attrs : List (List Bool)} (hb : 1 ≤ cfg.queryBatch) (hd : 1 ≤ d)
    (hn0 : kcs.1.inputLen = cfg.histBuckets) (hn1 : kcs.2.inputLen = cfg.histBuckets)
    (h0 : kcs.1.serverId = 0) (h1 : kcs.2.serverId ≠ 0) (hvk : kcs.1.verifyKey = kcs.2.verifyKey)
    (ha : ∀ p ∈ attrs, p ≠ [] ∧ p.length ≤ d) (hb0 : c0.build = .debug) (hb1 : c1.build = .debug)
    (hp : Spec.AbmPopulation P cfg.histBuckets d attrs kcs.1.serverId kcs.2.serverId kcs.1.verifyKey clients
      kcs.1.reportShares kcs.2.reportShares)
    (e0 : kcs.1.abmState = []) (e1 : kcs.2.abmState = []) :
    ∃ kcs' ranges, runAbm c0 c1 cfg kcs attrs clients.length = .ok (kcs', ranges.map fun r =>
        ⟨(List.range' r.1 (r.2 - r.1)).filter fun i => clients[i]? == some none,
          Spec.attributeHistograms cfg.histBuckets attrs ((clients.take r.2).filterMap id)⟩) ∧
      Spec.Partitions clients.length ranges ∧ ∀ r ∈ ranges, r.2 ≤ r.1 + cfg.queryBatch := by
  obtain ⟨hl0, hl1, hpop⟩ := hp
  obtain ⟨xs, hxl, hxs⟩ := exists_judged_idx (as := clients) (R := fun i c x =>
    (∀ r0 r1, kcs.1.reportShares[i]? = some r0 → kcs.2.reportShares[i]? = some r1 →
      Spec.WellFormed d r0.2 ∧ Spec.WellFormed d r1.2 ∧ Spec.Judged P cfg.histBuckets attrs kcs.1.serverId
        kcs.2.serverId kcs.1.verifyKey r0.2 r1.2 x.verdict x.table0 x.table1) ∧
    match c with
    | none => x.verdict.flp ≠ x.verdict.proof
    | some c => x.verdict = ⟨true, true⟩ ∧ ∃ beta, encodeMeasurement cfg.histBuckets c.2 = some beta ∧
        List.zipWith Spec.addShares x.table0 x.table1 = attrs.map (Spec.pointValue c.1 beta)) (by
    intro i c hc
    have hi := (List.getElem?_eq_some_iff.1 hc).1
    obtain ⟨r0, g0⟩ : ∃ r, kcs.1.reportShares[i]? = some r := ⟨_, List.getElem?_eq_getElem (by omega)⟩
    obtain ⟨r1, g1⟩ : ∃ r, kcs.2.reportShares[i]? = some r := ⟨_, List.getElem?_eq_getElem (by omega)⟩
    have := hpop i c r0 r1 hc g0 g1
    cases c with
    | none =>
      obtain ⟨w0, w1, v, t0, t1, hj, hv⟩ := this
      refine ⟨⟨v, t0, t1⟩, fun a b ga gb => ?_, hv⟩
      rw [g0] at ga; rw [g1] at gb; cases ga; cases gb
      exact ⟨w0, w1, hj⟩
    | some c =>
      obtain ⟨hh, hal, hc⟩ := this
      obtain ⟨beta, t0, t1, hbe, hj, hz⟩ := honest_judged h0 h1 (by
        intro h; rw [h] at hal; simp at hal; omega) hh hc attrs (by rw [hal]; exact ha)
      obtain ⟨-, -, -, -, -, -, w0, w1, -⟩ := honestPair_facts hh
      rw [hal] at w0 w1
      refine ⟨⟨⟨true, true⟩, t0, t1⟩, fun a b ga gb => ?_, rfl, beta, hbe, hz⟩
      rw [g0] at ga; rw [g1] at gb; cases ga; cases gb
      exact ⟨w0, w1, hj⟩)
  have hget : ∀ (i : Nat) (x : Spec.AbmClient), xs[i]? = some x → ∃ c, clients[i]? = some c := by
    intro i x hx
    have := (List.getElem?_eq_some_iff.1 hx).1
    exact ⟨_, List.getElem?_eq_getElem (by omega)⟩
  obtain ⟨kcs', ranges, hr, hpart, hsz⟩ := (C63_runs (c0 := c0) (c1 := c1) hb hd hn0 hn1 hvk ha
    (clients := xs) (by omega) (by omega) (fun i x r0 r1 hx g0 g1 => by
      obtain ⟨c, hc⟩ := hget i x hx
      exact (hxs i c x hc hx).1 r0 r1 g0 g1) e0 e1).2 (by
    rintro ⟨-, x, hx, hf, hg⟩
    obtain ⟨i, hi⟩ := List.mem_iff_getElem?.1 hx
    obtain ⟨c, hc⟩ := hget i x hi
    have := (hxs i c x hc hi).2
    cases c with
    | none => exact this (hf.trans hg.symm)
    | some c => rw [this.1] at hf; cases hf)
  rw [hxl] at hr hpart
  refine ⟨kcs', ranges, ?_, hpart, hsz⟩
  rw [hr]
  congr 2
  refine List.map_congr_left fun r hrm => ?_
  have hre := (hpart.1 r hrm).2
  unfold Spec.abmBatchOut
  rw [hb0, hb1]
  congr 1
  · unfold Spec.rejections
    refine flatMap_eq_filter fun i hi => ?_
    have hin := (rangeFrom_mem.1 (show i ∈ rangeFrom r.1 r.2 from hi)).2
    obtain ⟨x, hx⟩ : ∃ x, xs[i]? = some x := ⟨_, List.getElem?_eq_getElem (by omega)⟩
    obtain ⟨c, hc⟩ := hget i x hx
    have := (hxs i c x hc hx).2
    rw [hx, hc]
    cases c with
    | none =>
      rcases x with ⟨⟨f, p⟩, t0, t1⟩
      cases f <;> cases p <;> simp at this ⊢
    | some c => simp [show x.verdict = _ from this.1]
  · refine sumTables_honest ?_
    have hall : ∀ (n : Nat), List.Forall₂ (fun x c => ∃ beta, encodeMeasurement cfg.histBuckets c.2 = some beta ∧
        List.zipWith Spec.addShares x.table0 x.table1 = attrs.map (Spec.pointValue c.1 beta))
        ((xs.take n).filter (Spec.counts .debug)) ((clients.take n).filterMap id) := by
      intro n
      have hrel : List.Forall₂ (fun (x : Spec.AbmClient) (c : Option (List Bool × Nat)) => match c with
          | none => x.verdict.flp ≠ x.verdict.proof
          | some c => x.verdict = ⟨true, true⟩ ∧ ∃ beta, encodeMeasurement cfg.histBuckets c.2 = some beta ∧
            List.zipWith Spec.addShares x.table0 x.table1 = attrs.map (Spec.pointValue c.1 beta))
          (xs.take n) (clients.take n) := by
        refine List.forall₂_take n ?_
        rw [List.forall₂_iff_get]
        refine ⟨hxl, fun i i1 i2 => (hxs i _ _ (List.getElem?_eq_getElem i2) (List.getElem?_eq_getElem i1)).2⟩
      generalize xs.take n = ys at hrel
      generalize clients.take n = cs at hrel
      induction hrel with
      | nil => exact .nil
      | @cons x c ys cs hx _ ih =>
        cases c with
        | none =>
          have : Spec.counts .debug x = false := by
            rcases x with ⟨⟨f, p⟩, t0, t1⟩
            cases f <;> cases p <;> simp [Spec.counts] at hx ⊢
          rw [List.filter_cons_of_neg (by simp [this])]
          simpa using ih
        | some c =>
          have : Spec.counts .debug x = true := by simp [Spec.counts, hx.1]
          rw [List.filter_cons_of_pos this]
          exact .cons hx.2 (by simpa using ih)
    exact hall r.2

/-- **C63 for release builds.**  Release servers print who fails but count everybody: clients with honest keys whose
FLP proof is rejected are listed as rejected and still appear in every histogram. -/
theorem C63_release_counts_all {c0 c1 : ServerCfg} {cfg : Config} {kcs : Pair2 P} {d L : Nat}
    {clients : List ((List Bool × Nat) × Bool)} {attrs : List (List Bool)} (hb : 1 ≤ cfg.queryBatch) (hd : 1 ≤ d)
    (hn0 : kcs.1.inputLen = cfg.histBuckets) (hn1 : kcs.2.inputLen = cfg.histBuckets)
    (h0 : kcs.1.serverId = 0) (h1 : kcs.2.serverId ≠ 0) (hvk : kcs.1.verifyKey = kcs.2.verifyKey)
    (ha : ∀ p ∈ attrs, p ≠ [] ∧ p.length ≤ d) (hL : Spec.VerifierLen P cfg.histBuckets L)
    (hb0 : c0.build = .release) (hb1 : c1.build = .release)
    (hp : Spec.HonestKeys P cfg.histBuckets d kcs.1.serverId kcs.2.serverId kcs.1.verifyKey clients
      kcs.1.reportShares kcs.2.reportShares)
    (e0 : kcs.1.abmState = []) (e1 : kcs.2.abmState = []) :
    ∃ kcs' ranges, runAbm c0 c1 cfg kcs attrs clients.length = .ok (kcs', ranges.map fun r =>
        ⟨(List.range' r.1 (r.2 - r.1)).filter fun i => (clients[i]?.map Prod.snd) == some true,
          Spec.attributeHistograms cfg.histBuckets attrs ((clients.take r.2).map Prod.fst)⟩) ∧
      Spec.Partitions clients.length ranges ∧ ∀ r ∈ ranges, r.2 ≤ r.1 + cfg.queryBatch := by
  obtain ⟨hl0, hl1, hpop⟩ := hp
  obtain ⟨xs, hxl, hxs⟩ := exists_judged_idx (as := clients) (R := fun i c x =>
    (∀ r0 r1, kcs.1.reportShares[i]? = some r0 → kcs.2.reportShares[i]? = some r1 →
      Spec.WellFormed d r0.2 ∧ Spec.WellFormed d r1.2 ∧ Spec.Judged P cfg.histBuckets attrs kcs.1.serverId
        kcs.2.serverId kcs.1.verifyKey r0.2 r1.2 x.verdict x.table0 x.table1) ∧
    x.verdict = ⟨!c.2, true⟩ ∧ ∃ beta, encodeMeasurement cfg.histBuckets c.1.2 = some beta ∧
        List.zipWith Spec.addShares x.table0 x.table1 = attrs.map (Spec.pointValue c.1.1 beta)) (by
    intro i c hc
    have hi := (List.getElem?_eq_some_iff.1 hc).1
    obtain ⟨r0, g0⟩ : ∃ r, kcs.1.reportShares[i]? = some r := ⟨_, List.getElem?_eq_getElem (by omega)⟩
    obtain ⟨r1, g1⟩ : ∃ r, kcs.2.reportShares[i]? = some r := ⟨_, List.getElem?_eq_getElem (by omega)⟩
    obtain ⟨hal, hfc, this⟩ := hpop i c r0 r1 hc g0 g1
    have hne : c.1.1 ≠ [] := by intro h; rw [h] at hal; simp at hal; omega
    rcases c with ⟨c, t⟩
    cases t with
    | true =>
      obtain ⟨⟨s, hh, hsame⟩, hrej⟩ := this
      obtain ⟨beta, t0, t1, hbe, hj, hz⟩ := tampered_judged hne hL hh hsame hrej attrs (by rw [hal]; exact ha)
      obtain ⟨-, -, -, -, -, -, w0, w1, -⟩ := honestPair_facts hh
      rw [hal] at w0 w1
      refine ⟨⟨⟨false, true⟩, t0, t1⟩, fun a b ga gb => ?_, rfl, beta, hbe, hz⟩
      rw [g0] at ga; rw [g1] at gb; cases ga; cases gb
      refine ⟨w0, ?_, hj⟩
      obtain ⟨k, hk, hk'⟩ := w1
      refine ⟨k, ?_, hk'⟩
      cases s with
      | prio3 => exact hsame.elim
      | mastic _ _ _ _ =>
        rcases r1 with ⟨b, r1⟩
        cases r1 with
        | prio3 => exact hsame.elim
        | mastic _ _ _ _ => obtain ⟨-, rfl, -⟩ := hsame; exact hk
    | false =>
      obtain ⟨beta, t0, t1, hbe, hj, hz⟩ := honest_judged h0 h1 hne this hfc attrs (by rw [hal]; exact ha)
      obtain ⟨-, -, -, -, -, -, w0, w1, -⟩ := honestPair_facts this
      rw [hal] at w0 w1
      refine ⟨⟨⟨true, true⟩, t0, t1⟩, fun a b ga gb => ?_, rfl, beta, hbe, hz⟩
      rw [g0] at ga; rw [g1] at gb; cases ga; cases gb
      exact ⟨w0, w1, hj⟩)
  have hget : ∀ (i : Nat) (x : Spec.AbmClient), xs[i]? = some x → ∃ c, clients[i]? = some c := by
    intro i x hx
    have := (List.getElem?_eq_some_iff.1 hx).1
    exact ⟨_, List.getElem?_eq_getElem (by omega)⟩
  obtain ⟨kcs', ranges, hr, hpart, hsz⟩ := (C63_runs (c0 := c0) (c1 := c1) hb hd hn0 hn1 hvk ha
    (clients := xs) (by omega) (by omega) (fun i x r0 r1 hx g0 g1 => by
      obtain ⟨c, hc⟩ := hget i x hx
      exact (hxs i c x hc hx).1 r0 r1 g0 g1) e0 e1).2 (by
    rintro ⟨h | h, -⟩
    · rw [hb0] at h; cases h
    · rw [hb1] at h; cases h)
  rw [hxl] at hr hpart
  refine ⟨kcs', ranges, ?_, hpart, hsz⟩
  rw [hr]
  congr 2
  refine List.map_congr_left fun r hrm => ?_
  have hre := (hpart.1 r hrm).2
  unfold Spec.abmBatchOut
  rw [hb0, hb1]
  congr 1
  · unfold Spec.rejections
    refine flatMap_eq_filter fun i hi => ?_
    have hin := (rangeFrom_mem.1 (show i ∈ rangeFrom r.1 r.2 from hi)).2
    obtain ⟨x, hx⟩ : ∃ x, xs[i]? = some x := ⟨_, List.getElem?_eq_getElem (by omega)⟩
    obtain ⟨c, hc⟩ := hget i x hx
    have := (hxs i c x hc hx).2
    rw [hx, hc]
    have hv := this.1
    rcases c with ⟨c, t⟩
    cases t <;> simp [hv]
  · have hall : ∀ l : List Spec.AbmClient, l.filter (Spec.counts .release) = l := by
      intro l; exact List.filter_eq_self.2 fun _ _ => rfl
    rw [hall]
    refine sumTables_honest ?_
    rw [List.forall₂_map_right_iff]
    refine List.forall₂_take _ ?_
    rw [List.forall₂_iff_get]
    exact ⟨hxl, fun i i1 i2 => (hxs i _ _ (List.getElem?_eq_getElem i2) (List.getElem?_eq_getElem i1)).2.2⟩

/-- Tampered proofs among honest keys are one kind of population for the debug theorem. -/
theorem HonestKeys.population {n d L : Nat} {attrs : List (List Bool)} {id0 id1 : Int} {vk : Block}
    {clients : List ((List Bool × Nat) × Bool)} {rs0 rs1 : List (Bool × ReportShare)} (hd : 1 ≤ d)
    (ha : ∀ p ∈ attrs, p ≠ [] ∧ p.length ≤ d) (hL : Spec.VerifierLen P n L)
    (h : Spec.HonestKeys P n d id0 id1 vk clients rs0 rs1) :
    Spec.AbmPopulation P n d attrs id0 id1 vk (clients.map fun c => if c.2 then none else some c.1) rs0 rs1 := by
  refine ⟨by simpa using h.1, by simpa using h.2.1, fun i c r0 r1 hc g0 g1 => ?_⟩
  rw [List.getElem?_map, Option.map_eq_some_iff] at hc
  obtain ⟨⟨c', t⟩, hc', rfl⟩ := hc
  obtain ⟨hal, hfc, this⟩ := h.2.2 i _ r0 r1 hc' g0 g1
  dsimp only at hal
  have hne : c'.1 ≠ [] := by intro h; rw [h] at hal; simp at hal; omega
  cases t with
  | false => exact ⟨this, hal, hfc⟩
  | true =>
    obtain ⟨⟨s, hh, hsame⟩, hrej⟩ := this
    obtain ⟨beta, t0, t1, -, hj, -⟩ := tampered_judged hne hL hh hsame hrej attrs (by rw [hal]; exact ha)
    obtain ⟨-, -, -, -, -, -, w0, w1, -⟩ := honestPair_facts hh
    rw [hal] at w0 w1
    refine ⟨w0, ?_, _, t0, t1, hj, by simp⟩
    obtain ⟨k, hk, hk'⟩ := w1
    refine ⟨k, ?_, hk'⟩
    cases s with
    | prio3 => exact hsame.elim
    | mastic _ _ _ _ =>
      rcases r1 with ⟨b, r1⟩
      cases r1 with
      | prio3 => exact hsame.elim
      | mastic _ _ _ _ => obtain ⟨-, rfl, -⟩ := hsame; exact hk

/-! ### The hypotheses of `C63_runs` can be met -/

/-- Judging a report by computation. -/
def judge (P : Prims) (n : Nat) (attrs : List (List Bool)) (id0 id1 : Int) (vk : Block) (s0 s1 : ReportShare) :
    Option Spec.AbmClient := do
  let q0 ← Spec.verifierOf P n id0 vk s0
  let q1 ← Spec.verifierOf P n id1 vk s1
  let f ← P.flpDecide n (Spec.addShares q0 q1)
  let d0 ← Spec.digestOf P n attrs s0
  let d1 ← Spec.digestOf P n attrs s1
  let t0 ← Spec.tableOf P n attrs s0
  let t1 ← Spec.tableOf P n attrs s1
  if q0.length ≤ q1.length then some ⟨⟨f, decide (d0 = d1)⟩, t0, t1⟩ else none

theorem judge_judged {n : Nat} {attrs : List (List Bool)} {id0 id1 : Int} {vk : Block} {s0 s1 : ReportShare}
    {c : Spec.AbmClient} (h : judge P n attrs id0 id1 vk s0 s1 = some c) :
    Spec.Judged P n attrs id0 id1 vk s0 s1 c.verdict c.table0 c.table1 := by
  simp only [judge, Option.bind_eq_bind, Option.bind_eq_some_iff, Option.ite_none_right_eq_some,
    Option.some.injEq] at h
  obtain ⟨q0, a0, q1, a1, f, af, d0, b0, d1, b1, t0, x0, t1, x1, hl, rfl⟩ := h
  exact ⟨⟨q0, q1, a0, a1, hl, af⟩, ⟨d0, d1, b0, b1, rfl⟩, x0, x1⟩

def wellFormedB (d : Nat) (s : ReportShare) : Bool :=
  match Spec.keyOf s with
  | some key => decide (key.cs.length = key.corWords.length ∧ d ≤ key.corWords.length)
  | none => false

theorem wellFormedB_iff {d : Nat} {s : ReportShare} (h : wellFormedB d s = true) : Spec.WellFormed d s := by
  unfold wellFormedB at h
  split at h
  · rename_i key hk
    exact ⟨key, hk, of_decide_eq_true h⟩
  · cases h

/-- Two toy clients: an honest one, and one whose second key is altered, with the given proof share. -/
def toyJudgedPair (alter : VidpfKey → VidpfKey) (proof : Option (List Field128)) : Exec (Pair2 mixToy) := do
  let r0 ← genMasticReport mixToy 1 [true] 0 (toyRand 0)
  let rep ← genMasticReport mixToy 1 [true] 0 (toyRand 1)
  let bad : PlaintextReport := match rep with
    | .mastic n ks ps jr a => .mastic n (ks.1, alter ks.2) (ps.1, proof.getD ps.2) jr a
    | r => r
  upload ⟨some 1, 1, 3, 3, 1, 1⟩ [r0, bad] (KeyCollection.new mixToy 1 0 (some 1) Block.zero,
    KeyCollection.new mixToy 1 1 (some 1) Block.zero) [(1, none), (2, none)]

/-- Other value correction words. -/
def toyWords (k : VidpfKey) : VidpfKey := { k with corWords := k.corWords.map fun c => { c with word := [5, 5] } }

/-- Another counter in the value correction words. -/
def toyCounter (k : VidpfKey) : VidpfKey :=
  { k with corWords := k.corWords.map fun c => { c with word := c.word.modify 1 (· + 1) } }

def toyJudgedOk (verdict : Bool × Bool) (r : Exec (Pair2 mixToy)) : Bool :=
  match r with
  | .error _ => false
  | .ok kcs =>
    match kcs.1.reportShares, kcs.2.reportShares with
    | [(_, a0), (_, b0)], [(_, a1), (_, b1)] =>
      match judge mixToy 1 [[true]] 0 1 Block.zero a0 a1, judge mixToy 1 [[true]] 0 1 Block.zero b0 b1 with
      | some a, some b => a.verdict.flp && a.verdict.proof && (decide (b.verdict.flp = verdict.1)) &&
        (decide (b.verdict.proof = verdict.2)) && wellFormedB 1 a0 && wellFormedB 1 a1 && wellFormedB 1 b0 &&
        wellFormedB 1 b1 && decide (kcs.1.inputLen = 1) && decide (kcs.2.inputLen = 1) &&
        decide (kcs.1.serverId = 0) && decide (kcs.2.serverId = 1) && decide (kcs.1.verifyKey = Block.zero) &&
        decide (kcs.2.verifyKey = Block.zero) && kcs.1.abmState.isEmpty && kcs.2.abmState.isEmpty
      | _, _ => false
    | _, _ => false

theorem toyJudged_facts {verdict : Bool × Bool} {r : Exec (Pair2 mixToy)} (h : toyJudgedOk verdict r = true) :
    ∃ (kcs : Pair2 mixToy) (a b : Spec.AbmClient), r = .ok kcs ∧ kcs.1.inputLen = 1 ∧ kcs.2.inputLen = 1 ∧
      kcs.1.verifyKey = kcs.2.verifyKey ∧ kcs.1.reportShares.length = 2 ∧ kcs.2.reportShares.length = 2 ∧
      (∀ (i : Nat) (c : Spec.AbmClient) (r0 r1 : Bool × ReportShare), [a, b][i]? = some c →
        kcs.1.reportShares[i]? = some r0 → kcs.2.reportShares[i]? = some r1 →
        Spec.WellFormed 1 r0.2 ∧ Spec.WellFormed 1 r1.2 ∧ Spec.Judged mixToy 1 [[true]] kcs.1.serverId
          kcs.2.serverId kcs.1.verifyKey r0.2 r1.2 c.verdict c.table0 c.table1) ∧
      kcs.1.abmState = [] ∧ kcs.2.abmState = [] ∧ a.verdict = ⟨true, true⟩ ∧
      b.verdict = ⟨verdict.1, verdict.2⟩ := by
  unfold toyJudgedOk at h
  split at h
  · cases h
  rename_i kcs
  split at h
  case h_2 => cases h
  rename_i x0 a0 y0 b0 x1 a1 y1 b1 e0 e1
  split at h
  case h_2 => cases h
  rename_i a b ha hb
  simp only [Bool.and_eq_true, decide_eq_true_eq, List.isEmpty_iff] at h
  obtain ⟨⟨⟨⟨⟨⟨⟨⟨⟨⟨⟨⟨⟨⟨⟨h1, h2⟩, h3⟩, h4⟩, h5⟩, h6⟩, h7⟩, h8⟩, h9⟩, h10⟩, h11⟩, h12⟩, h13⟩, h14⟩, h15⟩, h16⟩ := h
  refine ⟨kcs, a, b, rfl, h9, h10, h13.trans h14.symm, by rw [e0]; rfl, by rw [e1]; rfl, ?_, h15, h16, ?_, ?_⟩
  · intro i c r0 r1 hc g0 g1
    rw [e0] at g0; rw [e1] at g1
    rw [h11, h12, h13]
    match i with
    | 0 =>
      simp at hc g0 g1
      subst hc; subst g0; subst g1
      exact ⟨wellFormedB_iff h5, wellFormedB_iff h6, judge_judged ha⟩
    | 1 =>
      simp at hc g0 g1
      subst hc; subst g0; subst g1
      exact ⟨wellFormedB_iff h7, wellFormedB_iff h8, judge_judged hb⟩
    | (i + 2) => simp at hc
  · rcases a with ⟨⟨f, p⟩, t0, t1⟩
    simp only at h1 h2
    rw [h1, h2]
  · rcases b with ⟨⟨f, p⟩, t0, t1⟩
    simp only at h3 h4
    rw [h3, h4]

/-- The second client fails both checks: a run with one debug server panics. -/
example : ∃ kcs, toyJudgedPair toyWords (some [0, 0]) = .ok kcs ∧
    runAbm (toyCfg 0 (some 1) .release) (toyCfg 1 (some 1) .debug) ⟨some 1, 1, 3, 1, 1, 1⟩ kcs [[true]] 2
      = .error .debugAssertion := by
  obtain ⟨kcs, a, b, h1, h2, h3, h4, h5, h6, h7, h8, h9, -, hb⟩ :=
    toyJudged_facts (verdict := (false, false)) (r := toyJudgedPair toyWords (some [0, 0])) (by decide +kernel)
  refine ⟨kcs, h1, ?_⟩
  exact (C63_runs (c0 := toyCfg 0 (some 1) .release) (c1 := toyCfg 1 (some 1) .debug)
    (cfg := ⟨some 1, 1, 3, 1, 1, 1⟩) (d := 1) (clients := [a, b]) (attrs := [[true]]) le_rfl le_rfl h2 h3 h4
    (by simp) h5 h6 h7 h8 h9).1 ⟨.inr rfl, b, by simp, by rw [hb]; simp⟩

/-- With release servers it does not, and the table of the second client is counted. -/
example : ∃ kcs, toyJudgedPair toyWords (some [0, 0]) = .ok kcs ∧ ∃ (a b : Spec.AbmClient) (kcs' : Pair2 mixToy)
      (ranges : List (Nat × Nat)),
    runAbm (toyCfg 0 (some 1) .release) (toyCfg 1 (some 1) .release) ⟨some 1, 1, 3, 2, 1, 1⟩ kcs [[true]] 2
      = .ok (kcs', ranges.map (Spec.abmBatchOut .release .release 1 1 [a, b])) ∧
    Spec.abmBatchOut .release .release 1 1 [a, b] (0, 2) = ⟨[1, 1], Spec.sumTables 1 1
      [a.table0, b.table0, a.table1, b.table1]⟩ ∧ Spec.Partitions 2 ranges := by
  obtain ⟨kcs, a, b, h1, h2, h3, h4, h5, h6, h7, h8, h9, ha, hb⟩ :=
    toyJudged_facts (verdict := (false, false)) (r := toyJudgedPair toyWords (some [0, 0])) (by decide +kernel)
  obtain ⟨kcs', ranges, g1, g2, -⟩ := (C63_runs (c0 := toyCfg 0 (some 1) .release)
    (c1 := toyCfg 1 (some 1) .release)
    (cfg := ⟨some 1, 1, 3, 2, 1, 1⟩) (d := 1) (clients := [a, b]) (attrs := [[true]]) (by decide) le_rfl h2 h3 h4
    (by simp) h5 h6 h7 h8 h9).2 (by rintro ⟨h | h, -⟩ <;> cases h)
  refine ⟨kcs, h1, a, b, kcs', ranges, g1, ?_, g2⟩
  simp [Spec.abmBatchOut, Spec.rejections, ha, hb, List.range']
  rfl

/-- The second client fails the proof check only, which meets the hypothesis on cheaters of `C63_debug_exact`: debug
servers leave it out and complete. -/
example : ∃ kcs, toyJudgedPair toyCounter none = .ok kcs ∧ ∃ (a b : Spec.AbmClient) (kcs' : Pair2 mixToy)
      (ranges : List (Nat × Nat)),
    runAbm (toyCfg 0 (some 1) .debug) (toyCfg 1 (some 1) .debug) ⟨some 1, 1, 3, 2, 1, 1⟩ kcs [[true]] 2
      = .ok (kcs', ranges.map (Spec.abmBatchOut .debug .debug 1 1 [a, b])) ∧
    b.verdict.flp ≠ b.verdict.proof ∧
    Spec.abmBatchOut .debug .debug 1 1 [a, b] (0, 2) = ⟨[1], Spec.sumTables 1 1 [a.table0, a.table1]⟩ ∧
    Spec.Partitions 2 ranges := by
  obtain ⟨kcs, a, b, h1, h2, h3, h4, h5, h6, h7, h8, h9, ha, hb⟩ :=
    toyJudged_facts (verdict := (true, false)) (r := toyJudgedPair toyCounter none) (by decide +kernel)
  obtain ⟨kcs', ranges, g1, g2, -⟩ := (C63_runs (c0 := toyCfg 0 (some 1) .debug)
    (c1 := toyCfg 1 (some 1) .debug)
    (cfg := ⟨some 1, 1, 3, 2, 1, 1⟩) (d := 1) (clients := [a, b]) (attrs := [[true]]) (by decide) le_rfl h2 h3 h4
    (by simp) h5 h6 h7 h8 h9).2 (by simp [ha, hb])
  refine ⟨kcs, h1, a, b, kcs', ranges, g1, by simp [hb], ?_, g2⟩
  simp [Spec.abmBatchOut, Spec.rejections, ha, hb, List.range', Spec.counts]

end Mastic
