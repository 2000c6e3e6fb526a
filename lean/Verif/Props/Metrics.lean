import Verif.Lemmas.Abm
import Verif.Lemmas.Pm
import Verif.Lemmas.Toy
import Verif.Props.Flp

/-!
# Attribute-based and plain metrics

C43 – C49.
-/

namespace Mastic

variable {P : Prims}

/-! ## C43 -/

/-- **C43, debug builds.** In every reachable state, `attribute_based_metrics_result` answers exactly when
the rejected list has no duplicates and only stored reports; the answer is the table of sums over the
stored tables of the reports that are not rejected, and the rejected ones are forgotten. -/
theorem C43_partial {cfg : ServerCfg} {buckets : Nat} {kc : KeyCollection P}
    (hr : Spec.Reachable P cfg buckets kc) (hb : cfg.build = .debug) (rej : List Nat) (m s e : Nat)
    (hse : s < e) :
    ((∃ resp, ((Server.running kc).handle cfg (.abmResult rej m s e)).2 = .ok resp) ↔
      rej.Nodup ∧ ∀ k ∈ rej, k ∈ kc.abmState.map Prod.fst) ∧
    ∀ resp, ((Server.running kc).handle cfg (.abmResult rej m s e)).2 = .ok resp → ∃ rows,
      resp = .fieldVecs rows ∧ Spec.IsSum m kc.inputLen
        ((kc.abmState.filter fun en => en.1 ∉ rej).map Prod.snd) rows ∧
      ((Server.running kc).handle cfg (.abmResult rej m s e)).1 =
        .running { kc with abmState := kc.abmState.filter fun en => en.1 ∉ rej } := by
  have hd := (reachable_maps hr).1
  have hret := srvAbmResult_returns (cfg := cfg) hd (rej := rej) (m := m)
  have hpre : preLock cfg (.abmResult rej m s e) = .ok () := by
    simp [preLock, hse, debugAssert_true]
  have hh : (Server.running kc).handle cfg (.abmResult rej m s e) =
      match srvAbmResult cfg kc rej m with
      | .error p => (.poisoned, .error p)
      | .ok (kc', r) => (.running kc', .ok (.fieldVecs r)) := by
    unfold Server.handle
    rw [hpre]
    simp only [locked]
    cases srvAbmResult cfg kc rej m <;> rfl
  rw [hh]
  cases hx : srvAbmResult cfg kc rej m with
  | error p =>
    constructor
    · constructor
      · rintro ⟨r, h⟩; cases h
      · intro h
        obtain ⟨r, h⟩ := hret.2 fun _ => h
        rw [hx] at h; cases h
    · intro r h; cases h
  | ok v =>
    obtain ⟨kc', rows⟩ := v
    refine ⟨⟨fun _ => hret.1 ⟨_, hx⟩ hb, fun _ => ⟨_, rfl⟩⟩, fun r h => ?_⟩
    cases h
    obtain ⟨h1, h2, h3⟩ := srvAbmResult_spec hd hx
    rw [if_pos hb] at h2
    refine ⟨rows, rfl, h2 ▸ h3, ?_⟩
    rw [h2] at h1
    show Server.running kc' = _
    rw [h1]

/-- **C43 is false of release builds.** The rejected list has no effect at all: neither on the answer nor
on the state. -/
theorem C43_false_release {cfg : ServerCfg} (hb : cfg.build = .release) (sv : Server P) (rej : List Nat)
    (m s e : Nat) : sv.handle cfg (.abmResult rej m s e) = sv.handle cfg (.abmResult [] m s e) := by
  cases sv with
  | poisoned => rfl
  | running kc =>
    unfold Server.handle
    simp only [preLock, locked, srvAbmResult, abmReject, hb]

/-- Two toy clients holding the attribute, the second with a tampered FLP proof; one batch.  The rejected
list and the result the driver prints. -/
def toyAbm (bld : Build) (batch : Nat) (second : Option Tamper) :
    Exec (List (List Nat × List (List Field128))) := do
  let rs ← mapE (fun c => toyReport 1 c.1.1 c.1.2 c.2) [([true], 0), ([true], 0)].zipIdx
  let kcs ← upload ⟨some 1, 1, 3, 3, 1, 1⟩ rs (KeyCollection.new toy 1 0 (some 1) Block.zero,
    KeyCollection.new toy 1 1 (some 1) Block.zero) [(1, none), (2, second)]
  let out ← runAbm (toyCfg 0 (some 1) bld) (toyCfg 1 (some 1) bld) ⟨some 1, 1, 3, batch, 1, 1⟩ kcs
    [[true]] 2
  .ok (out.2.map fun o => (o.rejected, o.results))

/-- **C43 is false of release builds**, concretely: the driver finds report 1 invalid and asks both
servers to leave it out; a debug build does, a release build still counts it. -/
theorem C43_false_witness :
    toyAbm .debug 2 (some .flp) = .ok [([1], [[1]])] ∧
    toyAbm .release 2 (some .flp) = .ok [([1], [[2]])] := by decide +kernel

/-! ## C44 -/

/-- **C44 is false of debug builds.** A rejected list naming a report twice makes the handler panic with
the lock held, after which the server answers nothing any more. -/
theorem C44_false_debug {cfg : ServerCfg} {buckets : Nat} {kc : KeyCollection P}
    (hr : Spec.Reachable P cfg buckets kc) (hb : cfg.build = .debug) {rej : List Nat}
    (hdup : ¬ rej.Nodup) {m s e : Nat} (hse : s < e) :
    (Server.running kc).handle cfg (.abmResult rej m s e) = (.poisoned, .error .debugAssertion) := by
  have hd := (reachable_maps hr).1
  have hn : ¬ Returns (srvAbmResult cfg kc rej m) := by
    rw [srvAbmResult_returns hd]
    exact fun h => hdup (h hb).1
  have hx : srvAbmResult cfg kc rej m = .error .debugAssertion := by
    unfold srvAbmResult
    cases hst : abmReject cfg.build kc.abmState rej with
    | error p => rw [(abmReject_error hst).1]; rfl
    | ok st => exact absurd ⟨_, by unfold srvAbmResult; rw [hst]; rfl⟩ hn
  unfold Server.handle
  simp only [preLock, hse, decide_true, debugAssert_true, locked, hx]
  rfl

/-- The driver does name a report twice: a report failing both checks is pushed once per check. -/
theorem C44_false_driver (buckets i : Nat) (v0 v1 : List Field128) (d0 d1 : Vector Byte 32)
    (hv : P.flpDecide buckets (vecAdd v0 v1) = some false) (hd : d0 ≠ d1) :
    rejectEntries P buckets (i, ((v0, d0), (v1, d1))) = .ok [i, i] := by
  unfold rejectEntries
  simp [hv, unwrapO, hd]

/-- **C44 is false of debug builds**, for whole batches: if any report of the batch fails both checks
the batch does not complete, whatever the other reports are. -/
theorem C44_false_batch {c0 c1 : ServerCfg} {cfg : Config} {attrs : List (List Bool)} {kcs : Pair2 P}
    {s e : Nat} {buckets : Nat} (hr : Spec.Reachable P c0 buckets kcs.1) (hb : c0.build = .debug)
    {k0 k1 : KeyCollection P} {res0 res1 : List (List Field128 × Vector Byte 32)}
    (h0 : srvAbmValidate kcs.1 attrs s e = .ok (k0, res0))
    (h1 : srvAbmValidate kcs.2 attrs s e = .ok (k1, res1)) {j : Nat} {v0 v1 : List Field128}
    {d0 d1 : Vector Byte 32} (e0 : res0[j]? = some (v0, d0)) (e1 : res1[j]? = some (v1, d1))
    (hv : P.flpDecide cfg.histBuckets (vecAdd v0 v1) = some false) (hd : d0 ≠ d1) :
    Panics (abmBatch c0 c1 cfg attrs kcs (s, e)) := by
  rw [← not_returns_iff]
  rintro ⟨out, h⟩
  unfold abmBatch at h
  obtain ⟨_, -, h⟩ := bind_eq_ok.1 h
  rw [h0] at h
  simp only [ok_bind] at h
  obtain ⟨_, -, h⟩ := bind_eq_ok.1 h
  rw [h1] at h
  simp only [ok_bind] at h
  obtain ⟨_, -, h⟩ := bind_eq_ok.1 h
  obtain ⟨_, -, h⟩ := bind_eq_ok.1 h
  obtain ⟨rej, hrej, h⟩ := bind_eq_ok.1 h
  obtain ⟨⟨k0', a0⟩, hx, -⟩ := bind_eq_ok.1 h
  have hmaps : MapsOk k0 := by
    have : locked c0 kcs.1 (.abmValidate attrs s e) = .ok (k0, .validated res0) := by
      simp only [locked, h0, ok_bind]
    exact locked_maps (reachable_maps hr) this
  have hn := ((srvAbmResult_returns hmaps.1).1 ⟨_, hx⟩ hb).1
  rw [List.nodup_flatten] at hn
  obtain ⟨results, -, hk, -, -, hres⟩ := srvAbmValidate_ok h0
  have hj : j < (rangeFrom s e).length := by
    rw [← hk, List.length_map]
    have := (List.getElem?_eq_some_iff.1 e0).1
    rw [hres, List.length_map] at this
    exact this
  rw [mapE_eq_ok_iff_getElem] at hrej
  obtain ⟨b, hb1, hb2⟩ := hrej.2 j ((rangeFrom s e)[j], ((v0, d0), (v1, d1))) (by
    rw [List.getElem?_zip_eq_some]
    exact ⟨List.getElem?_eq_getElem hj, by rw [List.getElem?_zip_eq_some]; exact ⟨e0, e1⟩⟩)
  rw [C44_false_driver _ _ _ _ _ _ hv hd] at hb2
  cases hb2
  have := hn.1 _ (List.mem_of_getElem? hb1)
  simp at this

/-- A toy client whose second key has other value correction words and whose proof share is wrong: it fails both
checks. -/
def toyTwice (bld : Build) : Exec (List (List Nat × List (List Field128))) := do
  let rep ← toyReport 1 [true] 0 0
  let bad : PlaintextReport := match rep with
    | .mastic n ks ps jr a => .mastic n (ks.1, { ks.2 with
        corWords := ks.2.corWords.map fun c => { c with word := [5, 5] } }) (ps.1, [0, 0]) jr a
    | r => r
  let kcs ← upload ⟨some 1, 1, 3, 3, 1, 1⟩ [bad] (KeyCollection.new toy 1 0 (some 1) Block.zero,
    KeyCollection.new toy 1 1 (some 1) Block.zero) [(1, none)]
  let out ← runAbm (toyCfg 0 (some 1) bld) (toyCfg 1 (some 1) bld) ⟨some 1, 1, 3, 3, 1, 1⟩ kcs
    [[true]] 1
  .ok (out.2.map fun o => (o.rejected, o.results))

/-- **C44 is false of debug builds**, concretely. -/
theorem C44_false_witness : toyTwice .debug = .error .debugAssertion ∧
    (toyTwice .release).map (fun l => l.map Prod.fst) = .ok [[0, 0]] := by decide +kernel

/-- **C44, the part that holds.** In release builds naming a report twice is the same as naming it once
(both have no effect, see C43); in debug builds a batch in which no report fails both checks names no
report twice.  Missing: debug builds with a report failing both checks, where the claim is false. -/
theorem C44_partial {cfg : ServerCfg} (kc : KeyCollection P) (rej : List Nat) (k m : Nat) :
    (cfg.build = .release → srvAbmResult cfg kc (k :: k :: rej) m = srvAbmResult cfg kc (k :: rej) m) ∧
    ∀ (buckets : Nat) (entries : List (Nat × ((List Field128 × Vector Byte 32) ×
        (List Field128 × Vector Byte 32)))) (rejs : List (List Nat)), (entries.map Prod.fst).Nodup →
      mapE (rejectEntries P buckets) entries = .ok rejs →
      (∀ en ∈ entries, P.flpDecide buckets (vecAdd en.2.1.1 en.2.2.1) = some true ∨
        en.2.1.2 = en.2.2.2) → rejs.flatten.Nodup ∧ ∀ i, i ∈ rejs.flatten ↔ ∃ en ∈ entries, en.1 = i ∧
          ¬ (P.flpDecide buckets (vecAdd en.2.1.1 en.2.2.1) = some true ∧ en.2.1.2 = en.2.2.2) := by
  constructor
  · intro hb
    simp only [srvAbmResult, abmReject, hb]
  · intro buckets entries
    induction entries with
    | nil => intro rejs _ h _; cases h; simp
    | cons en ens ih =>
      intro rejs hn h hor
      rw [mapE_cons] at h
      obtain ⟨r, h1, h⟩ := bind_eq_ok.1 h
      obtain ⟨rs, h2, h⟩ := bind_eq_ok.1 h
      cases h
      rw [List.map_cons, List.nodup_cons] at hn
      obtain ⟨i1, i2⟩ := ih rs hn.2 h2 fun x hx => hor x (by simp [hx])
      have hr : (r = [] ∧ P.flpDecide buckets (vecAdd en.2.1.1 en.2.2.1) = some true ∧
          en.2.1.2 = en.2.2.2) ∨ (r = [en.1] ∧
          ¬ (P.flpDecide buckets (vecAdd en.2.1.1 en.2.2.1) = some true ∧ en.2.1.2 = en.2.2.2)) := by
        unfold rejectEntries at h1
        obtain ⟨ok, hok, h1⟩ := bind_eq_ok.1 h1
        rw [unwrapO_eq_ok] at hok
        cases h1
        have := hor en (by simp)
        rw [hok] at this ⊢
        cases ok <;> by_cases hd : en.2.1.2 = en.2.2.2 <;> simp [hd] at this ⊢
      have hfresh : en.1 ∉ rs.flatten := by
        rw [i2]
        rintro ⟨x, hx, he, -⟩
        exact hn.1 (he ▸ List.mem_map_of_mem hx)
      rw [List.flatten_cons]
      rcases hr with ⟨rfl, hgood⟩ | ⟨rfl, hbad⟩
      · refine ⟨by simpa using i1, fun i => ?_⟩
        rw [List.nil_append, i2]
        constructor
        · rintro ⟨x, hx, h⟩; exact ⟨x, by simp [hx], h⟩
        · rintro ⟨x, hx, h, hb⟩
          rcases List.mem_cons.1 hx with rfl | hx
          · exact absurd hgood hb
          · exact ⟨x, hx, h, hb⟩
      · refine ⟨List.nodup_cons.2 ⟨hfresh, i1⟩, fun i => ?_⟩
        rw [List.singleton_append, List.mem_cons, i2]
        constructor
        · rintro (rfl | ⟨x, hx, h⟩)
          · exact ⟨en, by simp, rfl, hbad⟩
          · exact ⟨x, by simp [hx], h⟩
        · rintro ⟨x, hx, hxi, hb⟩
          rcases List.mem_cons.1 hx with rfl | hx
          · exact Or.inl hxi.symm
          · exact Or.inr ⟨x, hx, hxi, hb⟩

/-! ## C45 -/

/-- **C45, the part that holds.** When nothing is stored yet, the answer to
`attribute_based_metrics_result` after validating `[start, end)` sums the tables of exactly the reports of
that range which are not rejected (debug builds; in release builds the rejected ones are included too, see
C43).  Missing: states that already hold earlier batches, where the claim is false. -/
theorem C45_partial {cfg : ServerCfg} {kc kc' kc'' : KeyCollection P} {attrs : List (List Bool)}
    {s e m : Nat} {res : List (List Field128 × Vector Byte 32)} {rej : List Nat}
    {rows : List (List Field128)} (hempty : kc.abmState = [])
    (hv : srvAbmValidate kc attrs s e = .ok (kc', res))
    (hr : srvAbmResult cfg kc' rej m = .ok (kc'', rows)) :
    ∃ table : Nat → List (List Field128),
      (∀ i, s ≤ i → i < e → ∃ b sh, kc.reportShares[i]? = some (b, sh) ∧
        Spec.tableOf P kc.inputLen attrs sh = some (table i)) ∧
      Spec.IsSum m kc.inputLen (((List.range' s (e - s)).filter
        fun i => cfg.build = .release ∨ i ∉ rej).map table) rows := by
  obtain ⟨h1, h2, h3⟩ := abmValidate_cover hv
  have hd : Spec.DistinctKeys kc'.abmState := by
    obtain ⟨results, -, -, -, rfl, -⟩ := srvAbmValidate_ok hv
    exact foldl_mapInsert_distinct (fun r : Nat × List (List Field128) × List Field128 × Vector Byte 32
      => (r.1, r.2.1)) _ _ (by rw [hempty]; exact List.nodup_nil)
  obtain ⟨h4, h5, h6⟩ := srvAbmResult_spec hd hr
  have hlen : kc'.inputLen = kc.inputLen := by rw [h2]
  have htab : ∀ i, s ≤ i → i < e → (kc.reportShares[i]?.bind fun br =>
      Spec.tableOf P kc.inputLen attrs br.2) = some (tableD kc attrs i) := by
    intro i hi1 hi2
    obtain ⟨b, sh, t, g1, g2⟩ := h3 i hi1 hi2
    unfold tableD
    rw [g1]
    simp only [Option.bind_some]
    rw [g2]; rfl
  refine ⟨tableD kc attrs, fun i hi1 hi2 => ?_, ?_⟩
  · obtain ⟨b, sh, t, g1, g2⟩ := h3 i hi1 hi2
    have := htab i hi1 hi2
    rw [g1] at this
    exact ⟨b, sh, g1, this⟩
  · have hp : kc'.abmState.Perm ((List.range' s (e - s)).map fun i => (i, tableD kc attrs i)) := by
      have hk : Spec.DistinctKeys ((List.range' s (e - s)).map fun k => (k, tableD kc attrs k)) := by
        unfold Spec.DistinctKeys
        rw [List.map_map]
        have : (Prod.fst ∘ fun k => (k, tableD kc attrs k)) = (id : Nat → Nat) := rfl
        rw [this, List.map_id]
        exact List.nodup_range'
      refine perm_of_lookup hd hk fun k => ?_
      rw [h1 k, hempty, List.lookup_nil]
      split
      · rename_i hks
        rw [htab k hks.1 hks.2]
        symm
        rw [← mem_iff_lookup hk]
        exact List.mem_map.2 ⟨k, rangeFrom_mem.2 hks, rfl⟩
      · rename_i hks
        symm
        rw [Option.eq_none_iff_forall_ne_some]
        intro v hv
        rw [← mem_iff_lookup hk] at hv
        obtain ⟨k', g1, g2⟩ := List.mem_map.1 hv
        cases g2
        exact hks (rangeFrom_mem.1 g1)
    have hq : (kc''.abmState.map Prod.snd).Perm (((List.range' s (e - s)).filter
        fun i => cfg.build = .release ∨ i ∉ rej).map (tableD kc attrs)) := by
      have hfil : kc''.abmState = kc'.abmState.filter fun en => cfg.build = .release ∨ en.1 ∉ rej := by
        rw [h5]
        cases hb : cfg.build with
        | debug => simp
        | release => simp
      rw [hfil]
      refine ((hp.filter _).map Prod.snd).trans (List.Perm.of_eq ?_)
      rw [List.filter_map, List.map_map]
      rfl
    rw [hlen] at h6
    exact ⟨h6.1, fun j hj c hc => by rw [h6.2 j hj c hc]; exact (hq.map _).sum_eq⟩

/-- The run of honest clients, with its batches. -/
theorem abm_batches {c0 c1 : ServerCfg} {cfg : Config} {kcs : Pair2 P}
    {clients : List (List Bool × Nat)} {attrs : List (List Bool)} {rs : List (Nat × Nat)} (hb : 1 ≤ cfg.queryBatch)
    (hn0 : kcs.1.inputLen = cfg.histBuckets) (hn1 : kcs.2.inputLen = cfg.histBuckets)
    (h0 : kcs.1.serverId = 0) (h1 : kcs.2.serverId ≠ 0) (hvk : kcs.1.verifyKey = kcs.2.verifyKey)
    (hh : Spec.HonestReports P cfg.histBuckets clients kcs.1.reportShares kcs.2.reportShares)
    (hc : Spec.FlpCompleteFor P cfg.histBuckets kcs.1.verifyKey kcs.1.reportShares)
    (ha : ∀ c ∈ clients, c.1 ≠ [] ∧ ∀ p ∈ attrs, p ≠ [] ∧ p.length ≤ c.1.length)
    (e0 : kcs.1.abmState = []) (e1 : kcs.2.abmState = [])
    (hrs : stepByRanges clients.length cfg.queryBatch = .ok rs) :
    ∃ kcs', runAbm c0 c1 cfg kcs attrs clients.length = .ok (kcs', rs.map fun r =>
      ⟨[], Spec.attributeHistograms cfg.histBuckets attrs (clients.take r.2)⟩) := by
  obtain ⟨rs', hrs', ⟨hp1, hp2⟩, -⟩ := stepByRanges_spec (n := clients.length) hb
  obtain rfl := Except.ok.inj (hrs'.symm.trans hrs)
  have cov : ∀ kc : KeyCollection P, kc.abmState = [] → Covers kc attrs 0 := by
    intro kc h
    refine ⟨by rw [h]; exact List.nodup_nil, fun k => ?_⟩
    rw [h, if_neg (by omega)]; rfl
  obtain ⟨kcs', hl⟩ := honest_abmLoop (c0 := c0) (c1 := c1) (cfg := cfg) (attrs := attrs) rfl rs'
    ⟨hn0, hn1, h0, h1, hvk, hh, hc, ha⟩ (cov _ e0) (cov _ e1) (Nat.zero_le _) hp1
    (by rw [Nat.sub_zero, ← List.range_eq_range']; exact hp2)
  exact ⟨kcs', by unfold runAbm; rw [hrs]; exact hl⟩

/-- **C45 is false of the code: results are cumulative.** For honest reports processed in several batches
from an empty state, the result printed for the batch `[start, end)` is the histogram over all clients
below `end`, not over the batch. -/
theorem C45_false_cumulative {c0 c1 : ServerCfg} {cfg : Config} {kcs : Pair2 P}
    {clients : List (List Bool × Nat)} {attrs : List (List Bool)} (hb : 1 ≤ cfg.queryBatch)
    (hn0 : kcs.1.inputLen = cfg.histBuckets) (hn1 : kcs.2.inputLen = cfg.histBuckets)
    (h0 : kcs.1.serverId = 0) (h1 : kcs.2.serverId ≠ 0) (hvk : kcs.1.verifyKey = kcs.2.verifyKey)
    (hh : Spec.HonestReports P cfg.histBuckets clients kcs.1.reportShares kcs.2.reportShares)
    (hc : Spec.FlpCompleteFor P cfg.histBuckets kcs.1.verifyKey kcs.1.reportShares)
    (ha : ∀ c ∈ clients, c.1 ≠ [] ∧ ∀ p ∈ attrs, p ≠ [] ∧ p.length ≤ c.1.length)
    (e0 : kcs.1.abmState = []) (e1 : kcs.2.abmState = []) :
    ∃ ranges, Spec.Partitions clients.length ranges ∧ (∀ r ∈ ranges, r.2 ≤ r.1 + cfg.queryBatch) ∧
      ∃ kcs', runAbm c0 c1 cfg kcs attrs clients.length = .ok (kcs', ranges.map fun r =>
        ⟨[], Spec.attributeHistograms cfg.histBuckets attrs (clients.take r.2)⟩) := by
  obtain ⟨rs, hrs, hp, hp3⟩ := stepByRanges_spec (n := clients.length) hb
  exact ⟨rs, hp, hp3, abm_batches hb hn0 hn1 h0 h1 hvk hh hc ha e0 e1 hrs⟩

/-- **C45 is false of the code**, concretely: two honest clients in batches of one.  The second batch
consists of client 1 only, but its result counts both clients. -/
theorem C45_false_witness : toyAbm .debug 1 none = .ok [([], [[1]]), ([], [[2]])] := by decide +kernel

/-! ## C46 -/

/-- **C46.** The answer does not depend on the iteration order of the hash map (two servers that differ in
nothing but that order), on the order or number of validations, nor on how they are grouped into ranges: two
validation sequences that cover the same reports lead to states giving the same answer to every result
request, including the same panics. -/
theorem C46_order_independent {cfg cfg' : ServerCfg} (hb : cfg.build = cfg'.build)
    {buckets : Nat} {kc k1 k2 : KeyCollection P} (hr : Spec.Reachable P cfg buckets kc)
    {attrs : List (List Bool)} {rs rs' : List (Nat × Nat)}
    (h1 : (Server.run cfg (.running kc) (rs.map fun r => .abmValidate attrs r.1 r.2)).1 = .running k1)
    (h2 : (Server.run cfg' (.running kc) (rs'.map fun r => .abmValidate attrs r.1 r.2)).1 = .running k2)
    (hcov : ∀ i : Nat, (∃ r ∈ rs, r.1 ≤ i ∧ i < r.2) ↔ ∃ r ∈ rs', r.1 ≤ i ∧ i < r.2)
    (rej : List Nat) (m s e : Nat) :
    ((Server.running k1).handle cfg (.abmResult rej m s e)).2 =
      ((Server.running k2).handle cfg' (.abmResult rej m s e)).2 := by
  -- the state after a sequence of validations
  have hseq : ∀ (c : ServerCfg) (rs : List (Nat × Nat)) (k k' : KeyCollection P),
      Spec.DistinctKeys k.abmState →
      (Server.run c (.running k) (rs.map fun r => .abmValidate attrs r.1 r.2)).1 = .running k' →
      Spec.DistinctKeys k'.abmState ∧ k' = { k with abmState := k'.abmState } ∧
      ∀ i, k'.abmState.lookup i = if ∃ r ∈ rs, r.1 ≤ i ∧ i < r.2 then
        (k.reportShares[i]?.bind fun br => Spec.tableOf P k.inputLen attrs br.2)
        else k.abmState.lookup i := by
    intro c rs
    induction rs with
    | nil =>
      intro k k' hd h
      simp only [List.map_nil, Server.run] at h
      cases h
      exact ⟨hd, rfl, by simp⟩
    | cons r rs ih =>
      intro k k' hd h
      simp only [List.map_cons, Server.run] at h
      cases hs : ((Server.running k).handle c (.abmValidate attrs r.1 r.2)).1 with
      | poisoned =>
        rw [hs] at h
        exfalso
        have hp : ∀ rs : List Req, (Server.run (P := P) c .poisoned rs).1 = .poisoned := by
          intro rs
          induction rs with
          | nil => rfl
          | cons q qs ihq =>
            simp only [Server.run, Server.handle]
            cases preLock c q <;> exact ihq
        rw [hp] at h; cases h
      | running k1 =>
        rw [hs] at h
        have hcase : k1 = k ∧ ¬ (r.1 < r.2) ∨ ∃ res, srvAbmValidate k attrs r.1 r.2 = .ok (k1, res) := by
          unfold Server.handle at hs
          cases hpre : preLock c (.abmValidate attrs r.1 r.2) with
          | error p =>
            rw [hpre] at hs
            cases hs
            refine Or.inl ⟨rfl, fun hlt => ?_⟩
            simp only [preLock, hlt, decide_true, debugAssert_true] at hpre
            cases hpre
          | ok u =>
            rw [hpre] at hs
            simp only [locked] at hs
            cases hv : srvAbmValidate k attrs r.1 r.2 with
            | error p => rw [hv] at hs; cases hs
            | ok v =>
              obtain ⟨kk, res⟩ := v
              rw [hv] at hs
              cases hs
              exact Or.inr ⟨res, rfl⟩
        rcases hcase with ⟨rfl, hlt⟩ | ⟨res, hv⟩
        · obtain ⟨i1, i2, i3⟩ := ih _ _ hd h
          refine ⟨i1, i2, fun i => ?_⟩
          rw [i3 i]
          congr 1
          simp only [List.mem_cons, exists_eq_or_imp, eq_iff_iff]
          constructor
          · exact Or.inr
          · rintro (hx | hx)
            · omega
            · exact hx
        · obtain ⟨g1, g2, -⟩ := abmValidate_cover hv
          have hd1 : Spec.DistinctKeys k1.abmState := by
            obtain ⟨results, -, -, -, rfl, -⟩ := srvAbmValidate_ok hv
            exact foldl_mapInsert_distinct
              (fun r : Nat × List (List Field128) × List Field128 × Vector Byte 32 => (r.1, r.2.1)) _ _ hd
          obtain ⟨i1, i2, i3⟩ := ih _ _ hd1 h
          have hsh : k1.reportShares = k.reportShares ∧ k1.inputLen = k.inputLen := by
            rw [g2]; exact ⟨rfl, rfl⟩
          refine ⟨i1, by rw [i2, g2], fun i => ?_⟩
          rw [i3 i, g1 i, hsh.1, hsh.2]
          simp only [List.mem_cons, exists_eq_or_imp]
          by_cases a : ∃ r ∈ rs, r.1 ≤ i ∧ i < r.2
          · simp [a]
          · by_cases b : r.1 ≤ i ∧ i < r.2
            · simp [a, b]
            · simp [a, b]
  have hd := (reachable_maps hr).1
  obtain ⟨d1, f1, l1⟩ := hseq _ _ _ _ hd h1
  obtain ⟨d2, f2, l2⟩ := hseq _ _ _ _ hd h2
  have hperm : k1.abmState.Perm k2.abmState := by
    refine perm_of_lookup d1 d2 fun i => ?_
    rw [l1 i, l2 i]
    simp only [hcov i]
  have n1 : k1.inputLen = kc.inputLen := by rw [f1]
  have n2 : k2.inputLen = kc.inputLen := by rw [f2]
  rw [handle_abmResult, handle_abmResult, srvAbmResult_perm hb (n1.trans n2.symm) d1 d2 hperm, hb]

/-- **C46.** Asking again without naming rejected reports repeats the answer, in every reachable state. -/
theorem C46_ask_again {cfg : ServerCfg} {buckets : Nat} {kc kc' : KeyCollection P}
    (hr : Spec.Reachable P cfg buckets kc) {rej : List Nat} {m s e : Nat} {resp : Resp}
    (h : (Server.running kc).handle cfg (.abmResult rej m s e) = (.running kc', .ok resp)) :
    ∃ kc'', (Server.running kc').handle cfg (.abmResult [] m s e) = (.running kc'', .ok resp) := by
  have hd := (reachable_maps hr).1
  unfold Server.handle at h ⊢
  simp only [preLock, locked] at h ⊢
  cases hp : debugAssert cfg.build (decide (s < e)) with
  | error p => rw [hp] at h; cases h
  | ok u =>
    rw [hp] at h
    cases hx : srvAbmResult cfg kc rej m with
    | error p => rw [hx] at h; cases h
    | ok v =>
      obtain ⟨k1, rows⟩ := v
      rw [hx] at h
      cases h
      obtain ⟨g1, g2, g3⟩ := srvAbmResult_spec hd hx
      have hd' : Spec.DistinctKeys k1.abmState := by
        rw [g2]
        split
        · exact distinct_filter hd _
        · exact hd
      obtain ⟨⟨k2, rows'⟩, hy⟩ := (srvAbmResult_returns (cfg := cfg) hd' (rej := []) (m := m)).2
        (fun _ => by simp)
      obtain ⟨-, q2, q3⟩ := srvAbmResult_spec hd' hy
      have hst : k2.abmState = k1.abmState := by rw [q2]; simp
      have hlen : k1.inputLen = kc.inputLen := by rw [g1]
      rw [hst, hlen] at q3
      rw [hy, isSum_unique g3 q3 (List.Perm.refl _)]
      exact ⟨k2, rfl⟩

/-- **C46, limit.** In debug builds, asking twice with the same non-empty list of rejected reports does not
repeat the answer: the second request panics with the lock held. -/
theorem C46_false_ask_rejected {cfg : ServerCfg} {buckets : Nat} {kc kc' : KeyCollection P}
    (hr : Spec.Reachable P cfg buckets kc) (hb : cfg.build = .debug) {rej : List Nat} (hne : rej ≠ [])
    {m s e : Nat} {resp : Resp}
    (h : (Server.running kc).handle cfg (.abmResult rej m s e) = (.running kc', .ok resp)) :
    ∃ p, (Server.running kc').handle cfg (.abmResult rej m s e) = (.poisoned, .error p) := by
  have hd := (reachable_maps hr).1
  unfold Server.handle at h ⊢
  simp only [preLock, locked] at h ⊢
  cases hp : debugAssert cfg.build (decide (s < e)) with
  | error p => rw [hp] at h; cases h
  | ok u =>
    rw [hp] at h
    cases hx : srvAbmResult cfg kc rej m with
    | error p => rw [hx] at h; cases h
    | ok v =>
      obtain ⟨k1, rows⟩ := v
      rw [hx] at h
      cases h
      obtain ⟨g1, g2, g3⟩ := srvAbmResult_spec hd hx
      rw [if_pos hb] at g2
      have hd' : Spec.DistinctKeys k1.abmState := by
        rw [g2]; exact distinct_filter hd _
      cases hy : srvAbmResult cfg k1 rej m with
      | error p => exact ⟨p, rfl⟩
      | ok w =>
        exfalso
        obtain ⟨-, hm⟩ := (srvAbmResult_returns (cfg := cfg) hd' (rej := rej) (m := m)).1 ⟨_, hy⟩ hb
        obtain ⟨k, ks, rfl⟩ := List.exists_cons_of_ne_nil hne
        have := hm k (by simp)
        rw [g2] at this
        simp at this

/-- Validating ranges `[0, 1)`, `[1, 2)`, `[0, 2)` and then asking, or `[0, 2)` alone: both sequences are
possible and cover the same reports. -/
example : (do
    let kcs ← toyPair 1 1 [([true], 0), ([false], 0)]
    let (a, _) ← srvAbmValidate kcs.1 [[true], [false]] 0 1
    let (a, _) ← srvAbmValidate a [[true], [false]] 1 2
    let (a, _) ← srvAbmValidate a [[true], [false]] 0 2
    let (b, _) ← srvAbmValidate kcs.1 [[true], [false]] 0 2
    let (_, x) ← srvAbmResult (toyCfg 0 (some 1) .debug) a [] 2
    let (_, y) ← srvAbmResult (toyCfg 0 (some 1) .debug) b [] 2
    .ok (decide (x = y), x.length) : Exec _) = .ok (true, 2) := by decide +kernel

/-! ## C47 -/

/-- **C47.** With honest reports only and a single batch, the run completes, nobody is rejected, and the
printed result of each attribute is the histogram of the weights of exactly the clients whose string
starts with the attribute (in particular, of those whose string it is). -/
theorem C47_honest_exact {c0 c1 : ServerCfg} {cfg : Config} {kcs : Pair2 P}
    {clients : List (List Bool × Nat)} {attrs : List (List Bool)} (hne : clients ≠ [])
    (hb : clients.length ≤ cfg.queryBatch)
    (hn0 : kcs.1.inputLen = cfg.histBuckets) (hn1 : kcs.2.inputLen = cfg.histBuckets)
    (h0 : kcs.1.serverId = 0) (h1 : kcs.2.serverId ≠ 0) (hvk : kcs.1.verifyKey = kcs.2.verifyKey)
    (hh : Spec.HonestReports P cfg.histBuckets clients kcs.1.reportShares kcs.2.reportShares)
    (hc : Spec.FlpCompleteFor P cfg.histBuckets kcs.1.verifyKey kcs.1.reportShares)
    (ha : ∀ c ∈ clients, c.1 ≠ [] ∧ ∀ p ∈ attrs, p ≠ [] ∧ p.length ≤ c.1.length)
    (e0 : kcs.1.abmState = []) (e1 : kcs.2.abmState = []) :
    ∃ kcs', runAbm c0 c1 cfg kcs attrs clients.length =
      .ok (kcs', [⟨[], Spec.attributeHistograms cfg.histBuckets attrs clients⟩]) := by
  have hpos : 0 < clients.length := List.length_pos_of_ne_nil hne
  have cov : ∀ kc : KeyCollection P, kc.abmState = [] → Covers kc attrs 0 := by
    intro kc h
    refine ⟨by rw [h]; exact List.nodup_nil, fun k => ?_⟩
    rw [h, if_neg (by omega)]; rfl
  obtain ⟨kcs', hl⟩ := honest_abmLoop (c0 := c0) (c1 := c1) (cfg := cfg) (attrs := attrs) rfl
    [(0, clients.length)] ⟨hn0, hn1, h0, h1, hvk, hh, hc, ha⟩ (cov _ e0) (cov _ e1) (Nat.zero_le _)
    (by simpa using hpos) (by simp)
  refine ⟨kcs', ?_⟩
  have hr : stepByRanges clients.length cfg.queryBatch = .ok [(0, clients.length)] := by
    unfold stepByRanges
    rw [if_neg (by omega)]
    have hdiv : (clients.length + cfg.queryBatch - 1) / cfg.queryBatch = 1 := by
      rw [Nat.div_eq_iff (by omega)]
      omega
    rw [hdiv]
    simp [hb]
  unfold runAbm
  rw [hr, ok_bind, hl]
  simp

/-- The hypotheses of C47 are met by two honest toy clients. -/
example : toyAbm .debug 2 none = .ok [([], [[2]])] := by decide +kernel

/-! ## C48 -/

/-- **C48.** For every report of a batch that both servers validated, both servers combine the same
ordered pair of preparation shares (leader's first): each server's output share is the one of that pair,
and its rejected count is the number of reports without output share.  The only assumption on Prio3 is
that a preparation share that a server sends is read back by the other one. -/
theorem C48_same_pair {c0 c1 : ServerCfg} {b0 b1 : Nat} {kcs : Pair2 P} {n s e : Nat}
    (hrt : Spec.SharesRead P n)
    (hr0 : Spec.Reachable P c0 b0 kcs.1) (hr1 : Spec.Reachable P c1 b1 kcs.2)
    (h0 : c0.serverId = 0) (h1 : c1.serverId ≠ 0) (hn0 : kcs.1.inputLen = n) (hn1 : kcs.2.inputLen = n)
    (hlt : s < e) {k0 k1 : KeyCollection P} {res0 res1 : List (List Byte)}
    (v0 : srvPmValidate c0 kcs.1 s e = .ok (k0, res0)) (v1 : srvPmValidate c1 kcs.2 s e = .ok (k1, res1)) :
    ∃ f0 f1 : Nat → P.PrepState × P.PrepShare,
      (∀ i, s ≤ i → i < e →
        (kcs.1.reportShares[i]?.bind fun br => Spec.prepOf P n 0 kcs.1.verifyKey br.2) = some (f0 i) ∧
        (kcs.2.reportShares[i]?.bind fun br =>
          Spec.prepOf P n c1.serverId.toNat kcs.2.verifyKey br.2) = some (f1 i)) ∧
      (∀ k0' a0 r0, srvPmResult c0 k0 res1 s e = .ok (k0', a0, r0) →
        r0 = (List.range' s (e - s)).countP (fun i =>
          (Spec.outputOf P n (f0 i).1 (f0 i).2 (f1 i).2).isNone) ∧ a0.length = n ∧
        ∀ c < n, (a0[c]?).getD 0 = Spec.entrySum ((List.range' s (e - s)).filterMap fun i =>
          Spec.outputOf P n (f0 i).1 (f0 i).2 (f1 i).2) c) ∧
      (∀ k1' a1 r1, srvPmResult c1 k1 res0 s e = .ok (k1', a1, r1) →
        r1 = (List.range' s (e - s)).countP (fun i =>
          (Spec.outputOf P n (f1 i).1 (f0 i).2 (f1 i).2).isNone) ∧ a1.length = n ∧
        ∀ c < n, (a1[c]?).getD 0 = Spec.entrySum ((List.range' s (e - s)).filterMap fun i =>
          Spec.outputOf P n (f1 i).1 (f0 i).2 (f1 i).2) c) := by
  obtain ⟨-, -, g0, f0, a0, rfl, l0, d0⟩ := pmValidate_spec hlt v0
  obtain ⟨-, -, g1, f1, a1, rfl, l1, d1⟩ := pmValidate_spec hlt v1
  have reads : ∀ i, s ≤ i → i < e → P.prepDecode (f0 i).1 (P.prepEncode (f1 i).2) = some (f1 i).2 ∧
      P.prepDecode (f1 i).1 (P.prepEncode (f0 i).2) = some (f0 i).2 := by
    intro i hi1 hi2
    have q0 := a0 i hi1 hi2
    have q1 := a1 i hi1 hi2
    rw [hn0] at q0; rw [hn1] at q1
    obtain ⟨b0, -, q0⟩ := Option.bind_eq_some_iff.1 q0
    obtain ⟨b1, -, q1⟩ := Option.bind_eq_some_iff.1 q1
    exact ⟨hrt _ _ _ _ _ _ _ _ q0 q1, hrt _ _ _ _ _ _ _ _ q1 q0⟩
  refine ⟨f0, f1, fun i hi1 hi2 => ⟨?_, ?_⟩, ?_, ?_⟩
  · have := a0 i hi1 hi2
    rw [hn0, h0] at this; exact this
  · have := a1 i hi1 hi2
    rw [hn1] at this; exact this
  · intro k0' ag r0 h
    have := pm_result_of hlt (cfg := c0) (kc := k0) (n := n) f0 f1 (by rw [g0]; exact hn0)
      (fun i a b => (reads i a b).1) (d0 (reachable_maps hr0).2)
      (fun k h1 h2 => by rw [l0 k, if_pos ⟨h1, h2⟩]) h
    simpa [pairOf, h0] using this
  · intro k1' ag r1 h
    have := pm_result_of hlt (cfg := c1) (kc := k1) (n := n) f1 f0 (by rw [g1]; exact hn1)
      (fun i a b => (reads i a b).2) (d1 (reachable_maps hr1).2)
      (fun k h1 h2 => by rw [l1 k, if_pos ⟨h1, h2⟩]) h
    simpa [pairOf, h1] using this

/-- **C48.** If Prio3's last step accepts the same combined messages on both sides, both servers accept
the same reports and report the same rejected count, whatever the reports. -/
theorem C48_same_rejected {c0 c1 : ServerCfg} {b0 b1 : Nat} {kcs : Pair2 P} {n s e : Nat}
    (hrt : Spec.SharesRead P n)
    (hr0 : Spec.Reachable P c0 b0 kcs.1) (hr1 : Spec.Reachable P c1 b1 kcs.2)
    (h0 : c0.serverId = 0) (h1 : c1.serverId ≠ 0) (hn0 : kcs.1.inputLen = n) (hn1 : kcs.2.inputLen = n)
    (hlt : s < e) {k0 k1 : KeyCollection P} {res0 res1 : List (List Byte)}
    (v0 : srvPmValidate c0 kcs.1 s e = .ok (k0, res0)) (v1 : srvPmValidate c1 kcs.2 s e = .ok (k1, res1))
    (hnext : ∀ (i : Nat) (x0 x1 : P.PrepState × P.PrepShare) (msg : List Byte),
      (kcs.1.reportShares[i]?.bind fun br => Spec.prepOf P n 0 kcs.1.verifyKey br.2) = some x0 →
      (kcs.2.reportShares[i]?.bind fun br =>
        Spec.prepOf P n c1.serverId.toNat kcs.2.verifyKey br.2) = some x1 →
      P.prepCombine n x0.2 x1.2 = some msg →
      (P.prepNext n x0.1 msg).isSome = (P.prepNext n x1.1 msg).isSome)
    {k0' k1' : KeyCollection P} {a0 a1 : List Field128} {r0 r1 : Nat}
    (e0 : srvPmResult c0 k0 res1 s e = .ok (k0', a0, r0))
    (e1 : srvPmResult c1 k1 res0 s e = .ok (k1', a1, r1)) : r0 = r1 := by
  obtain ⟨f0, f1, hf, g0, g1⟩ := C48_same_pair hrt hr0 hr1 h0 h1 hn0 hn1 hlt v0 v1
  rw [(g0 _ _ _ e0).1, (g1 _ _ _ e1).1]
  refine List.countP_congr fun i hi => ?_
  obtain ⟨hi1, hi2⟩ := rangeFrom_mem.1 hi
  obtain ⟨x0, x1⟩ := hf i hi1 hi2
  unfold Spec.outputOf
  cases hm : P.prepCombine n (f0 i).2 (f1 i).2 with
  | none => simp
  | some msg =>
    have := hnext i _ _ msg x0 x1 hm
    simp only [Option.bind_some]
    cases ha : P.prepNext n (f0 i).1 msg <;> cases hb : P.prepNext n (f1 i).1 msg <;>
      simp [ha, hb] at this ⊢

/-- A toy batch of two Prio3 reports, the second with a bucket out of range: both servers reject it. -/
example : (do
    let r1 ← genPrio3Report toy 2 1 Block.zero 5
    let kcs ← upload (P := toy) ⟨some 1, 2, 3, 3, 1, 1⟩ [r1] (KeyCollection.new toy 2 0 (some 1) Block.zero,
      KeyCollection.new toy 2 1 (some 1) Block.zero) [(1, none), (1, some .flp)]
    let out ← runPm (toyCfg 0 (some 1) .debug) (toyCfg 1 (some 1) .debug) ⟨some 1, 2, 3, 3, 1, 1⟩ kcs 2
    .ok (out.2.map fun o => (o.rejected, o.result)) : Exec _) = .ok [(1, [0, 1])] := by decide +kernel

/-! ## C49 -/

/-- **C49.** In every reachable state: if `plain_metrics_result` returns, the stored preparation states of
exactly the reports it processed (those with a peer share) are gone and all others are kept; the rejected
count is at least the number of reports of the range without peer share. -/
theorem C49_consumes {cfg : ServerCfg} {buckets : Nat} {kc kc' : KeyCollection P}
    (hr : Spec.Reachable P cfg buckets kc) {peers : List (List Byte)} {s e r : Nat} {agg : List Field128}
    (hse : s ≤ e) (h : srvPmResult cfg kc peers s e = .ok (kc', agg, r)) :
    (∀ k, kc'.pmState.lookup k = if s ≤ k ∧ k < min e (s + peers.length) then none
      else kc.pmState.lookup k) ∧
    kc' = { kc with pmState := kc'.pmState } ∧ e - s - peers.length ≤ r ∧ r ≤ e - s := by
  unfold srvPmResult at h
  split at h
  · cases h
  obtain ⟨⟨m, outs⟩, hl, h⟩ := bind_eq_ok.1 h
  obtain ⟨r', hrej, h⟩ := bind_eq_ok.1 h
  obtain ⟨agg', -, h⟩ := bind_eq_ok.1 h
  cases h
  obtain ⟨-, -, rfl, hlen⟩ := pmResultLoop_consumes _ (reachable_maps hr).2 hl
  have hkeys : ((rangeFrom s e).zip peers).map Prod.fst = rangeFrom s (min e (s + peers.length)) := by
    refine List.ext_getElem (by simp [rangeFrom]; omega) fun j g1 g2 => ?_
    simp [rangeFrom]
  refine ⟨fun k => ?_, rfl, ?_, ?_⟩
  · show (kc.pmState.filter _).lookup k = _
    have := lookup_filter_ne kc.pmState (fun k => decide (k ∉ ((rangeFrom s e).zip peers).map Prod.fst)) k
    rw [this, hkeys]
    by_cases hk : s ≤ k ∧ k < min e (s + peers.length)
    · rw [if_pos hk, if_neg]
      simpa using rangeFrom_mem.2 hk
    · rw [if_neg hk, if_pos]
      simpa using fun hm => hk (rangeFrom_mem.1 hm)
  · have h2 : outs.length ≤ min (e - s) peers.length := by
      simpa [rangeFrom] using hlen
    unfold rejectedCount at hrej
    rw [if_pos (by omega)] at hrej
    cases hrej
    omega
  · have h2 : outs.length ≤ min (e - s) peers.length := by
      simpa [rangeFrom] using hlen
    unfold rejectedCount at hrej
    rw [if_pos (by omega)] at hrej
    cases hrej
    omega

/-- **C49.** A second call that processes a report already processed panics and poisons the server. -/
theorem C49_second_call {cfg : ServerCfg} {buckets : Nat} {kc kc' : KeyCollection P}
    (hr : Spec.Reachable P cfg buckets kc) {peers peers' : List (List Byte)} {s e r : Nat}
    {agg : List Field128} (hse : s < e) (hp : peers ≠ []) (hp' : peers' ≠ [])
    (h : srvPmResult cfg kc peers s e = .ok (kc', agg, r)) :
    ((Server.running kc').handle cfg (.pmResult peers' s e)) = (.poisoned, .error .unwrap) := by
  obtain ⟨hl, hk, -, -⟩ := C49_consumes hr hse.le h
  have hnone : kc'.pmState.lookup s = none := by
    rw [hl s, if_pos]
    have := List.length_pos_of_ne_nil hp
    omega
  obtain ⟨p, ps, rfl⟩ := List.exists_cons_of_ne_nil hp'
  have hzip : (rangeFrom s e).zip (p :: ps) = (s, p) :: (rangeFrom (s + 1) e).zip ps := by
    unfold rangeFrom
    obtain ⟨d, hd⟩ : ∃ d, e - s = d + 1 := ⟨e - s - 1, by omega⟩
    rw [hd, List.range'_succ, List.zip_cons_cons, show e - (s + 1) = d by omega]
  have hok : P.prio3Ok kc'.inputLen = true := by
    unfold srvPmResult at h
    split at h
    · cases h
    · rename_i hx
      rw [hk]
      simpa using hx
  have : srvPmResult cfg kc' (p :: ps) s e = .error .unwrap := by
    unfold srvPmResult
    rw [hok, hzip]
    simp only [Bool.not_true, Bool.false_eq_true, if_false]
    unfold pmResultLoop pmResultClient
    dsimp only
    rw [mapRemove_fst, hnone]
    rfl
  unfold Server.handle
  simp only [preLock, hse, decide_true, debugAssert_true, locked, this]
  rfl

/-- A toy batch of two reports: the first call consumes both states, the second panics. -/
example : (do
    let r1 ← genPrio3Report toy 2 1 Block.zero 5
    let kcs ← upload (P := toy) ⟨some 1, 2, 3, 3, 1, 1⟩ [r1] (KeyCollection.new toy 2 0 (some 1) Block.zero,
      KeyCollection.new toy 2 1 (some 1) Block.zero) [(1, none), (1, none)]
    let (k0, _) ← srvPmValidate (toyCfg 0 (some 1) .debug) kcs.1 0 2
    let (_, b1) ← srvPmValidate (toyCfg 1 (some 1) .debug) kcs.2 0 2
    let (k0', _, r) ← srvPmResult (toyCfg 0 (some 1) .debug) k0 b1 0 2
    let (k0'', _, r') ← srvPmResult (toyCfg 0 (some 1) .debug) k0 (b1.take 1) 0 2
    .ok (k0.pmState.length, k0'.pmState.length, r, k0''.pmState.length, r',
      decide (((Server.running k0').handle (toyCfg 0 (some 1) .debug) (.pmResult b1 0 2)).2.isOk)) : Exec _) =
    .ok (2, 0, 0, 1, 1, false) := by decide +kernel

/-! ## C58 -/

/-- **C58.** With honest clients only, plain metrics is exact: for every batch size of at least one the run
completes, rejects nobody, and the result printed for each batch is, per bucket, the number of clients *of
that batch* with that weight.  Assumed of Prio3: sent preparation shares are read back, every sharded report is
prepared, accepted and output-shared correctly by both sides, and unsharding adds the aggregates. -/
theorem C58_honest_exact {c0 c1 : ServerCfg} {b0 b1 : Nat} {cfg : Config} {kcs : Pair2 P}
    {buckets : List Nat}
    (hr0 : Spec.Reachable P c0 b0 kcs.1) (hr1 : Spec.Reachable P c1 b1 kcs.2)
    (hrt : Spec.SharesRead P cfg.histBuckets)
    (hun : ∀ (a b : List Field128) (m : Nat), a.length = cfg.histBuckets → b.length = cfg.histBuckets →
      P.prio3Unshard cfg.histBuckets a b m = some ((Spec.addShares a b).map ZMod.val))
    (hcomp : ∀ (bucket : Nat) (s0 s1 : ReportShare), s0 ∈ kcs.1.reportShares.map Prod.snd →
      Spec.HonestPrio3 P cfg.histBuckets bucket s0 s1 →
      Spec.Prio3Complete P cfg.histBuckets c1.serverId.toNat kcs.1.verifyKey kcs.2.verifyKey bucket s0 s1)
    (h0 : c0.serverId = 0) (h1 : 0 < c1.serverId)
    (hn0 : kcs.1.inputLen = cfg.histBuckets) (hn1 : kcs.2.inputLen = cfg.histBuckets)
    (hok : P.prio3Ok cfg.histBuckets = true) (hb : 1 ≤ cfg.queryBatch)
    (hsmall : buckets.length < fieldModulus)
    (hl0 : kcs.1.reportShares.length = buckets.length) (hl1 : kcs.2.reportShares.length = buckets.length)
    (hh : ∀ (i b : Nat) (r0 r1 : Bool × ReportShare), buckets[i]? = some b →
      kcs.1.reportShares[i]? = some r0 → kcs.2.reportShares[i]? = some r1 →
      Spec.HonestPrio3 P cfg.histBuckets b r0.2 r1.2) :
    ∃ kcs' ranges, Spec.Partitions buckets.length ranges ∧ (∀ r ∈ ranges, r.2 ≤ r.1 + cfg.queryBatch) ∧
      runPm c0 c1 cfg kcs buckets.length = .ok (kcs', ranges.map fun r =>
        ⟨0, Spec.bucketCounts cfg.histBuckets ((buckets.drop r.1).take (r.2 - r.1))⟩) := by
  obtain ⟨rs, hrs, hp, hq⟩ := stepByRanges_spec (n := buckets.length) hb
  obtain ⟨kcs', hl⟩ := honest_pmLoop (cfg := cfg) (kcs := kcs) hrt hun h0 h1 hsmall rs
    ⟨hn0, hn1, hok, (reachable_maps hr0).2, (reachable_maps hr1).2, hl0, hl1,
      fun i b r0 r1 a b' c => hcomp _ _ _ (List.mem_map_of_mem (List.mem_of_getElem? b')) (hh i b r0 r1 a b' c)⟩ hp.1
  refine ⟨kcs', rs, hp, hq, ?_⟩
  unfold runPm
  rw [hok, hrs]
  simpa using hl

/-- The assumptions of C58 on Prio3 hold of the toy instance for two buckets. -/
theorem toy_prio3 : Spec.SharesRead toy 2 ∧
    (∀ (a b : List Field128) (m : Nat),
      toy.prio3Unshard 2 a b m = some ((Spec.addShares a b).map ZMod.val)) ∧
    (∀ (vk0 vk1 : Block) (bucket : Nat) (s0 s1 : ReportShare), Spec.HonestPrio3 toy 2 bucket s0 s1 →
      Spec.Prio3Complete toy 2 1 vk0 vk1 bucket s0 s1) := by
  refine ⟨fun _ _ _ _ _ _ _ _ _ _ => rfl, fun a b m => ?_, ?_⟩
  · simp only [toy, Spec.addShares, List.map_zipWith]
  · rintro vk0 vk1 bucket s0 s1 ⟨nonce, rand, rep, hg, hs⟩
    by_cases hb : bucket < 2
    · have : rep = .prio3 nonce [] ([BitVec.ofNat 8 rand],
          [BitVec.ofNat 8 bucket - BitVec.ofNat 8 rand]) := by
        simp [genPrio3Report, toy, hb, unwrapO] at hg
        exact hg.symm
      subst this
      cases hs
      have hsum : (BitVec.ofNat 8 rand + (BitVec.ofNat 8 bucket - BitVec.ofNat 8 rand)) =
          BitVec.ofNat 8 bucket := by
        rw [BitVec.add_comm]; exact BitVec.sub_add_cancel _ _
      have hc : toy.prepCombine 2 (BitVec.ofNat 8 rand) (BitVec.ofNat 8 bucket - BitVec.ofNat 8 rand) =
          some [BitVec.ofNat 8 bucket] := by
        simp only [toy]
        rw [hsum, if_pos]
        simp; omega
      refine ⟨((0, _), _), ((1, _), _), ([if 0 = bucket then 1 else 0, if 1 = bucket then 1 else 0]), [0, 0],
        rfl, rfl, ?_, ?_, rfl, rfl, ?_⟩
      · simp only [Spec.outputOf]
        rw [hc]
        have hbb : bucket = 0 ∨ bucket = 1 := by omega
        rcases hbb with rfl | rfl <;> simp [toy, List.range_succ]
      · simp only [Spec.outputOf]
        rw [hc]
        have hbb : bucket = 0 ∨ bucket = 1 := by omega
        rcases hbb with rfl | rfl <;> simp [toy]
      · have hbb : bucket = 0 ∨ bucket = 1 := by omega
        rcases hbb with rfl | rfl <;> decide +kernel
    · simp [genPrio3Report, toy, hb, unwrapO] at hg

/-- Three honest toy clients in batches of two. -/
example : (do
    let r1 ← genPrio3Report toy 2 1 Block.zero 5
    let r2 ← genPrio3Report toy 2 0 Block.zero 7
    let kcs ← upload (P := toy) ⟨some 1, 2, 3, 2, 1, 1⟩ [r1, r2] (KeyCollection.new toy 2 0 (some 1) Block.zero,
      KeyCollection.new toy 2 1 (some 1) Block.zero) [(1, none), (1, none), (2, none)]
    let out ← runPm (toyCfg 0 (some 1) .debug) (toyCfg 1 (some 1) .debug) ⟨some 1, 2, 3, 2, 1, 1⟩ kcs 3
    .ok (out.2.map fun o => (o.rejected, o.result)) : Exec _) = .ok [(0, [0, 2]), (0, [1, 0])] := by
  decide +kernel

end Mastic
