import Verif.Lemmas.TwinDriver
import Verif.Lemmas.Shift
import Verif.Lemmas.Flp
import Verif.Lemmas.Toy

/-!
# C34, C35: reports that the crawl's checks do not catch
-/

namespace Mastic

variable {P : Prims}

theorem sameOutcome_of {q : Req} {x y : Exec Resp} (h : ExRel (Spec.SameChecks q) x y) :
    Spec.SameOutcome q x y := by
  cases x <;> cases y <;> exact h

/-! ## Witness runs on the toy primitives -/

/-- Add `delta` to the payload of correction word `l` of the key in a report share. -/
def shiftReport (l : Nat) (delta : List Field128) : ReportShare → ReportShare
  | .mastic a k p j => .mastic a (Spec.shiftWord k l delta) p j
  | s => s

/-- One client with string `10` and the only bucket, whose report has `delta` added at level `l`: the
paths and values printed by a run with threshold 1. -/
def toyShifted (l : Nat) (delta : List Field128) : Exec (List (List Bool × List Nat)) := do
  let kcs ← toyPair 2 1 [([true, false], 0)]
  let m := fun (k : KeyCollection toy) =>
    { k with reportShares := k.reportShares.map fun br => (br.1, shiftReport l delta br.2) }
  let o ← runWhh (toyCfg 0 (some 2) .debug) (toyCfg 1 (some 2) .debug) .debug ⟨some 2, 1, 2, 2, 1, 1⟩
    (m kcs.1, m kcs.2) 1
  .ok (o.results.map fun r => (r.path, r.value.map ZMod.val))

/-! ## C34: counters below the first level -/

/-- C34 is false (1): let a client change the counter entries of its correction words below the first
level in any way (`fun l i => i < n ∨ l = 0` says what stays: the weights, and the counter of level 0).
Then, whatever requests a server gets (resets, uploads, crawls with any retries and exclusions, FLP queries,
pruning, last level), every Merkle root and index, every FLP verifier share, every final proof is what it
would have been with the unchanged report, every panic is the same, and the same reports are included. -/
theorem C34_false_checks (cfg : ServerCfg) (n : Nat) (qs qs' : List Req)
    (hq : List.Forall₂ (Spec.ReqTwin n fun l i => i < n ∨ l = 0) qs qs') :
    List.Forall₂ (fun q rr => Spec.SameOutcome q rr.1 rr.2) qs
      ((Server.run cfg (Server.start P cfg n) qs).2.zip (Server.run cfg (Server.start P cfg n) qs').2) ∧
    Spec.flagsOf (Server.run cfg (Server.start P cfg n) qs).1
      = Spec.flagsOf (Server.run cfg (Server.start P cfg n) qs').1 := by
  have h0 : ServerTwin (fun l i => i < n ∨ l = 0) n (Server.start P cfg n) (Server.start P cfg n) :=
    ⟨new_twin _ _ _ _ _, rfl⟩
  obtain ⟨h1, h2⟩ := run_twin (fun m => ⟨fun _ => Or.inr rfl, fun _ i hi => ⟨Or.inl hi, Or.inl hi⟩⟩)
    (fun i hi => Or.inl hi) hq (cfg := cfg) h0
  refine ⟨h2.imp fun _ _ h => sameOutcome_of h, ?_⟩
  generalize (Server.run cfg (Server.start P cfg n) qs).1 = s at h1
  generalize (Server.run cfg (Server.start P cfg n) qs').1 = s' at h1
  cases s <;> cases s' <;> simp only [ServerTwin] at h1
  · simp only [Spec.flagsOf, reports_flags h1.1.reports]
  · rfl

/-- The hypotheses on one pair of scripts: an upload, a crawl and pruning, with the counter of level 1
changed in the second script. -/
example (k : VidpfKey) (w : CorWord) (hk : k.corWords[1]? = some w) (hw : w.word.length = 2) (nc : Block)
    (pr : List Field128) (j : Block × Block) (x : Field128) :
    List.Forall₂ (Spec.ReqTwin 1 fun l i => i < 1 ∨ l = 0)
      [.addReportShares [.mastic nc k pr j], .treeInit, .treeCrawl 1 [] false, .treePrune [true, true]]
      [.addReportShares [.mastic nc (Spec.shiftWord k 1 [0, x]) pr j], .treeInit, .treeCrawl 1 [] false,
        .treePrune [true, true]] := by
  refine .cons (.upload _ _ (.cons ⟨rfl, rfl, rfl, rfl, rfl, rfl, ?_, ?_⟩ .nil)) (.cons .treeInit
    (.cons (.treeCrawl _ _ _) (.cons (.treePrune _) .nil)))
  · refine List.forall₂_iff_get.2 ⟨by simp [Spec.shiftWord], fun i h1 h2 => ?_⟩
    simp only [Spec.shiftWord, List.get_eq_getElem, List.getElem_modify]
    split <;> simp
  · intro l c c' hc hc' i hB
    simp only [Spec.shiftWord, List.getElem?_modify, hc, Option.map_eq_map, Option.map_some, Option.some.injEq] at hc'
    subst hc'
    split
    · subst l
      rw [hk] at hc
      cases hc
      obtain rfl : i = 0 := by omega
      match hww : w.word, hw with
      | [a, b], _ => simp [Spec.addShares]
    · rfl

/-- A run in which the client's string `10` gets the count 8 instead of 1, and nothing is noticed; the same
change at level 0 is noticed (the client is excluded, and then the next crawl panics). -/
example : toyShifted 0 [0, 0] = .ok [([true, false], [1, 1])] ∧
    toyShifted 1 [0, -7] = .ok [([true, false], [1, 8])] ∧ toyShifted 0 [0, -7] = .error .index := by
  decide +kernel

/-- C34 is false (2): such a change moves the count at any prefix of the client's string of length at least
two to any value `c`, and nothing else. -/
theorem C34_false_count (n : Nat) (alpha : List Bool) (bucket : Nat) (s0 s1 : ReportShare)
    (h : Spec.HonestPair P n alpha bucket s0 s1) (l : Nat) (hl0 : 1 ≤ l) (hl : l < alpha.length)
    (c : Field128) :
    ∃ s0' s1' k0' k1' beta, encodeMeasurement n bucket = some beta ∧
      Spec.ReportTwin (fun l i => i < n ∨ l = 0) s0 s0' ∧
      Spec.ReportTwin (fun l i => i < n ∨ l = 0) s1 s1' ∧
      Spec.keyOf s0' = some k0' ∧ Spec.keyOf s1' = some k1' ∧
      Spec.reconAt P k0' k1' n (alpha.take (l + 1)) = some (beta ++ [c]) ∧
      ∀ p : List Bool, p ≠ [] → p.length ≤ alpha.length → p ≠ alpha.take (l + 1) →
        Spec.reconAt P k0' k1' n p = some (Spec.pointValue alpha beta p) := by
  obtain ⟨nonce, rs, beta, pr, proof, rand, hb, -, rfl, rfl⟩ := honestPair_parts h
  obtain ⟨hbl, -⟩ := encodeMeasurement_length hb
  obtain ⟨delta, hd, hz, ha, hn⟩ := honest_shift P rs alpha beta l hl (beta ++ [c]) (by simp)
  rw [hbl] at ha hn hd
  have hB : ∀ i, (i < n ∨ l = 0) → i ≤ n → delta[i]? = some 0 := by
    intro i hi hin
    refine hz i ?_ (by omega)
    rcases hi with hi | hi
    · rw [List.getElem?_append_left (by omega), List.getElem?_append_left (by omega)]
    · omega
  refine ⟨.mastic nonce (Spec.shiftWord (VidpfKey.gen P rs alpha beta).1 l delta) _ _,
    .mastic nonce (Spec.shiftWord (VidpfKey.gen P rs alpha beta).2 l delta) _ _, _, _, beta, hb,
    ⟨rfl, rfl, rfl, shift_twin (n := n) ?_ hB⟩, ⟨rfl, rfl, rfl, shift_twin (n := n) ?_ hB⟩, rfl, rfl, ha, hn⟩
  · rw [← hbl]; exact genLoop_word_length P beta alpha _ _ _
  · rw [← hbl]; exact genLoop_word_length P beta alpha _ _ _

/-- Honest reports exist for every string and bucket (toy primitives). -/
example (n : Nat) (alpha : List Bool) (bucket k : Nat) (hb : bucket < n) :
    ∃ s0 s1, Spec.HonestPair toy n alpha bucket s0 s1 := by
  have : ∃ rep, toyReport n alpha bucket k = .ok rep := by
    unfold toyReport genMasticReport
    simp [toy, encodeMeasurement, hb, unwrapO]
  obtain ⟨rep, hrep⟩ := this
  exact ⟨_, _, _, rep, hrep, rfl⟩

/-! ## C35: leaf values -/

/-- C35 is false (1): let clients change the weight entries of their last correction word in any way (what
stays: everything above, and the counter).  A weighted-heavy-hitters run from the upload on then goes
exactly as with the unchanged reports: it panics alike, or completes with the same reports included, the
same final proofs, and results for the same strings with the same counters. -/
theorem C35_false_undetected (c0 c1 : ServerCfg) (bld : Build) (cfg : Config) (num d : Nat) (vk : Block)
    (hd : cfg.dataBits = some d) (hd2 : 2 ≤ d) (a0 a1 b0 b1 : List ReportShare)
    (h0 : List.Forall₂ (Spec.ReportTwin fun l i => l + 1 < d ∨ i = cfg.histBuckets) a0 b0)
    (h1 : List.Forall₂ (Spec.ReportTwin fun l i => l + 1 < d ∨ i = cfg.histBuckets) a1 b1) :
    let run (x y : List ReportShare) := runWhh c0 c1 bld cfg
      (srvAddReportShares (KeyCollection.new P cfg.histBuckets c0.serverId c0.dataBits vk) x,
       srvAddReportShares (KeyCollection.new P cfg.histBuckets c1.serverId c1.dataBits vk) y) num
    (∀ p, run a0 a1 = .error p → run b0 b1 = .error p) ∧
    (∀ o, run a0 a1 = .ok o → ∃ o', run b0 b1 = .ok o' ∧
      o.kcs.1.reportShares.map Prod.fst = o'.kcs.1.reportShares.map Prod.fst ∧
      o.kcs.2.reportShares.map Prod.fst = o'.kcs.2.reportShares.map Prod.fst ∧
      o.kcs.1.finalProofs = o'.kcs.1.finalProofs ∧ o.kcs.2.finalProofs = o'.kcs.2.finalProofs ∧
      o.results.map (fun r => (r.path, r.value[cfg.histBuckets]?))
        = o'.results.map (fun r => (r.path, r.value[cfg.histBuckets]?))) := by
  intro run
  have hin : ∀ (x : List ReportShare) (id : Int) (dd : Option Nat),
      (srvAddReportShares (KeyCollection.new P cfg.histBuckets id dd vk) x).inputLen = cfg.histBuckets := by
    intro x id dd; rw [srvAdd_eq]; rfl
  have := runWhh_twin (B := fun l i => l + 1 < d ∨ i = cfg.histBuckets) hd (by omega) (fun l => Or.inr rfl)
    (fun i _ => Or.inl (by omega))
    (fun m hm => ⟨fun _ => Or.inr rfl, fun _ i _ => ⟨Or.inl hm, Or.inl (by omega)⟩⟩) c0 c1 bld num
    (s := (srvAddReportShares (KeyCollection.new P cfg.histBuckets c0.serverId c0.dataBits vk) a0,
       srvAddReportShares (KeyCollection.new P cfg.histBuckets c1.serverId c1.dataBits vk) a1))
    (t := (srvAddReportShares (KeyCollection.new P cfg.histBuckets c0.serverId c0.dataBits vk) b0,
       srvAddReportShares (KeyCollection.new P cfg.histBuckets c1.serverId c1.dataBits vk) b1))
    (srvAdd_twin (new_twin _ _ _ _ _) h0) (srvAdd_twin (new_twin _ _ _ _ _) h1) (hin _ _ _) (hin _ _ _)
  constructor
  · intro p hp
    change run a0 a1 = .error p at hp
    have h := this
    change ExRel _ (run a0 a1) (run b0 b1) at h
    rw [hp] at h
    cases hr : run b0 b1 with
    | error q => rw [hr] at h; rw [show p = q from h]
    | ok o => rw [hr] at h; exact absurd h (by simp [ExRel])
  · intro o ho
    obtain ⟨o', h1, h2⟩ := ExRel.ok_left this ho
    refine ⟨o', h1, reports_flags h2.kcs.fst.reports, reports_flags h2.kcs.snd.reports, h2.kcs.fst.final,
      h2.kcs.snd.final, ?_⟩
    exact forall₂_map_eq_map h2.results fun a b hab => by rw [hab.1, hab.2]

/-- A run in which the client's string `10` gets the weight 6 instead of 1. -/
example : toyShifted 1 [-5, 0] = .ok [([true, false], [6, 1])] := by decide +kernel

/-- C35 is false (2): such a change gives the client's string any weight `x` at the leaf, and changes
nothing else. -/
theorem C35_false_any_weight (n : Nat) (alpha : List Bool) (bucket : Nat) (s0 s1 : ReportShare)
    (h : Spec.HonestPair P n alpha bucket s0 s1) (hne : alpha ≠ []) (x : List Field128)
    (hx : x.length = n) :
    ∃ s0' s1' k0' k1' beta, encodeMeasurement n bucket = some beta ∧
      Spec.ReportTwin (fun l i => l + 1 < alpha.length ∨ i = n) s0 s0' ∧
      Spec.ReportTwin (fun l i => l + 1 < alpha.length ∨ i = n) s1 s1' ∧
      Spec.keyOf s0' = some k0' ∧ Spec.keyOf s1' = some k1' ∧
      Spec.reconAt P k0' k1' n alpha = some (x ++ [1]) ∧
      ∀ p : List Bool, p ≠ [] → p.length ≤ alpha.length → p ≠ alpha →
        Spec.reconAt P k0' k1' n p = some (Spec.pointValue alpha beta p) := by
  obtain ⟨nonce, rs, beta, pr, proof, rand, hb, -, rfl, rfl⟩ := honestPair_parts h
  obtain ⟨hbl, -⟩ := encodeMeasurement_length hb
  have hpos : 0 < alpha.length := List.length_pos_iff.2 hne
  obtain ⟨delta, hd, hz, ha, hn⟩ := honest_shift P rs alpha beta (alpha.length - 1) (by omega) (x ++ [1])
    (by simp [hx, hbl])
  rw [hbl] at ha hn hd
  rw [Nat.sub_add_cancel hpos, List.take_length] at ha hn
  have hB : ∀ i, (alpha.length - 1 + 1 < alpha.length ∨ i = n) → i ≤ n → delta[i]? = some 0 := by
    intro i hi hin
    refine hz i ?_ (by omega)
    rcases hi with hi | rfl
    · omega
    · rw [List.getElem?_append_right (by omega), List.getElem?_append_right (by omega), hx, hbl]
  refine ⟨.mastic nonce (Spec.shiftWord (VidpfKey.gen P rs alpha beta).1 (alpha.length - 1) delta) _ _,
    .mastic nonce (Spec.shiftWord (VidpfKey.gen P rs alpha beta).2 (alpha.length - 1) delta) _ _, _, _, beta,
    hb, ⟨rfl, rfl, rfl, shift_twin (n := n) ?_ hB⟩, ⟨rfl, rfl, rfl, shift_twin (n := n) ?_ hB⟩, rfl, rfl,
    ha, hn⟩
  · rw [← hbl]; exact genLoop_word_length P beta alpha _ _ _
  · rw [← hbl]; exact genLoop_word_length P beta alpha _ _ _

/-- The hypotheses of `C35_false_any_weight` can be met. -/
example : ∃ s0 s1, Spec.HonestPair toy 2 [true, false, true] 1 s0 s1 :=
  ⟨_, _, ⟨toyRand 0, .mastic _ _ _ _ _, rfl, rfl⟩⟩

end Mastic
