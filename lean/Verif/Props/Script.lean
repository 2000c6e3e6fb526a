import Verif.Lemmas.Script
import Verif.Props.Metrics

/-!
# C92: what the requests of a run tell the servers
-/

namespace Mastic

variable {P : Prims}

/-! ### Strings and clients -/

theorem countOf_holders (clients : List (Option (List Bool × Nat))) (p : List Bool) :
    Spec.countOf (clients.map (Option.map Prod.fst)) p = (Spec.holders (clients.filterMap id) p).length := by
  unfold Spec.countOf Spec.holders
  induction clients with
  | nil => rfl
  | cons c cs ih =>
    cases c with
    | none => simpa using ih
    | some c =>
      rw [List.map_cons, List.countP_cons, ih]
      simp only [Option.map_some, List.filterMap_cons, id_eq, List.filter_cons]
      split <;> simp

theorem heavyAt_heavyPaths {n d T m : Nat} {pairs : List (VidpfKey × VidpfKey)}
    {clients : List (Option (List Bool × Nat))} (h : List.Forall₂ (PairOf P n d) pairs (clients.filterMap id))
    (hc : (clients.filterMap id).length < 2 ^ 64) (hm : m ≤ d) :
    Spec.heavyPaths P n T pairs m = Spec.heavyAt T (clients.map (Option.map Prod.fst)) m := by
  unfold Spec.heavyPaths Spec.heavyAt
  refine List.filter_congr fun p hp => ?_
  by_cases hne : p = []
  · subst hne
    simp [Spec.heavy]
  · rw [heavy_clients h hc hne (by rw [mem_allPaths.1 hp]; exact hm), countOf_holders]
    simp [hne]

theorem decisions_level {n d T m : Nat} {r0 r1 : List (Bool × ReportShare)}
    {clients : List (Option (List Bool × Nat))}
    (h : List.Forall₂ (PairOf P n d) (Spec.keyPairs r0 r1) (clients.filterMap id))
    (hc : (clients.filterMap id).length < 2 ^ 64) (hm : m < d) :
    levelDecisions P n T r0 r1 (Spec.heavyPaths P n T (Spec.keyPairs r0 r1) m)
      = Spec.decisions T (clients.map (Option.map Prod.fst)) m := by
  unfold levelDecisions Spec.decisions
  rw [heavyAt_heavyPaths h hc hm.le, kids]
  refine List.map_congr_left fun p hp => ?_
  obtain ⟨q, hq, hp⟩ := List.mem_flatMap.1 hp
  have hql := mem_allPaths.1 (List.mem_filter.1 hq).1
  have hpl : p ≠ [] ∧ p.length = m + 1 := by
    simp only [List.mem_cons, List.not_mem_nil, or_false] at hp
    rcases hp with rfl | rfl <;> simp [hql]
  rw [countAt_clients h hc hpl.1 (by omega), countOf_holders]

/-- **C92.** Honest clients and clients that the FLP verification rejects, in any mixture, while some prefix of length
`d - 2` is heavy: the run completes, with the results of C26, and the requests that the driver sends to the servers are
a function of the clients' strings: the batches, the accepted clients, and on every level which extensions of the heavy
prefixes are heavy. -/
theorem C92_script {c0 c1 : ServerCfg} {bld : Build} {cfg : Config} {kcs : Pair2 P} {d : Nat}
    {clients : List (Option (List Bool × Nat))}
    (hd : cfg.dataBits = some d) (hd2 : 2 ≤ d) (hb : 1 ≤ cfg.queryBatch)
    (hn0 : kcs.1.inputLen = cfg.histBuckets) (hn1 : kcs.2.inputLen = cfg.histBuckets)
    (h0 : kcs.1.serverId = 0) (h1 : kcs.2.serverId ≠ 0) (hvk : kcs.1.verifyKey = kcs.2.verifyKey)
    (d0 : kcs.1.depth = some d) (d1 : kcs.2.depth = some d)
    (hp : Spec.Population P cfg.histBuckets d kcs.1.serverId kcs.2.serverId kcs.1.verifyKey clients
      kcs.1.reportShares kcs.2.reportShares)
    (hne : clients.filterMap id ≠ []) (hlt : (clients.filterMap id).length < 2 ^ 64)
    (hheavy : ∃ s, s.length = d - 2 ∧ (s ≠ [] →
      max 1 cfg.threshold ≤ (Spec.holders (clients.filterMap id) s).length)) :
    ∃ (results printed : List HHResult) (t0 t1 : Server P),
      Spec.Talk c0 c1 (whhP P bld cfg clients.length) (.running kcs.1) (.running kcs.2)
        (Spec.toBoth (Spec.whhScript (max 1 cfg.threshold) cfg.queryBatch d (clients.map (Option.map Prod.fst))))
        (.whh results printed) t0 t1 ∧
      results.map (fun r => (r.path, r.value))
        = Spec.heavyHitters cfg.histBuckets (max 1 cfg.threshold) d (clients.filterMap id) := by
  have hM := mixed_of_population hp
  obtain ⟨hq, hw0, hw1, hF⟩ := hM.facts
  have m0 : (Spec.masked kcs.1.reportShares (clients.map Option.isSome)).map Prod.snd
      = kcs.1.reportShares.map Prod.snd := masked_snd (by rw [hp.1, List.length_map])
  have m1 : (Spec.masked kcs.2.reportShares (clients.map Option.isSome)).map Prod.snd
      = kcs.2.reportShares.map Prod.snd := masked_snd (by rw [hp.2.1, List.length_map])
  have reach : ∀ {r : List (Bool × ReportShare)} {r' : List (Bool × ReportShare)},
      r'.map Prod.snd = r.map Prod.snd → (∀ br ∈ r', Spec.WellFormed d br.2) →
      ∀ br ∈ r, Spec.WellFormed d br.2 := by
    intro r r' he hw br hbr
    have : br.2 ∈ r'.map Prod.snd := he ▸ List.mem_map_of_mem hbr
    obtain ⟨br', hbr', e⟩ := List.mem_map.1 this
    rw [← e]; exact hw br' hbr'
  have hdec : ∀ (i : Nat) (b0 b1 : Bool) (s0 s1 : ReportShare), kcs.1.reportShares[i]? = some (b0, s0) →
      kcs.2.reportShares[i]? = some (b1, s1) → ∃ v0 v1 b,
        Spec.verifierOf P cfg.histBuckets kcs.1.serverId kcs.1.verifyKey s0 = some v0 ∧
        Spec.verifierOf P cfg.histBuckets kcs.2.serverId kcs.1.verifyKey s1 = some v1 ∧
        P.flpDecide cfg.histBuckets (Spec.addShares v0 v1) = some b ∧
        (clients.map Option.isSome)[i]? = some b := by
    intro i b0 b1 s0 s1 g0 g1
    have hil : i < clients.length := hp.1 ▸ (List.getElem?_eq_some_iff.1 g0).1
    obtain ⟨c, hc⟩ : ∃ c, clients[i]? = some c := ⟨_, List.getElem?_eq_getElem hil⟩
    obtain ⟨-, -, hpop⟩ := hp.2.2 i c b0 b1 s0 s1 hc g0 g1
    cases c with
    | none =>
      obtain ⟨-, -, v0, v1, q0, q1, qd⟩ := hpop
      exact ⟨v0, v1, false, q0, q1, qd, by simp [hc]⟩
    | some c =>
      obtain ⟨hh, hlen, hcomp⟩ := hpop
      have ha : c.1 ≠ [] := by
        intro he
        have : c.1.length = d := hlen
        rw [he, List.length_nil] at this
        omega
      obtain ⟨v0, v1, q0, q1, qd⟩ := honest_verifiers h0 h1 ha hh hcomp
      exact ⟨v0, v1, true, q0, q1, qd, by simp [hc]⟩
  have hflag : ∀ r ∈ kcs.1.reportShares, r.1 = true := by
    intro r hr
    obtain ⟨i, hi⟩ := List.getElem?_of_mem hr
    have hil := (List.getElem?_eq_some_iff.1 hi).1
    exact (hp.2.2 i _ _ _ _ _ (List.getElem?_eq_getElem (hp.1 ▸ hil)) hi
      (List.getElem?_eq_getElem (by rw [hp.2.1, ← hp.1]; exact hil))).1
  have hbk : 1 ≤ cfg.histBuckets := by
    obtain ⟨c, hc⟩ := List.exists_mem_of_ne_nil _ hne
    simp only [List.mem_filterMap, id_eq, exists_eq_right] at hc
    obtain ⟨i, hi⟩ := List.getElem?_of_mem hc
    have hil := (List.getElem?_eq_some_iff.1 hi).1
    obtain ⟨-, -, hh, hlen, -⟩ := hp.2.2 i (some c) _ _ _ _ hi
      (List.getElem?_eq_getElem (hp.1 ▸ hil)) (List.getElem?_eq_getElem (hp.2.1 ▸ hil))
    obtain ⟨_, _, -, -, -, -, -, -, hbn⟩ := honestPair_facts hh
    omega
  have hheavy' : Spec.heavyPaths P cfg.histBuckets (max 1 cfg.threshold)
      (Spec.keyPairs (Spec.masked kcs.1.reportShares (clients.map Option.isSome))
        (Spec.masked kcs.2.reportShares (clients.map Option.isSome))) (d - 2) ≠ [] := by
    obtain ⟨s, hs1, hs2⟩ := hheavy
    rw [heavyAt_heavyPaths hF hlt (by omega)]
    refine List.ne_nil_of_mem (a := s) (List.mem_filter.2 ⟨mem_allPaths.2 hs1, ?_⟩)
    by_cases hsne : s = []
    · subst hsne; rfl
    · simpa [hsne, countOf_holders] using hs2 hsne
  obtain ⟨a0, a1, hi, ⟨e0r, e0n, e0s, -, e0d⟩, ⟨e1r, e1n, e1s, -, e1d⟩, hflp⟩ := whh_flp (c0 := c0) (c1 := c1)
    (bld := bld) (cfg := cfg) (d := d) (keep := clients.map Option.isSome) (by omega) hb hn0 hn1 hvk hp.1 hp.2.1
    (reach m0 hw0) (reach m1 hw1) (by simp) hdec
  obtain ⟨out, ht⟩ := tells_whh (c0 := c0) (c1 := c1) (bld := bld) (cfg := cfg) (keep := clients.map Option.isSome)
    hi rfl hbk hd hd2 hb
    (e0n.trans hn0) (e1n.trans hn1) (e0s.trans h0) (by show a1.serverId ≠ 0; rw [e1s]; exact h1)
    (e0d.trans d0) (e1d.trans d1) (by rw [m0]; simp only [e0r]) (by rw [m1]; simp only [e1r]) hflp hq
    (included_ne hM hne) (wellFormed_reach (by omega) hw0) (wellFormed_reach (by omega) hw1)
    (by simp only [e0r]; exact hflag) (by simp only [e0r, hp.1, List.length_map]) (by simp only [e0r]) hheavy'
  refine ⟨out.results, out.printed, .running out.kcs.1, .running out.kcs.2, ?_, ?_⟩
  · have hsome : (clients.map (Option.map Prod.fst)).map Option.isSome = clients.map Option.isSome := by
      simp [List.map_map, Function.comp_def]
    have hfm : ∀ (f g : Nat → List Bool), (∀ m < d, f m = g m) →
        (List.range (d - 1)).flatMap (fun m => [Req.treeCrawl 1 [] false, .treePrune (f m)])
          = (List.range (d - 1)).flatMap (fun m => [Req.treeCrawl 1 [] false, .treePrune (g m)]) := by
      intro f g h
      refine List.flatMap_congr fun m hm => ?_
      rw [h m (by have := List.mem_range.1 hm; omega)]
    rw [hfm _ _ fun m hm => decisions_level hF hlt hm, decisions_level hF hlt (by omega)] at ht
    unfold Spec.whhScript
    rw [List.length_map, hsome]
    exact ht
  · obtain ⟨out', g1, g2, -⟩ := (whh_population (c0 := c0) (c1 := c1) (bld := bld) hd hd2 hb hn0 hn1
      h0 h1 hvk d0 d1 hp hne hlt).1 hheavy
    have e := (exec_whh bld cfg clients.length kcs _).1 ht.exec
    rw [g1, ok_bind] at e
    have e2 := congrArg Prod.fst (Except.ok.inj e)
    simp only [Shown.whh.injEq] at e2
    rw [← e2.1]
    exact g2

/-- **C92.** The requests, the result and the servers' states of a conversation are determined by its beginning, so the
requests of `C92_script` are the only ones of this run. -/
theorem C92_unique {α : Type} {c0 c1 : ServerCfg} {p : Prog α} {s0 s1 t0 t1 t0' t1' : Server P}
    {sent sent' : List (Req × Req)} {a a' : α} (h : Spec.Talk c0 c1 p s0 s1 sent a t0 t1)
    (h' : Spec.Talk c0 c1 p s0 s1 sent' a' t0' t1') : sent = sent' ∧ a = a' ∧ t0 = t0' ∧ t1 = t1' := by
  induction h generalizing sent' with
  | ret a s0 s1 =>
    cases h'
    exact ⟨rfl, rfl, rfl, rfl⟩
  | ask r0 r1 k s0 s1 t0 t1 u0 u1 a0 a1 sent a h0 h1 h ih =>
    cases h' with
    | ask _ _ _ _ _ v0 v1 _ _ b0 b1 sent' _ g0 g1 g =>
      rw [h0] at g0
      rw [h1] at g1
      obtain ⟨rfl, e0⟩ := Prod.mk.inj g0
      obtain ⟨rfl, e1⟩ := Prod.mk.inj g1
      obtain rfl := Except.ok.inj e0
      obtain rfl := Except.ok.inj e1
      obtain ⟨rfl, rest⟩ := ih g
      exact ⟨rfl, rest⟩

/-- **C92.** The requests of a run do not depend on the weights: two populations with the same strings (and the same
rejected clients) get the same requests, whatever their weights, reports and verification key. -/
theorem C92_weights {c0 c1 : ServerCfg} {bld : Build} {cfg : Config} {kcs kcs' : Pair2 P} {d : Nat}
    {clients clients' : List (Option (List Bool × Nat))}
    (hd : cfg.dataBits = some d) (hd2 : 2 ≤ d) (hb : 1 ≤ cfg.queryBatch)
    (hn0 : kcs.1.inputLen = cfg.histBuckets) (hn1 : kcs.2.inputLen = cfg.histBuckets)
    (h0 : kcs.1.serverId = 0) (h1 : kcs.2.serverId ≠ 0) (hvk : kcs.1.verifyKey = kcs.2.verifyKey)
    (d0 : kcs.1.depth = some d) (d1 : kcs.2.depth = some d)
    (hn0' : kcs'.1.inputLen = cfg.histBuckets) (hn1' : kcs'.2.inputLen = cfg.histBuckets)
    (h0' : kcs'.1.serverId = 0) (h1' : kcs'.2.serverId ≠ 0) (hvk' : kcs'.1.verifyKey = kcs'.2.verifyKey)
    (d0' : kcs'.1.depth = some d) (d1' : kcs'.2.depth = some d)
    (hp : Spec.Population P cfg.histBuckets d kcs.1.serverId kcs.2.serverId kcs.1.verifyKey clients
      kcs.1.reportShares kcs.2.reportShares)
    (hp' : Spec.Population P cfg.histBuckets d kcs'.1.serverId kcs'.2.serverId kcs'.1.verifyKey clients'
      kcs'.1.reportShares kcs'.2.reportShares)
    (hsame : clients.map (Option.map Prod.fst) = clients'.map (Option.map Prod.fst))
    (hne : clients.filterMap id ≠ []) (hlt : (clients.filterMap id).length < 2 ^ 64)
    (hheavy : ∃ s, s.length = d - 2 ∧ (s ≠ [] →
      max 1 cfg.threshold ≤ (Spec.holders (clients.filterMap id) s).length)) :
    ∃ (sent : List (Req × Req)) (out out' : Shown) (t0 t1 t0' t1' : Server P),
      Spec.Talk c0 c1 (whhP P bld cfg clients.length) (.running kcs.1) (.running kcs.2) sent out t0 t1 ∧
      Spec.Talk c0 c1 (whhP P bld cfg clients'.length) (.running kcs'.1) (.running kcs'.2) sent out' t0' t1' := by
  obtain ⟨r, pr, t0, t1, g, -⟩ := C92_script (c0 := c0) (c1 := c1) (bld := bld) hd hd2 hb hn0 hn1 h0 h1 hvk d0 d1 hp
    hne hlt hheavy
  have hlen : ∀ {cs : List (Option (List Bool × Nat))},
      (cs.filterMap id).length = (cs.map (Option.map Prod.fst)).countP Option.isSome := by
    intro cs
    rw [List.length_filterMap_eq_countP, List.countP_map]
    refine List.countP_congr fun c _ => ?_
    cases c <;> simp
  have hl : (clients.filterMap id).length = (clients'.filterMap id).length := by rw [hlen, hlen, hsame]
  obtain ⟨r', pr', t0', t1', g', -⟩ := C92_script (c0 := c0) (c1 := c1) (bld := bld) hd hd2 hb hn0' hn1' h0' h1' hvk'
    d0' d1' hp' (by rw [← List.length_pos_iff, ← hl, List.length_pos_iff]; exact hne) (hl ▸ hlt) (by
      obtain ⟨s, hs, h⟩ := hheavy
      exact ⟨s, hs, by rwa [← countOf_holders, ← hsame, countOf_holders]⟩)
  exact ⟨_, _, _, t0, t1, t0', t1', g, hsame ▸ g'⟩

/-! ### What the requests reveal -/

theorem heavyAt_zero (T : Nat) (strings : List (Option (List Bool))) : Spec.heavyAt T strings 0 = [[]] := rfl

theorem countOf_mono (strings : List (Option (List Bool))) {p q : List Bool} (h : p <+: q) :
    Spec.countOf strings q ≤ Spec.countOf strings p := by
  unfold Spec.countOf
  refine List.countP_mono_left fun s _ hs => ?_
  cases s with
  | none => simp at hs
  | some s =>
    simp only [List.isPrefixOf_iff_prefix] at hs ⊢
    exact h.trans hs

theorem heavyAt_succ (T : Nat) (strings : List (Option (List Bool))) (m : Nat) :
    Spec.heavyAt T strings (m + 1) = ((Spec.heavyAt T strings m).flatMap fun p => [p ++ [false], p ++ [true]]).filter
      fun q => decide (T ≤ Spec.countOf strings q) := by
  unfold Spec.heavyAt
  rw [show Spec.allPaths (m + 1) = (Spec.allPaths m).flatMap fun q => [q ++ [false], q ++ [true]] from rfl]
  generalize Spec.allPaths m = L
  induction L with
  | nil => rfl
  | cons p L ih =>
    rw [List.flatMap_cons, List.filter_append, ih, List.filter_cons (x := p)]
    have hone : ∀ b : Bool, ((p ++ [b]).isEmpty || decide (T ≤ Spec.countOf strings (p ++ [b])))
        = decide (T ≤ Spec.countOf strings (p ++ [b])) := by
      intro b; simp
    split
    · rw [List.flatMap_cons, List.filter_append]
      simp only [List.filter_cons, List.filter_nil, hone]
    · rename_i hp
      simp only [Bool.or_eq_true, List.isEmpty_iff, decide_eq_true_eq, not_or, not_le] at hp
      have hno : ∀ b : Bool, ¬ T ≤ Spec.countOf strings (p ++ [b]) := fun b hb =>
        absurd (hb.trans (countOf_mono strings (List.prefix_append p [b]))) (by omega)
      simp [List.filter_cons, hno]

theorem decisions_determine {T m : Nat} {s s' : List (Option (List Bool))} (h : Spec.heavyAt T s m = Spec.heavyAt T s' m)
    (hd : Spec.decisions T s m = Spec.decisions T s' m) : Spec.heavyAt T s (m + 1) = Spec.heavyAt T s' (m + 1) := by
  rw [heavyAt_succ, heavyAt_succ, h]
  unfold Spec.decisions at hd
  rw [h] at hd
  refine List.filter_congr fun q hq => ?_
  obtain ⟨i, hi⟩ := List.getElem?_of_mem hq
  have := congrArg (·[i]?) hd
  simpa [List.getElem?_map, hi] using this

theorem decisions_of_heavyAt {T m : Nat} {s s' : List (Option (List Bool))}
    (h : Spec.heavyAt T s m = Spec.heavyAt T s' m) (h' : Spec.heavyAt T s (m + 1) = Spec.heavyAt T s' (m + 1)) :
    Spec.decisions T s m = Spec.decisions T s' m := by
  unfold Spec.decisions
  rw [h]
  refine List.map_congr_left fun q hq => ?_
  have key : ∀ t, Spec.heavyAt T t m = Spec.heavyAt T s' m →
      (decide (T ≤ Spec.countOf t q) = true ↔ q ∈ Spec.heavyAt T t (m + 1)) := by
    intro t ht
    rw [heavyAt_succ, ht, List.mem_filter]
    exact ⟨fun hx => ⟨hq, hx⟩, And.right⟩
  rw [Bool.eq_iff_iff, key s h, key s' rfl, h']

/-- **C92.** What the requests reveal: two lists of strings lead to the same requests exactly if the same clients are
rejected and the heavy prefixes of every length are the same. -/
theorem C92_reveals {T batch d : Nat} (hd : 1 ≤ d) (s s' : List (Option (List Bool))) :
    Spec.whhScript T batch d s = Spec.whhScript T batch d s' ↔
      s.map Option.isSome = s'.map Option.isSome ∧ ∀ m ≤ d, Spec.heavyAt T s m = Spec.heavyAt T s' m := by
  constructor
  · intro h
    let prunes : Req → Option (List Bool) := fun r => match r with
      | .treePrune ks => some ks
      | _ => none
    let flps : Req → Option (List Bool) := fun r => match r with
      | .applyFlpResults ks => some ks
      | _ => none
    have hflp : ∀ t, (Spec.whhScript T batch d t).filterMap flps = [t.map Option.isSome] := by
      intro t
      unfold Spec.whhScript
      simp [List.filterMap_append, List.filterMap_flatMap, List.filterMap_map, flps]
    have hpr : ∀ t, (Spec.whhScript T batch d t).filterMap prunes = (List.range d).map (Spec.decisions T t) := by
      intro t
      have hr : List.range d = List.range (d - 1) ++ [d - 1] := by
        rw [← List.range_succ, Nat.succ_eq_add_one, show d - 1 + 1 = d by omega]
      rw [hr, List.map_append]
      unfold Spec.whhScript
      simp [List.filterMap_append, List.filterMap_flatMap, List.filterMap_map, prunes]
      exact List.flatMap_pure_eq_map _ _
    refine ⟨by have := congrArg (List.filterMap flps) h; rw [hflp, hflp] at this; simpa using this, ?_⟩
    have hall : ∀ m < d, Spec.decisions T s m = Spec.decisions T s' m := by
      intro m hm
      have := congrArg (·[m]?) ((hpr s).symm.trans ((congrArg (List.filterMap prunes) h).trans (hpr s')))
      simpa [List.getElem?_map, List.getElem?_range hm] using this
    intro m
    induction m with
    | zero => intro _; rfl
    | succ m ih => intro hm; exact decisions_determine (ih (by omega)) (hall m (by omega))
  · rintro ⟨h1, h2⟩
    have hl : s.length = s'.length := by simpa using congrArg List.length h1
    unfold Spec.whhScript
    rw [hl, h1, decisions_of_heavyAt (h2 (d - 1) (by omega)) (h2 (d - 1 + 1) (by omega))]
    rw [List.flatMap_congr (l := List.range (d - 1)) (f := fun m => [Req.treeCrawl 1 [] false,
      .treePrune (Spec.decisions T s m)]) (g := fun m => [Req.treeCrawl 1 [] false,
      .treePrune (Spec.decisions T s' m)]) fun m hm => ?_]
    have := List.mem_range.1 hm
    rw [decisions_of_heavyAt (h2 m (by omega)) (h2 (m + 1) (by omega))]

/-- Three toy clients, threshold 2: the requests of the run. -/
example : ∃ (kcs : Pair2 toy) (results printed : List HHResult) (t0 t1 : Server toy),
    Spec.Talk (toyCfg 0 (some 3) .debug) (toyCfg 1 (some 3) .debug) (whhP toy .debug ⟨some 3, 2, 2, 2, 1, 2⟩ 3)
      (.running kcs.1) (.running kcs.2) (Spec.toBoth [.treeInit, .runFlpQueries 0 2, .runFlpQueries 2 3,
        .applyFlpResults [true, true, true], .treeCrawl 1 [] false, .treePrune [false, true],
        .treeCrawl 1 [] false, .treePrune [true, false], .treeCrawlLast, .getProofs 0 2, .getProofs 2 3,
        .treePrune [true, false], .finalShares]) (.whh results printed) t0 t1 ∧
    results.map (fun r => (r.path, r.value)) = [([true, false, false], [1, 1, 2])] := by
  obtain ⟨kcs, h1, h2, h3, h4, h5, h6, h7, h8, h9, h10⟩ :=
    toy_honest 2 3 [([true, false, false], 0), ([true, false, false], 1), ([true, true, false], 1)] (by decide)
  obtain ⟨r, pr, t0, t1, g1, g2⟩ := C92_script (c0 := toyCfg 0 (some 3) .debug)
    (c1 := toyCfg 1 (some 3) .debug) (bld := .debug) (cfg := ⟨some 3, 2, 2, 2, 1, 2⟩) (d := 3)
    (clients := [([true, false, false], 0), ([true, false, false], 1), ([true, true, false], 1)].map some) rfl
    (by decide) (by decide) h1 h2 h3 (by rw [h4]; decide) h5 h6 h7
    (population_honest h8 (fun _ _ => toy_flpComplete _ _) (by decide) h9 h10) (by decide) (by decide)
    ⟨[true], rfl, by decide⟩
  refine ⟨kcs, r, pr, t0, t1, ?_, g2.trans (by decide +kernel)⟩
  rw [show Spec.toBoth [Req.treeInit, .runFlpQueries 0 2, .runFlpQueries 2 3,
    .applyFlpResults [true, true, true], .treeCrawl 1 [] false, .treePrune [false, true],
    .treeCrawl 1 [] false, .treePrune [true, false], .treeCrawlLast, .getProofs 0 2, .getProofs 2 3,
    .treePrune [true, false], .finalShares] = Spec.toBoth (Spec.whhScript 2 2 3 ([([true, false, false], 0),
      ([true, false, false], 1), ([true, true, false], (1 : Nat))].map fun x => some x.1)) from ?_]
  · exact g1
  · rfl

/-- The same strings with other weights meet the hypotheses of `C92_weights`. -/
example : ∃ (kcs kcs' : Pair2 toy) (sent : List (Req × Req)) (out out' : Shown) (t0 t1 t0' t1' : Server toy),
    Spec.Talk (toyCfg 0 (some 2) .debug) (toyCfg 1 (some 2) .debug) (whhP toy .debug ⟨some 2, 2, 2, 2, 1, 1⟩ 2)
      (.running kcs.1) (.running kcs.2) sent out t0 t1 ∧
    Spec.Talk (toyCfg 0 (some 2) .debug) (toyCfg 1 (some 2) .debug) (whhP toy .debug ⟨some 2, 2, 2, 2, 1, 1⟩ 2)
      (.running kcs'.1) (.running kcs'.2) sent out' t0' t1' := by
  obtain ⟨kcs, h1, h2, h3, h4, h5, h6, h7, h8, h9, h10⟩ :=
    toy_honest 2 2 [([true, false], 0), ([true, true], 1)] (by decide)
  obtain ⟨kcs', h1', h2', h3', h4', h5', h6', h7', h8', h9', h10'⟩ :=
    toy_honest 2 2 [([true, false], 1), ([true, true], 1)] (by decide)
  exact ⟨kcs, kcs', C92_weights (c0 := toyCfg 0 (some 2) .debug)
    (c1 := toyCfg 1 (some 2) .debug) (bld := .debug) (cfg := ⟨some 2, 2, 2, 2, 1, 1⟩) (d := 2)
    (clients := [([true, false], 0), ([true, true], 1)].map some)
    (clients' := [([true, false], 1), ([true, true], 1)].map some) rfl
    (by decide) (by decide) h1 h2 h3 (by rw [h4]; decide) h5 h6 h7
    h1' h2' h3' (by rw [h4']; decide) h5' h6' h7'
    (population_honest h8 (fun _ _ => toy_flpComplete _ _) (by decide) h9 h10)
    (population_honest h8' (fun _ _ => toy_flpComplete _ _) (by decide) h9' h10') rfl (by decide) (by decide)
    ⟨[], rfl, by decide⟩⟩

/-- Strings that differ in a light part lead to the same requests; strings with different heavy prefixes do not. -/
example : Spec.whhScript 2 2 3 [some [true, false, false], some [true, false, false], some [false, true, false]]
      = Spec.whhScript 2 2 3 [some [false, false, true], some [true, false, false], some [true, false, false]] ∧
    Spec.whhScript 2 2 3 [some [true, false, false], some [true, false, false], some [false, true, false]]
      ≠ Spec.whhScript 2 2 3 [some [true, false, false], some [false, true, false], some [false, true, false]] := by
  rw [C92_reveals (by decide), Ne, C92_reveals (by decide)]
  refine ⟨⟨rfl, by decide +kernel⟩, fun h => ?_⟩
  have := h.2 1 (by decide)
  revert this
  decide +kernel

/-! ### Attribute-based metrics -/

theorem tells_abmLoop {c0 c1 : ServerCfg} {cfg : Config} {attributes : List (List Bool)} :
    ∀ {rs : List (Nat × Nat)} {kcs k : Pair2 P} {sent : List (Req × Req)} {out : List AbmOut},
    Tells c0 c1 (abmLoopP P cfg attributes rs) kcs sent out k →
    sent = Spec.toBoth (Spec.abmScript attributes rs (out.map AbmOut.rejected))
  | [], kcs, k, sent, out, h => by
    obtain ⟨rfl, -, -⟩ := tells_ret h
    rfl
  | r :: rs, kcs, k, sent, out, h => by
    rw [abmLoopP] at h
    obtain ⟨x, y, o, k1, rfl, h1, g1⟩ := tells_bind h
    obtain ⟨x2, y2, os, k2, rfl, h2, g2⟩ := tells_bind g1
    obtain ⟨rfl, -, rfl⟩ := tells_ret g2
    rw [tells_abmLoop h2]
    unfold abmBatchP at h1
    obtain ⟨x3, y3, v, k3, rfl, h3, g3⟩ := tells_bind h1
    obtain ⟨x4, y4, u4, k4, rfl, h4, g4⟩ := tells_bind g3
    obtain ⟨x5, y5, u5, k5, rfl, h5, g5⟩ := tells_bind g4
    obtain ⟨x6, y6, rej, k6, rfl, h6, g6⟩ := tells_bind g5
    obtain ⟨x7, y7, a, k7, rfl, h7, g7⟩ := tells_bind g6
    obtain ⟨rfl, -, rfl⟩ := tells_ret g7
    obtain ⟨rfl, -, -⟩ := tells_lift h4
    obtain ⟨rfl, -, -⟩ := tells_lift h5
    obtain ⟨rfl, -, -⟩ := tells_lift h6
    rw [tells_validated h3, tells_vecs h7]
    simp [Spec.abmScript, Spec.toBoth]

/-- **C92.** Attribute-based metrics, whatever the reports: the requests of a run that completes are a function of the
attributes, the batches and the rejections that the run shows. -/
theorem C92_abm {c0 c1 : ServerCfg} {cfg : Config} {kcs kcs' : Pair2 P} {attrs : List (List Bool)} {n : Nat}
    {out : List AbmOut} (hb : 1 ≤ cfg.queryBatch) (h : runAbm c0 c1 cfg kcs attrs n = .ok (kcs', out)) :
    Spec.Talk c0 c1 (abmLoopP P cfg attrs (Spec.batches n cfg.queryBatch)) (.running kcs.1) (.running kcs.2)
      (Spec.toBoth (Spec.abmScript attrs (Spec.batches n cfg.queryBatch) (out.map AbmOut.rejected)))
      out (.running kcs'.1) (.running kcs'.2) := by
  unfold runAbm stepByRanges at h
  rw [if_neg (by omega), ok_bind] at h
  have he : (abmLoopP P cfg attrs (Spec.batches n cfg.queryBatch)).exec c0 c1 kcs = .ok (out, kcs') :=
    (exec_abmLoop cfg attrs _ kcs _).2 (by
      rw [show abmLoop c0 c1 cfg attrs (Spec.batches n cfg.queryBatch) kcs = _ from h, ok_bind])
  obtain ⟨sent, ht⟩ := tells_exec he
  obtain rfl := tells_abmLoop ht
  exact ht

/-- Two toy clients in one batch. -/
example : ∃ (kcs kcs' : Pair2 toy) (out : List AbmOut),
    Spec.Talk (toyCfg 0 (some 2) .debug) (toyCfg 1 (some 2) .debug)
      (abmLoopP toy ⟨some 2, 2, 2, 2, 1, 1⟩ [[true], [true, false]] [(0, 2)]) (.running kcs.1) (.running kcs.2)
      (Spec.toBoth [.abmValidate [[true], [true, false]] 0 2, .abmResult [] 2 0 2]) out
      (.running kcs'.1) (.running kcs'.2) := by
  obtain ⟨kcs, h1, h2, h3, h4, h5, h6, h7, h8, h9, h10⟩ :=
    toy_honest 2 2 [([true, false], 0), ([true, true], 1)] (by decide)
  obtain ⟨kcs', g⟩ := C47_honest_exact (c0 := toyCfg 0 (some 2) .debug) (c1 := toyCfg 1 (some 2) .debug)
    (kcs := ({ kcs.1 with abmState := [] }, { kcs.2 with abmState := [] }))
    (cfg := ⟨some 2, 2, 2, 2, 1, 1⟩) (attrs := [[true], [true, false]]) (by decide) (by decide) h1 h2 h3
    (by show kcs.2.serverId ≠ 0; rw [h4]; decide) h5 h8 (fun _ _ => toy_flpComplete _ _) (by decide) rfl rfl
  exact ⟨_, kcs', _, C92_abm (by decide) g⟩

end Mastic
