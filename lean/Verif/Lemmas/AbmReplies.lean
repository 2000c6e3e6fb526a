import Verif.Lemmas.World
import Verif.Lemmas.AbmRun

/-!
# Lemmas: the answers of one server in an attribute-based-metrics run
-/

namespace Mastic.Spec

/-- The strings at which a server evaluates its key for a list of attributes: the one-bit strings and the extensions by
one bit of all strict prefixes of the attributes. -/
def attributePaths (attrs : List (List Bool)) : List (List Bool) :=
  [[false], [true]] ++ attrs.flatMap fun p => (strictPrefixes p).flatMap fun q => [q ++ [false], q ++ [true]]

end Mastic.Spec

namespace Mastic

variable {P Q Q' : Prims} {c : ServerCfg}

/-! ### Where the keys are evaluated -/

theorem attributePaths_ext {attrs : List (List Bool)} {p q : List Bool} (hp : p ∈ attrs) (hq : q <+: p) (hne : q ≠ p)
    (b : Bool) : q ++ [b] ∈ Spec.attributePaths attrs := by
  refine List.mem_append_right _ (List.mem_flatMap.2 ⟨p, hp, List.mem_flatMap.2 ⟨q, mem_strictPrefixes.2 ⟨hq, hne⟩, ?_⟩⟩)
  cases b <;> simp

theorem attributePaths_prefix {attrs : List (List Bool)} {p q : List Bool} (hp : p ∈ attrs) (hq : q <+: p)
    (h0 : q ≠ []) : q ∈ Spec.attributePaths attrs := by
  have e := List.dropLast_append_getLast h0
  rw [← e]
  have hl : q.dropLast.length < q.length := by
    rw [List.length_dropLast]
    have := List.length_pos_iff.2 h0
    omega
  refine attributePaths_ext hp ((List.dropLast_prefix q).trans hq) ?_ _
  intro h
  have := hq.length_le
  rw [← h] at this
  omega

theorem attributePaths_length {attrs : List (List Bool)} {d : Nat} (hd : 1 ≤ d) (ha : ∀ p ∈ attrs, p.length ≤ d)
    {p : List Bool} (hp : p ∈ Spec.attributePaths attrs) : p ≠ [] ∧ p.length ≤ d := by
  rcases List.mem_append.1 hp with h | h
  · simp only [List.mem_cons, List.not_mem_nil, or_false] at h
    rcases h with rfl | rfl <;> simp [hd]
  · obtain ⟨a, h1, h⟩ := List.mem_flatMap.1 h
    obtain ⟨q, h2, h⟩ := List.mem_flatMap.1 h
    obtain ⟨h3, h4⟩ := mem_strictPrefixes.1 h2
    have : q.length < a.length := lt_of_le_of_ne h3.length_le fun e => h4 (h3.eq_of_length e)
    have := ha a h1
    simp only [List.mem_cons, List.not_mem_nil, or_false] at h
    rcases h with rfl | rfl <;> simp <;> omega

/-! ### What a server computes for one report -/

theorem pathCheck_congr {key : VidpfKey} {n : Nat} {q : List Bool}
    (h : Spec.evalPath Q' key n q = Spec.evalPath Q key n q)
    (hc : ∀ b, Spec.evalPath Q' key n (q ++ [b]) = Spec.evalPath Q key n (q ++ [b])) :
    Spec.pathCheck Q' key n q = Spec.pathCheck Q key n q := by
  unfold Spec.pathCheck Spec.valueAt
  rw [h, hc, hc]

theorem digestOf_congr (hb : Q'.blake3 = Q.blake3) {n : Nat} {attrs : List (List Bool)} (hne : ∀ p ∈ attrs, p ≠ [])
    {s : ReportShare} (h : ∀ key, Spec.keyOf s = some key → ∀ p ∈ Spec.attributePaths attrs,
      Spec.evalPath Q' key n p = Spec.evalPath Q key n p) :
    Spec.digestOf Q' n attrs s = Spec.digestOf Q n attrs s := by
  cases s with
  | prio3 => rfl
  | mastic nonce key proof parts =>
    have h := h key rfl
    have hv : ∀ b, Spec.valueAt Q' key n [b] = Spec.valueAt Q key n [b] := by
      intro b
      unfold Spec.valueAt
      rw [h [b] (by cases b <;> simp [Spec.attributePaths])]
    unfold Spec.digestOf
    simp only [hv, hb]
    rw [layout_congr (chk1 := fun q => (Spec.pathCheck Q key n q).getD [])
      (prf1 := fun q => (Spec.proofAt Q key n q).getD Block.zero)]
    intro p hp
    refine ⟨?_, fun q hq h0 => ?_⟩
    · unfold Spec.proofAt
      rw [h p (attributePaths_prefix hp (List.prefix_refl _) (hne p hp))]
    · obtain ⟨g1, g2⟩ := mem_strictPrefixes.1 hq
      rw [pathCheck_congr (h q (attributePaths_prefix hp g1 h0)) fun b => h _ (attributePaths_ext hp g1 g2 b)]

theorem mapM_congr_mem {α β : Type} {f g : α → Option β} : ∀ {l : List α}, (∀ x ∈ l, f x = g x) → l.mapM f = l.mapM g
  | [], _ => rfl
  | a :: l, h => by
    rw [List.mapM_cons, List.mapM_cons, h a (List.mem_cons_self ..),
      mapM_congr_mem fun x hx => h x (List.mem_cons_of_mem _ hx)]

theorem tableOf_congr {n : Nat} {attrs : List (List Bool)} (hne : ∀ p ∈ attrs, p ≠ [])
    {s : ReportShare} (h : ∀ key, Spec.keyOf s = some key → ∀ p ∈ Spec.attributePaths attrs,
      Spec.evalPath Q' key n p = Spec.evalPath Q key n p) :
    Spec.tableOf Q' n attrs s = Spec.tableOf Q n attrs s := by
  cases hk : Spec.keyOf s with
  | none => unfold Spec.tableOf; rw [hk]; rfl
  | some key =>
    unfold Spec.tableOf
    rw [hk, Option.bind_some, Option.bind_some]
    refine mapM_congr_mem fun p hp => ?_
    unfold Spec.valueAt
    rw [h key hk p (attributePaths_prefix hp (List.prefix_refl _) (hne p hp))]

/-- What validation returns, in terms of the specification. -/
theorem validate_parts {kc : KeyCollection P} {attrs : List (List Bool)} {i : Nat} {b : Bool} {s : ReportShare}
    {t : List (List Field128)} {q : List Field128} {dg : Vector Byte 32} (hr : kc.reportShares[i]? = some (b, s))
    (h : abmValidateClient kc attrs i = .ok (i, t, q, dg)) :
    Spec.tableOf P kc.inputLen attrs s = some t ∧
    Spec.verifierOf P kc.inputLen kc.serverId kc.verifyKey s = some q ∧
    Spec.digestOf P kc.inputLen attrs s = some dg := by
  refine ⟨?_, ?_⟩
  · obtain ⟨b', s', h1, h2⟩ := abmValidate_table h
    rw [hr] at h1
    cases h1
    exact h2
  · unfold abmValidateClient KeyCollection.flpJointRand at h
    rw [idx_eq_ok.2 hr, ok_bind] at h
    cases s with
    | prio3 => cases h
    | mastic nonce key proof parts =>
      simp only [ReportShare.unwrapVidpfKey, ok_bind, queryRand_eq hr, ReportShare.unwrapFlpProofShare,
        ReportShare.unwrapFlpJointRandParts, ReportShare.nonce] at h
      obtain ⟨⟨vs, beta, bytes⟩, e, h⟩ := bind_eq_ok.1 h
      obtain ⟨-, -, y0, y1, cnt, w0, w1, -, -, hc, hbeta, hbytes⟩ := evalTree_spec e
      obtain ⟨v, hv, h⟩ := bind_eq_ok.1 h
      simp only [unwrapO_eq_ok] at hv
      cases h
      constructor
      · simp only [Spec.verifierOf, w0, w1, Option.bind_eq_bind, Option.bind_some]
        rw [← hbeta, ← hv]
        by_cases h0 : kc.serverId = 0
        · simp only [h0, if_true]; rfl
        · simp only [h0, if_false]; rfl
      · simp only [Spec.digestOf, w0, w1, Option.bind_eq_bind, Option.bind_some, hc, hbytes]
        congr 3
        cases key.keyIdx
        · rfl
        · simp only [if_true]; congr 1; ring

/-! ### The answers -/

/-- The sum of the tables of the clients below `e`, as the server returns it. -/
def rowSum (m n : Nat) (V : Nat → List (List Field128)) (e : Nat) : List (List Field128) :=
  (List.range m).map fun j => (List.range n).map fun k => ((List.range e).map fun i => Spec.cell (V i) j k).sum

theorem rowSum_isSum (m n : Nat) (V : Nat → List (List Field128)) (e : Nat) :
    Spec.IsSum m n ((List.range e).map V) (rowSum m n V e) := by
  refine ⟨⟨by simp [rowSum], ?_⟩, fun j hj k hk => ?_⟩
  · intro r hr
    obtain ⟨j, -, rfl⟩ := List.mem_map.1 hr
    simp
  · simp [rowSum, Spec.cell, hj, hk, List.map_map, Function.comp_def]

/-- A server with reports `0` to `N - 1`: tables, verifier shares and digests. -/
def AbmSide (kc : KeyCollection P) (attrs : List (List Bool)) (N : Nat) (V : Nat → List (List Field128))
    (q : Nat → List Field128) (dg : Nat → Vector Byte 32) : Prop :=
  ∀ i < N, abmValidateClient kc attrs i = .ok (i, V i, q i, dg i)

theorem served_abmBatch {kc : KeyCollection P} {attrs : List (List Bool)} {N : Nat} {V : Nat → List (List Field128)}
    {q : Nat → List Field128} {dg : Nat → Vector Byte 32} (h : AbmSide kc attrs N V q dg) {r : Nat × Nat}
    (hlt : r.1 < r.2) (hle : r.2 ≤ N) (hc : Covers kc attrs r.1) :
    ∃ m, Served c kc [.abmValidate attrs r.1 r.2, .abmResult [] attrs.length r.1 r.2]
        [.validated ((rangeFrom r.1 r.2).map fun i => (q i, dg i)), .fieldVecs (rowSum attrs.length kc.inputLen V r.2)]
        { kc with abmState := m } ∧
      AbmSide { kc with abmState := m } attrs N V q dg ∧ Covers { kc with abmState := m } attrs r.2 := by
  obtain ⟨m, e⟩ := honest_validate (kc := kc) (attrs := attrs) (s := r.1) (e := r.2) hlt.le (x := V) (q := q) (dg := dg)
    fun i _ b => h i (by omega)
  have k0 := covers_step hlt.le hc e
  refine ⟨m, ?_, h, k0⟩
  have t0 : ∀ k < r.2, (kc.reportShares[k]?.bind fun br => Spec.tableOf P kc.inputLen attrs br.2) = some (V k) := by
    intro k hk
    obtain ⟨b, s', h5, h6⟩ := abmValidate_table (h k (by omega))
    rw [h5]; exact h6
  have p0 := k0.perm fun k hk => by
    unfold tableD
    have := t0 k hk
    dsimp only at this ⊢
    rw [this]; rfl
  have hmap : (List.range r.2).map (tableD { kc with abmState := m } attrs) = (List.range r.2).map V := by
    refine List.map_congr_left fun k hk => ?_
    unfold tableD
    have := t0 k (List.mem_range.1 hk)
    dsimp only at this ⊢
    rw [this]; rfl
  rw [hmap] at p0
  have hrow : abmAggregate kc.inputLen attrs.length (c.iter m) = rowSum attrs.length kc.inputLen V r.2 :=
    isSum_unique (abmAggregate_isSum _ _ _) (rowSum_isSum _ _ _ _) (((c.iter_perm m).map Prod.snd).trans p0)
  refine Served.append (x := [_]) (y := [_]) (a := [_]) (b := [_]) (k1 := { kc with abmState := m }) ?_ ?_
  · refine Served.one (by simp [preLock, hlt]) ?_
    simp only [locked, e, ok_bind]
  · refine Served.one (by simp [preLock, hlt]) ?_
    simp only [locked, srvAbmResult, abmReject_nil, ok_bind]
    rw [hrow]

/-- The answers to the requests of a list of batches. -/
def abmAnswers (m n : Nat) (rs : List (Nat × Nat)) (V : Nat → List (List Field128)) (q : Nat → List Field128)
    (dg : Nat → Vector Byte 32) : List Resp :=
  rs.flatMap fun r => [.validated ((rangeFrom r.1 r.2).map fun i => (q i, dg i)), .fieldVecs (rowSum m n V r.2)]

theorem served_abmLoop {attrs : List (List Bool)} {N : Nat} {V : Nat → List (List Field128)}
    {q : Nat → List Field128} {dg : Nat → Vector Byte 32} :
    ∀ (rs : List (Nat × Nat)) {kc : KeyCollection P} {s : Nat}, AbmSide kc attrs N V q dg → Covers kc attrs s → s ≤ N →
      (∀ r ∈ rs, r.1 < r.2 ∧ r.2 ≤ N) →
      (rs.flatMap fun r => List.range' r.1 (r.2 - r.1)) = List.range' s (N - s) →
    ∃ kc', Served c kc (Spec.abmScript attrs rs (rs.map fun _ => [])) (abmAnswers attrs.length kc.inputLen rs V q dg) kc'
  | [], kc, _, _, _, _, _, _ => ⟨kc, .nil kc⟩
  | r :: rs, kc, s, h, hc, hs, hr, hf => by
    obtain ⟨h1, h2⟩ := hr r (by simp)
    rw [List.flatMap_cons] at hf
    have hr1 : r.1 = s := by
      have := congrArg List.head? hf
      rw [List.head?_append] at this
      rcases hd : r.2 - r.1 with _ | d
      · omega
      · rw [hd, List.range'_succ] at this
        rcases hd' : N - s with _ | d'
        · rw [hd'] at this; simp at this
        · rw [hd', List.range'_succ] at this; simpa using this
    have hf' : (rs.flatMap fun r => List.range' r.1 (r.2 - r.1)) = List.range' r.2 (N - r.2) := by
      have hsplit : List.range' s (N - s) = List.range' r.1 (r.2 - r.1) ++ List.range' r.2 (N - r.2) := by
        have := List.range'_append (s := s) (m := r.2 - r.1) (n := N - r.2) (step := 1)
        rw [show s + 1 * (r.2 - r.1) = r.2 by omega, show r.2 - r.1 + (N - r.2) = N - s by omega] at this
        rw [hr1] at this ⊢
        exact this.symm
      rw [hsplit] at hf
      exact List.append_cancel_left hf
    obtain ⟨m, g1, g2, g3⟩ := served_abmBatch (c := c) h h1 h2 (hr1 ▸ hc)
    obtain ⟨k, g4⟩ := served_abmLoop rs g2 g3 h2 (fun x hx => hr x (by simp [hx])) hf'
    exact ⟨k, g1.append g4⟩

/-- The answers of a server in a run. -/
def abmReplies (cfg : Config) (n : Nat) (attrs : List (List Bool)) (sizes : List Nat) (V : Nat → List (List Field128))
    (q : Nat → List Field128) (dg : Nat → Vector Byte 32) : List Resp :=
  .done :: ((sizes.map fun _ => .done) ++
    abmAnswers attrs.length cfg.histBuckets (Spec.batches n cfg.queryBatch) V q dg)

/-- The reports of a population of honest clients. -/
theorem honestAbm_of_population {c0 c1 : ServerCfg} {cfg : Config} {vk : Block} {clients : List (List Bool × Nat)}
    {sh : List (ReportShare × ReportShare)} {d : Nat} {attrs : List (List Bool)} (hd : 1 ≤ d) (h0 : c0.serverId = 0)
    (h1 : c1.serverId ≠ 0) (ha : ∀ p ∈ attrs, p ≠ [] ∧ p.length ≤ d) (hcd : ∀ c ∈ clients, c.1.length = d)
    (hp : Spec.Population P cfg.histBuckets d c0.serverId c1.serverId vk (clients.map some)
      (sh.map fun s => (true, s.1)) (sh.map fun s => (true, s.2))) :
    HonestAbm (uploaded P c0 c1 cfg vk sh) cfg.histBuckets clients attrs := by
  have hl : sh.length = clients.length := by simpa using hp.1
  have key : ∀ (i : Nat) (c : List Bool × Nat) (s : ReportShare × ReportShare), clients[i]? = some c → sh[i]? = some s →
      Spec.HonestPair P cfg.histBuckets c.1 c.2 s.1 s.2 ∧
        Spec.FlpCompleteAt P cfg.histBuckets (P.xofField vk s.1.nonce.toList (P.queryRandLen cfg.histBuckets)) := by
    intro i c s hc hs
    have := (hp.2.2 i (some c) true true s.1 s.2 (by rw [List.getElem?_map, hc]; rfl)
      (by rw [List.getElem?_map, hs]; rfl) (by rw [List.getElem?_map, hs]; rfl)).2.2
    exact ⟨this.1, this.2.2⟩
  refine ⟨rfl, rfl, h0, h1, rfl, ⟨by simp [uploaded, hl], by simp [uploaded, hl], ?_⟩, ?_, ?_⟩
  · intro i c r0 r1 hc g0 g1
    simp only [uploaded, List.getElem?_map, Option.map_eq_some_iff] at g0 g1
    obtain ⟨s, e, rfl⟩ := g0
    obtain ⟨s', e', rfl⟩ := g1
    rw [e] at e'
    cases e'
    exact (key i c s hc e).1
  · intro r hr
    obtain ⟨i, hi⟩ := List.getElem?_of_mem hr
    simp only [uploaded, List.getElem?_map, Option.map_eq_some_iff] at hi
    obtain ⟨s, e, rfl⟩ := hi
    have hic : i < clients.length := by
      have := (List.getElem?_eq_some_iff.1 e).1
      omega
    exact (key i _ s (List.getElem?_eq_getElem hic) e).2
  · intro c hc
    have := hcd c hc
    refine ⟨fun h => by rw [h] at this; simp at this; omega, fun p hp => ⟨(ha p hp).1, by rw [this]; exact (ha p hp).2⟩⟩

/-- An attribute-based-metrics run with all answers. -/
theorem abm_hears {c0 c1 : ServerCfg} {bld : Build} {cfg : Config} {draw : MainDraw} {n d : Nat}
    {weight : Nat → Nat} {aes : Block → Block} (hQ : Q = { P with aes := aes }.withHistogram)
    (w : Spec.RunCoins P.withHistogram cfg.uniqueBuckets cfg.histBuckets d draw) (kcs : Pair2 Q) {num : Nat}
    (hs : Spec.Sensible P.withHistogram cfg draw n) (hb64 : cfg.histBuckets < 2 ^ 64)
    (hxof : ∀ seed binder l, (P.xofField seed binder l).length = l)
    (hroot : ∀ i < n, ∀ t ∈ P.xofField draw.verifyKey (Spec.MainDraw.of draw i).rand.nonce.toList 1,
      t ^ Spec.points cfg.histBuckets 2 ≠ 1)
    (htam : ∀ i < n, (draw.picks i).2 ≠ some .flp) (hd : cfg.dataBits = some d) (hd1 : 1 ≤ d) (h0 : c0.serverId = 0)
    (h1 : c1.serverId ≠ 0) (hattr : ∀ j < num, draw.attributes j < cfg.uniqueBuckets)
    (hw : ∀ i < cfg.uniqueBuckets, weight i < cfg.histBuckets) {r : Nat → Field128 × Field128}
    (hj : ∀ i < cfg.uniqueBuckets, P.xofField
      (seedParts P (draw.reports i).rand.rootSeeds (draw.reports i).rand.nonce).1
      (seedParts P (draw.reports i).rand.rootSeeds (draw.reports i).rand.nonce).2.toList 2 = [(r i).1, (r i).2])
    {sizes : List Nat} (hsz : uploadBatches cfg.addBatch n n = .ok sizes) (hsum : sizes.sum = n) :
    ∃ (sh : List (ReportShare × ReportShare)) (sent : List (Req × Req)) (t0 t1 : Server Q)
      (V0 V1 : Nat → List (List Field128)) (q0 q1 : Nat → List Field128) (dg : Nat → Vector Byte 32),
      Spec.Hears c0 c1 (mainP Q bld cfg (.attributeBasedMetrics num) (Spec.runDraw draw weight w) n) (.running kcs.1)
        (.running kcs.2) sent ((abmReplies cfg n (runAttributes d num draw) sizes V0 q0 dg).zip
          (abmReplies cfg n (runAttributes d num draw) sizes V1 q1 dg))
        (.abm (runAttributes d num draw) ((Spec.batches n cfg.queryBatch).map fun r =>
          ⟨[], Spec.attributeHistograms cfg.histBuckets (runAttributes d num draw)
            ((Spec.runClients d draw weight n).take r.2)⟩)) t0 t1 ∧
      (∀ own, Spec.received own sent = runReceived cfg draw sizes (sh.map fun s => Pair.get s own)
        (Spec.abmScript (runAttributes d num draw) (Spec.batches n cfg.queryBatch)
          ((Spec.batches n cfg.queryBatch).map fun _ => []))) ∧
      sh.length = n ∧
      (∀ (own : Bool), ∀ i < n, ∀ j (hj : j < cfg.uniqueBuckets), j = (draw.picks i).1 - 1 →
        (sh.map fun s => Pair.get s own)[i]? = some (.mastic (draw.reports j).rand.nonce
          (Pair.get (VidpfKey.gen Q (draw.reports j).rand.rootSeeds (Spec.stringOf d (draw.reports j))
            (Spec.bucketVec cfg.histBuckets (weight j))) own)
          (Pair.get (shareProof (proofOf cfg.histBuckets 2 (Spec.bucketVec cfg.histBuckets (weight j))
              (List.ofFn (w ⟨j, hj⟩).2.1) (r j).1)
            (Spec.coinsRand (draw.reports j).rand.nonce (w ⟨j, hj⟩)).proofRand) own)
          (seedParts P (draw.reports j).rand.rootSeeds (draw.reports j).rand.nonce))) ∧
      (∀ own, ∀ i < n, ∃ s, (sh.map fun s => Pair.get s own)[i]? = some s ∧
        Spec.tableOf Q cfg.histBuckets (runAttributes d num draw) s = some (Pair.get (V0, V1) own i) ∧
        Spec.verifierOf Q cfg.histBuckets (Pair.get (c0.serverId, c1.serverId) own) draw.verifyKey s
          = some (Pair.get (q0, q1) own i) ∧
        Spec.digestOf Q cfg.histBuckets (runAttributes d num draw) s = some (dg i)) ∧
      ∀ e ≤ n, addRows (rowSum (runAttributes d num draw).length cfg.histBuckets V0 e)
          (rowSum (runAttributes d num draw).length cfg.histBuckets V1 e)
        = Spec.attributeHistograms cfg.histBuckets (runAttributes d num draw)
            ((Spec.runClients d draw weight n).take e) := by
  obtain ⟨sh, sent, t0, t1, a1, a2, a4, a5, a6⟩ := run_abm (c0 := c0) (c1 := c1) (bld := bld) (num := num)
    (weight := weight) hQ w kcs hs hb64 hxof hroot htam hd hd1 h0 h1 hattr hw hj hsz
  have hcn : (Spec.runClients d draw weight n).length = n := by simp [Spec.runClients]
  have hH := honestAbm_of_population (P := Q) (c0 := c0) (c1 := c1) (attrs := runAttributes d num draw) hd1 h0 h1 (by
      intro p hp
      unfold runAttributes at hp
      rw [(draw.setOrder_perm _).mem_iff, List.mem_dedup, List.mem_map] at hp
      obtain ⟨j, -, rfl⟩ := hp
      refine ⟨fun h => ?_, by simp [Spec.stringOf]⟩
      have := congrArg List.length h
      simp [Spec.stringOf] at this
      omega) (by
      intro c hc
      unfold Spec.runClients at hc
      obtain ⟨i, -, rfl⟩ := List.mem_map.1 hc
      simp [Spec.stringOf]) a5
  have key : ∀ i, ∃ (x : List (List Field128) × List (List Field128) × List Field128 × List Field128 × Vector Byte 32),
      i < n → ∃ c beta, (Spec.runClients d draw weight n)[i]? = some c ∧
        encodeMeasurement cfg.histBuckets c.2 = some beta ∧
        abmValidateClient (uploaded Q c0 c1 cfg draw.verifyKey sh).1 (runAttributes d num draw) i
          = .ok (i, x.1, x.2.2.1, x.2.2.2.2) ∧
        abmValidateClient (uploaded Q c0 c1 cfg draw.verifyKey sh).2 (runAttributes d num draw) i
          = .ok (i, x.2.1, x.2.2.2.1, x.2.2.2.2) ∧
        List.zipWith Spec.addShares x.1 x.2.1 = (runAttributes d num draw).map (Spec.pointValue c.1 beta) := by
    intro i
    by_cases hi : i < n
    · obtain ⟨c, beta, v0, v1, q0, q1, dg, e1, e2, e3, e4, e5, -⟩ := hH.client (i := i) (by omega)
      exact ⟨(v0, v1, q0, q1, dg), fun _ => ⟨c, beta, e1, e2, e3, e4, e5⟩⟩
    · exact ⟨([], [], [], [], P.blake3 []), fun h => absurd h hi⟩
  choose X hX using key
  have side0 : AbmSide (uploaded Q c0 c1 cfg draw.verifyKey sh).1 (runAttributes d num draw) n (fun i => (X i).1)
      (fun i => (X i).2.2.1) (fun i => (X i).2.2.2.2) := fun i hi => by
    obtain ⟨c, beta, -, -, e, -⟩ := hX i hi
    exact e
  have side1 : AbmSide (uploaded Q c0 c1 cfg draw.verifyKey sh).2 (runAttributes d num draw) n (fun i => (X i).2.1)
      (fun i => (X i).2.2.2.1) (fun i => (X i).2.2.2.2) := fun i hi => by
    obtain ⟨c, beta, -, -, -, e, -⟩ := hX i hi
    exact e
  have cov : ∀ kc : KeyCollection Q, kc.abmState = [] → Covers kc (runAttributes d num draw) 0 := by
    intro kc h
    refine ⟨by rw [h]; exact List.nodup_nil, fun k => ?_⟩
    rw [h, if_neg (by omega)]; rfl
  obtain ⟨rs, hrs, ⟨hp1, hp2⟩, -⟩ := stepByRanges_spec (n := n) hs.queryBatch
  have hst : stepByRanges n cfg.queryBatch = .ok (Spec.batches n cfg.queryBatch) := by
    unfold stepByRanges
    rw [if_neg (by have := hs.queryBatch; omega)]
    rfl
  obtain rfl := Except.ok.inj (hrs.symm.trans hst)
  obtain ⟨k0, s0⟩ := served_abmLoop (c := c0) _ side0 (cov _ rfl) (Nat.zero_le _) hp1
    (by rw [Nat.sub_zero, ← List.range_eq_range']; exact hp2)
  obtain ⟨k1, s1⟩ := served_abmLoop (c := c1) _ side1 (cov _ rfl) (Nat.zero_le _) hp1
    (by rw [Nat.sub_zero, ← List.range_eq_range']; exact hp2)
  have hh : Q.histOk cfg.histBuckets = true := by rw [hQ]; exact hs.hist
  have m0 := served_main (P := Q) (shares := sh.map Prod.fst) (draw := draw) (kc := kcs.1) (cfg := cfg) hh
    (hsum.trans (by rw [List.length_map, a4])) (by rw [List.map_map]; exact s0)
  have m1 := served_main (P := Q) (shares := sh.map Prod.snd) (draw := draw) (kc := kcs.2) (cfg := cfg) hh
    (hsum.trans (by rw [List.length_map, a4])) (by rw [List.map_map]; exact s1)
  refine ⟨sh, sent, t0, t1, fun i => (X i).1, fun i => (X i).2.1, fun i => (X i).2.2.1, fun i => (X i).2.2.2.1,
    fun i => (X i).2.2.2.2, hears_of_talk a1 ?_ ?_, a2, a4, a6, ?_, ?_⟩
  · rw [a2 false]
    exact congrArg Prod.snd m0
  · rw [a2 true]
    exact congrArg Prod.snd m1
  · intro own i hi
    obtain ⟨c, beta, -, -, e0, e1, -⟩ := hX i hi
    have hi' : i < sh.length := by omega
    refine ⟨Pair.get sh[i] own, by rw [List.getElem?_map, List.getElem?_eq_getElem hi']; rfl, ?_⟩
    cases own with
    | false => exact validate_parts (b := true) (s := sh[i].1) (by simp [uploaded, hi']) e0
    | true => exact validate_parts (b := true) (s := sh[i].2) (by simp [uploaded, hi']) e1
  · intro e he
    refine honest_aggregate (by rw [hcn]; exact he) (V0 := fun i => (X i).1) (V1 := fun i => (X i).2.1) ?_
      (rowSum_isSum _ _ _ _) (rowSum_isSum _ _ _ _)
    intro i c hi hc
    obtain ⟨c', beta, g1, g2, -, -, g3⟩ := hX i (by omega)
    rw [hc] at g1
    cases g1
    exact ⟨beta, g2, g3⟩

end Mastic
